import Verif.Lemmas.Additions
import Verif.Lemmas.Module
/-!
# Lemmas about what is written if there are more declarations
-/
namespace Verif
open Spec

/-! ### Lists -/

theorem extends_filterMap {α β : Type} {p : α → Prop} {q : β → Prop} (f : α → Option β)
    (h : ∀ a b, p a → f a = some b → q b) {l l' : List α} (hl : Extends p l l') :
    Extends q (l.filterMap f) (l'.filterMap f) := by
  induction hl with
  | nil => exact .nil
  | @keep a l l' _ ih =>
    rw [List.filterMap_cons, List.filterMap_cons]
    cases f a with
    | none => exact ih
    | some b => exact .keep ih
  | @add a l l' ha _ ih =>
    rw [List.filterMap_cons]
    cases hf : f a with
    | none => exact ih
    | some b => exact .add (h a b ha hf) ih

theorem extends_front {α : Type} {q : α → Prop} (a : List α) {l l' : List α} (h : Extends q l l') :
    Extends q (a ++ l) (a ++ l') := by
  induction a with
  | nil => exact h
  | cons x a ih => exact .keep ih

theorem extends_more {α : Type} {q : α → Prop} (a : List α) (ha : ∀ x ∈ a, q x) {l l' : List α}
    (h : Extends q l l') : Extends q l (a ++ l') := by
  induction a with
  | nil => exact h
  | cons x a ih => exact .add (ha x (by simp)) (ih fun y hy => ha y (by simp [hy]))

theorem extends_flatMap {α β : Type} {p : α → Prop} {q : β → Prop} (f : α → List β)
    (h : ∀ a, p a → ∀ b ∈ f a, q b) {l l' : List α} (hl : Extends p l l') :
    Extends q (l.flatMap f) (l'.flatMap f) := by
  induction hl with
  | nil => exact .nil
  | @keep a l l' _ ih =>
    rw [List.flatMap_cons, List.flatMap_cons]
    exact extends_front _ ih
  | @add a l l' ha _ ih =>
    rw [List.flatMap_cons]
    exact extends_more _ (h a ha) ih

theorem extends_filter {α : Type} {p : α → Prop} (f : α → Bool) (h : ∀ a, p a → f a = false)
    {l l' : List α} (hl : Extends p l l') : l'.filter f = l.filter f := by
  induction hl with
  | nil => rfl
  | @keep a l l' _ ih => rw [List.filter_cons, List.filter_cons, ih]
  | @add a l l' ha _ ih => rw [List.filter_cons, h a ha, ih]; rfl

theorem extends_mem {α : Type} {p : α → Prop} {l l' : List α} (hl : Extends p l l') (x : α) :
    (x ∈ l → x ∈ l') ∧ (x ∈ l' → x ∈ l ∨ p x) := by
  induction hl with
  | nil => exact ⟨id, .inl⟩
  | keep _ ih =>
    simp only [List.mem_cons]
    exact ⟨fun h => h.imp id ih.1, fun h => h.elim (fun h => .inl (.inl h)) fun h =>
      (ih.2 h).imp .inr id⟩
  | add ha _ ih =>
    simp only [List.mem_cons]
    exact ⟨fun h => .inr (ih.1 h), fun h => h.elim (fun h => .inr (h ▸ ha)) ih.2⟩

theorem extends_sides {α : Type} {p : α → Prop} (a : List α) {l l' : List α} (h : Extends p l l') :
    Extends p (l ++ a) (l' ++ a) := by
  induction h with
  | nil => simpa using extends_front a (Extends.nil (p := p))
  | keep _ ih => exact .keep ih
  | add ha _ ih => exact .add ha ih

theorem insertDecl_le (w : World) (x : Nat) (l : List Nat) (h : ∀ y ∈ l, w.loc x ≤ w.loc y) :
    insertDecl w x l = x :: l := by
  cases l with
  | nil => rfl
  | cons y l =>
    rw [insertDecl, if_pos (h y (by simp))]

theorem mem_insertDecl' (w : World) (x y : Nat) (l : List Nat) : y ∈ insertDecl w x l ↔ y = x ∨ y ∈ l := by
  induction l with
  | nil => simp [insertDecl]
  | cons z l ih =>
    rw [insertDecl]
    split
    · simp
    · simp only [List.mem_cons, ih]
      constructor
      · rintro (h | h | h)
        · exact .inr (.inl h)
        · exact .inl h
        · exact .inr (.inr h)
      · rintro (h | h | h)
        · exact .inr (.inl h)
        · exact .inl h
        · exact .inr (.inr h)

theorem insertDecl_pairwise (w : World) (x : Nat) (l : List Nat)
    (h : l.Pairwise fun a b => w.loc a ≤ w.loc b) :
    (insertDecl w x l).Pairwise fun a b => w.loc a ≤ w.loc b := by
  induction l with
  | nil => simp [insertDecl]
  | cons y l ih =>
    rw [List.pairwise_cons] at h
    rw [insertDecl]
    split
    · rename_i hxy
      refine List.pairwise_cons.2 ⟨fun z hz => ?_, List.pairwise_cons.2 h⟩
      rcases List.mem_cons.1 hz with rfl | hz
      · exact hxy
      · exact Nat.le_trans hxy (h.1 z hz)
    · rename_i hxy
      refine List.pairwise_cons.2 ⟨fun z hz => ?_, ih h.2⟩
      rcases (mem_insertDecl' ..).1 hz with rfl | hz
      · omega
      · exact h.1 z hz

theorem sortDecls_pairwise (w : World) (l : List Nat) :
    (sortDecls w l).Pairwise fun a b => w.loc a ≤ w.loc b := by
  induction l with
  | nil => exact .nil
  | cons x l ih => exact insertDecl_pairwise w x _ ih

theorem extends_insert_both {p : Nat → Prop} (w : World) (x : Nat) {l l' : List Nat}
    (h : Extends p l l') (hs : l'.Pairwise fun a b => w.loc a ≤ w.loc b) :
    Extends p (insertDecl w x l) (insertDecl w x l') := by
  induction h with
  | nil => exact .keep .nil
  | @keep a l l' h ih =>
    rw [insertDecl, insertDecl]
    split
    · exact .keep (.keep h)
    · exact .keep (ih (List.pairwise_cons.1 hs).2)
  | @add a l l' ha h ih =>
    rw [List.pairwise_cons] at hs
    rw [insertDecl.eq_2 w x a l']
    split
    · rename_i hxa
      rw [insertDecl_le w x l fun y hy => Nat.le_trans hxa (hs.1 y ((extends_mem h y).1 hy))]
      exact .keep (.add ha h)
    · exact .add ha (ih hs.2)

theorem extends_insert_one {p : Nat → Prop} (w : World) (x : Nat) (hx : p x) {l l' : List Nat}
    (h : Extends p l l') : Extends p l (insertDecl w x l') := by
  induction h with
  | nil => exact .add hx .nil
  | @keep a l l' h ih =>
    rw [insertDecl]
    split
    · exact .add hx (.keep h)
    · exact .keep ih
  | @add a l l' ha h ih =>
    rw [insertDecl]
    split
    · exact .add hx (.add ha h)
    · exact .add ha ih

theorem extends_sort {p : Nat → Prop} (w : World) {l l' : List Nat} (h : Extends p l l') :
    Extends p (sortDecls w l) (sortDecls w l') := by
  induction h with
  | nil => exact .nil
  | keep _ ih => exact extends_insert_both w _ ih (sortDecls_pairwise w _)
  | add ha _ ih => exact extends_insert_one w _ ha ih

/-! ### Declarations without annotations -/

theorem unannotated_has (w : World) (d : Nat) (h : Unannotated w d) (e : Bool) :
    hasAnnotations (w.info d) e = false := by
  unfold hasAnnotations
  rw [List.any_eq_false]
  intro t ht hc
  cases hf : consumeFront lozenge t with
  | none => rw [hf] at hc; cases hc
  | some r =>
    have hm : hasAnnotations (w.info d) = true := by
      unfold hasAnnotations
      rw [List.any_eq_true]
      exact ⟨t, ht, by rw [hf]; rfl⟩
    obtain ⟨t, ht, hp⟩ := (hasAnnotations_iff _).1 hm
    exact h t ht hp

theorem unannotated_texts (w : World) (d : Nat) (h : Unannotated w d) (acc : List Annotation) :
    parseAllTexts d acc (w.info d).attrTexts = (acc, []) := by
  have h' : ∀ t ∈ (w.info d).attrTexts, consumeFront lozenge t = none := by
    intro t ht
    have := unannotated_has w d h true
    unfold hasAnnotations at this
    rw [List.any_eq_false] at this
    have := this t ht
    cases hf : consumeFront lozenge t with
    | none => rfl
    | some r => rw [hf] at this; simp at this
  revert h'
  generalize (w.info d).attrTexts = l
  intro h'
  induction l with
  | nil => rfl
  | cons t l ih =>
    rw [parseAllTexts]
    rw [h' t (by simp)]
    exact ih fun t ht => h' t (by simp [ht])

/-- The attributes of a declaration without annotations. -/
theorem unannotated_insert (w : World) (d : Nat) (h : Unannotated w d) :
    firstInsert w.toDeclEnv d = (freshAttrs (w.info d), []) := by
  unfold firstInsert
  dsimp only
  rw [unannotated_texts w d h, unannotated_has w d h]
  unfold supportsTypedefDiags
  rw [unannotated_has w d h]
  simp [applyAnnotations]

/-- A declaration without annotations that is no context. -/
def Quiet (w : World) (d : Nat) : Prop :=
  Unannotated w d ∧ (w.info d).kind.isLookupContext = false

theorem quiet_skip (w : World) (d : Nat) (h : Quiet w d) : shouldSkip (w.info d) = false := by
  have := h.2
  unfold shouldSkip
  cases hk : (w.info d).kind <;> rw [hk] at this <;> simp [DeclKind.isTag, DeclKind.isLookupContext] at this ⊢

/-- Storages of both runs. -/
structure Alike (w : World) (s s' : Storage) : Prop where
  entry : ∀ d, s'.entries d = s.entries d ∨
    Quiet w d ∧ s.entries d = none ∧ s'.entries d = some (freshAttrs (w.info d))
  quiet : ∀ d, Quiet w d → ∀ a, s'.entries d = some a → a = freshAttrs (w.info d)

theorem alike_context {w : World} {s s' : Storage} (h : Alike w s s') (d : Nat)
    (hd : (w.info d).kind.isLookupContext = true) : s'.entries d = s.entries d := by
  rcases h.entry d with e | ⟨e, _⟩
  · exact e
  · rw [e.2] at hd; cases hd

theorem insert_result (w : World) (s : Storage) (d : Nat) :
    (s.insert w.toDeclEnv d).1.entries = (fun x =>
      if x = d ∧ shouldSkip (w.info d) = false ∧ s.entries d = none
        then some (firstInsert w.toDeclEnv d).1 else s.entries x) ∧
    (s.insert w.toDeclEnv d).2 =
      if shouldSkip (w.info d) = true then
        [{ decl := d, kind := .invalidAssumption, args := [t%"annotations are only parsed during initial pass"] }]
      else if s.entries d = none then (firstInsert w.toDeclEnv d).2 else [] := by
  cases hs : shouldSkip (w.info d) with
  | true =>
    unfold Storage.insert
    have hs' : shouldSkip (w.toDeclEnv.info d) = true := hs
    rw [if_pos hs']
    simp
  | false =>
    cases he : s.entries d with
    | some a =>
      have hh : s.has d = true := by simp [Storage.has, he]
      unfold Storage.insert
      have hs' : ¬ shouldSkip (w.toDeclEnv.info d) = true := by
        show ¬ shouldSkip (w.info d) = true
        rw [hs]; simp
      rw [if_neg hs', if_pos hh]
      simp
    | none =>
      have hh : s.has d = false := by simp [Storage.has, he]
      rw [insert_eq w.toDeclEnv s d hs hh]
      simp only [Storage.set]
      refine ⟨funext fun x => ?_, by simp⟩
      by_cases hx : x = d <;> simp [hx]

theorem alike_insert_both {w : World} {s s' : Storage} (h : Alike w s s') (d : Nat) :
    Alike w (s.insert w.toDeclEnv d).1 (s'.insert w.toDeclEnv d).1 ∧
    (s'.insert w.toDeclEnv d).2 = (s.insert w.toDeclEnv d).2 ∧
    (s'.insert w.toDeclEnv d).1.entries d = (s.insert w.toDeclEnv d).1.entries d := by
  obtain ⟨a1, a2⟩ := insert_result w s d
  obtain ⟨b1, b2⟩ := insert_result w s' d
  have hd : (s'.insert w.toDeclEnv d).1.entries d = (s.insert w.toDeclEnv d).1.entries d := by
    rw [a1, b1]
    rcases h.entry d with e | ⟨e1, e2, e3⟩
    · simp only [e, true_and]
    · simp [e2, e3, quiet_skip w d e1, unannotated_insert w d e1.1]
  refine ⟨⟨fun x => ?_, fun x hx a ha => ?_⟩, ?_, hd⟩
  · by_cases hx : x = d
    · subst hx; exact .inl hd
    · rw [a1, b1]
      simp only [hx, false_and, if_false]
      exact h.entry x
  · rw [b1] at ha
    dsimp only at ha
    split at ha
    · rename_i hc
      obtain ⟨rfl, _⟩ := hc
      rw [unannotated_insert w x hx.1] at ha
      cases ha; rfl
    · exact h.quiet x hx a ha
  · rw [a2, b2]
    rcases h.entry d with e | ⟨e1, e2, e3⟩
    · rw [e]
    · simp [e2, e3, quiet_skip w d e1, unannotated_insert w d e1.1]

theorem alike_insert_one {w : World} {s s' : Storage} (h : Alike w s s') (d : Nat) (hd : Quiet w d) :
    Alike w s (s'.insert w.toDeclEnv d).1 ∧ (s'.insert w.toDeclEnv d).2 = [] ∧
    (s'.insert w.toDeclEnv d).1.entries d = some (freshAttrs (w.info d)) := by
  obtain ⟨b1, b2⟩ := insert_result w s' d
  have he : (s'.insert w.toDeclEnv d).1.entries d = some (freshAttrs (w.info d)) := by
    rw [b1]
    cases hc : s'.entries d with
    | none => simp [quiet_skip w d hd, unannotated_insert w d hd.1]
    | some a => simp [hc, h.quiet d hd a hc]
  refine ⟨⟨fun x => ?_, fun x hx a ha => ?_⟩, ?_, he⟩
  · by_cases hx : x = d
    · subst hx
      rcases h.entry x with e | ⟨e1, e2, e3⟩
      · cases hc : s'.entries x with
        | none => exact .inr ⟨hd, by rw [← e, hc], he⟩
        | some a => left; rw [he, ← e, hc, h.quiet x hd a hc]
      · exact .inr ⟨e1, e2, he⟩
    · rw [b1]
      simp only [hx, false_and, if_false]
      exact h.entry x
  · by_cases hxd : x = d
    · subst hxd; rw [he] at ha; cases ha; rfl
    · rw [b1] at ha
      simp only [hxd, false_and, if_false] at ha
      exact h.quiet x hx a ha
  · rw [b2, quiet_skip w d hd, unannotated_insert w d hd.1]
    simp

/-! ### Emission -/

/-- States of exposers of both runs. -/
structure AlikeSt (w : World) (st st' : Exposing) : Prop where
  storage : Alike w st.storage st'.storage
  properties : st'.properties = st.properties
  emitted : st'.emitted = st.emitted

theorem handleDeclImpl_alike (w : EmitWorld) (e : Exposer) {st st' : Exposing}
    (h : AlikeSt w.toWorld st st') (a : DeclAttrs) (d : Nat) :
    AlikeSt w.toWorld (e.handleDeclImpl w st a d) (e.handleDeclImpl w st' a d) := by
  cases e with
  | record x p =>
    simp only [Exposer.handleDeclImpl, Exposing.emit, h.properties, h.emitted]
    exact ⟨h.storage, rfl, rfl⟩
  | _ =>
    simp only [Exposer.handleDeclImpl, Exposing.emit, h.emitted]
    exact ⟨h.storage, h.properties, rfl⟩

theorem propose_both (w : EmitWorld) (e : Exposer) (dv : Bool) {st st' : Exposing}
    (h : AlikeSt w.toWorld st st') (d : Nat) :
    AlikeSt w.toWorld (e.propose w dv st d) (e.propose w dv st' d) := by
  obtain ⟨h1, h2, h3⟩ := alike_insert_both h.storage d
  unfold Exposer.propose Exposer.handleDecl
  dsimp only
  rw [h3]
  have hst : AlikeSt w.toWorld
      { st with storage := (st.storage.insert w.toDeclEnv d).1, emitted := { st.emitted with
        diags := st.emitted.diags ++ (st.storage.insert w.toDeclEnv d).2 } }
      { st' with storage := (st'.storage.insert w.toDeclEnv d).1, emitted := { st'.emitted with
        diags := st'.emitted.diags ++ (st'.storage.insert w.toDeclEnv d).2 } } :=
    ⟨h1, h.properties, by rw [h2, h.emitted]⟩
  cases (st.storage.insert w.toDeclEnv d).1.entries d with
  | none => exact hst
  | some a =>
    dsimp only
    split
    · exact handleDeclImpl_alike w e hst a d
    · exact hst

theorem propose_one (w : EmitWorld) (e : Exposer) {st st' : Exposing}
    (h : AlikeSt w.toWorld st st') (d : Nat) (hd : Quiet w.toWorld d) :
    AlikeSt w.toWorld st (e.propose w false st' d) := by
  obtain ⟨h1, h2, h3⟩ := alike_insert_one h.storage d hd
  unfold Exposer.propose Exposer.handleDecl
  dsimp only
  rw [h3, h2]
  simp only [freshAttrs, Option.getD_none, Bool.false_eq_true, if_false, List.append_nil]
  exact ⟨h1, h.properties, h.emitted⟩

theorem propose_all (w : EmitWorld) (e : Exposer) (dv : Bool) {l l' : List Nat}
    (hl : Extends (fun d => Quiet w.toWorld d ∧ dv = false) l l') {st st' : Exposing}
    (h : AlikeSt w.toWorld st st') :
    AlikeSt w.toWorld (l.foldl (e.propose w dv) st) (l'.foldl (e.propose w dv) st') := by
  induction hl generalizing st st' with
  | nil => exact h
  | keep _ ih => exact ih (propose_both w e dv h _)
  | add ha _ ih =>
    obtain ⟨hq, rfl⟩ := ha
    exact ih (propose_one w e h _ hq)

theorem finalize_alike (w : EmitWorld) (e : Exposer) {st st' : Exposing} (h : AlikeSt w.toWorld st st')
    (he : ∀ x, e = .enum x → (w.info x).kind.isLookupContext = true) :
    AlikeSt w.toWorld (e.finalizeDefinition w st) (e.finalizeDefinition w st') := by
  cases e with
  | enum x =>
    simp only [Exposer.finalizeDefinition, Exposing.emit, finalizeEnum, h.emitted,
      alike_context h.storage x (he x rfl)]
    exact ⟨h.storage, h.properties, rfl⟩
  | _ =>
    simp only [Exposer.finalizeDefinition, Exposing.emit, h.emitted, h.properties]
    exact ⟨h.storage, rfl, rfl⟩

/-- The world of the other run. -/
abbrev EmitWorld.more (w : EmitWorld) (f : Nat → List Found) (a : Nat → List Nat) (u : List Nat) :
    EmitWorld := { w with found := f, associated := a, unitVars := u }

section
variable (w : EmitWorld) (f : Nat → List Found) (ad : Nat → List Nat) (u : List Nat)

theorem properties_more (m : PropertyMap) : emitProperties (w.more f ad u) m = emitProperties w m := by
  induction m with
  | nil => rfl
  | cons p m ih =>
    simp only [emitProperties, ih]
    rfl

theorem finalize_more (e : Exposer) (st : Exposing) :
    Exposer.finalizeDefinition (w.more f ad u) e st = Exposer.finalizeDefinition w e st := by
  cases e with
  | record x p => simp only [Exposer.finalizeDefinition, properties_more]
  | _ => rfl

theorem propose_more (e : Exposer) (dv : Bool) : e.propose (w.more f ad u) dv = e.propose w dv := rfl

theorem line_more : Line.emit (w.more f ad u) = Line.emit w := by
  funext l
  cases l with
  | stmt s => cases s <;> rfl
  | _ => rfl

theorem expand_more (l : List Nat) : expandTemplates (w.more f ad u) l = expandTemplates w l := rfl

/-- What lookup finds in a context of both runs, and operators. -/
structure FoundAlike (V : Bool) (x : Nat) : Prop where
  found : Extends (fun f => NotOffered w f ∨ Ordinary w (leadsTo f) ∧ V = false) (w.found x) (f x)
  associated : Extends (fun d => ∀ e, Instances w d e → ∀ p ∈ (w.fn e).params, p.type.record ≠ some x)
    (w.associated x) (ad x)

theorem notOffered_found (w : EmitWorld) (policy : Option InliningPolicy) (f : Found) (h : NotOffered w f) :
    foundDecl w.toWorld w.hasLocation policy f = none := by
  unfold foundDecl
  rcases h with h | h | h | h | h | h | h | h
  · simp [h]
  · simp [h]
  · simp [h]
  · unfold leadsTo at h
    simp only [h]
    (repeat' split) <;> simp_all
  all_goals
    unfold leadsTo at h
    simp only [h, DeclKind.isLookupContext]
    (repeat' split) <;> simp_all

theorem found_offered (w : EmitWorld) (policy : Option InliningPolicy) (f : Found) (d : Nat)
    (h : foundDecl w.toWorld w.hasLocation policy f = some d) :
    d = leadsTo f ∧ (w.info d).kind.isLookupContext = false := by
  unfold foundDecl at h
  dsimp only at h
  split at h; · cases h
  split at h; · cases h
  split at h; · cases h
  split at h; · cases h
  cases h
  rename_i h _
  exact ⟨rfl, by simpa using h⟩

theorem collect_alike {w : EmitWorld} {f : Nat → List Found} {ad : Nat → List Nat} {V : Bool} {x : Nat}
    (h : FoundAlike w f ad V x) (policy : Option InliningPolicy) :
    Extends (fun d => (Ordinary w d ∧ (w.info d).kind.isLookupContext = false) ∧ V = false)
      (collectVisibleDecls w.toWorld w.hasLocation policy (w.found x))
      (collectVisibleDecls w.toWorld w.hasLocation policy (f x)) := by
  refine extends_filterMap _ ?_ h.found
  intro fd d hp hf
  obtain ⟨rfl, hk⟩ := found_offered w policy fd d hf
  rcases hp with hp | hp
  · rw [notOffered_found w policy fd hp] at hf; cases hf
  · exact ⟨⟨hp.1, hk⟩, hp.2⟩

theorem ordinary_quiet (w : EmitWorld)
    (ok : ∀ t l, w.specializations t = some l → ∀ d ∈ l, (w.info d).kind.isFunction = true) (d e : Nat)
    (h : Ordinary w d) (hk : (w.info d).kind.isLookupContext = false) (he : Instances w d e) :
    Quiet w.toWorld e := by
  refine ⟨h.2 e he, ?_⟩
  unfold Instances at he
  cases hs : w.specializations d with
  | none => rw [hs] at he; rw [he]; exact hk
  | some l =>
    rw [hs] at he
    have := ok d l hs e he
    cases hk : (w.info e).kind <;> rw [hk] at this <;> first | rfl | cases this

theorem proposed_alike {w : EmitWorld} {f : Nat → List Found} {ad : Nat → List Nat} {V : Bool} {x : Nat}
    (ok : ∀ t l, w.specializations t = some l → ∀ d ∈ l, (w.info d).kind.isFunction = true)
    (h : FoundAlike w f ad V x) (e : Exposer) :
    Extends (fun d => Quiet w.toWorld d ∧ V = false) (proposedDecls w e x)
      (proposedDecls (w.more f ad u) e x) := by
  have hops : collectOperators (w.more f ad u) x = collectOperators w x := by
    have : Extends (fun e => ∀ p ∈ (w.fn e).params, p.type.record ≠ some x)
        (expandTemplates w (w.associated x)) (expandTemplates w (ad x)) := by
      refine extends_flatMap _ ?_ h.associated
      intro d hd e he
      refine hd e ?_
      unfold Instances
      cases hs : w.specializations d <;> rw [hs] at he <;> simpa using he
    refine extends_filter _ ?_ this
    intro e he
    rw [List.any_eq_false]
    intro p hp
    simpa using he p hp
  unfold proposedDecls
  dsimp only
  rw [hops, expand_more]
  refine extends_flatMap _ ?_ (extends_sides _ (extends_sort w.toWorld (collect_alike h e.inliningPolicy)))
  rintro d ⟨⟨hd, hk⟩, hv⟩ e he
  refine ⟨ordinary_quiet w ok d e hd hk ?_, hv⟩
  unfold Instances
  cases hs : w.specializations d <;> rw [hs] at he <;> simpa using he

/-- What is written for a context. -/
theorem exposeContext_alike
    (ok : ∀ t l, w.specializations t = some l → ∀ d ∈ l, (w.info d).kind.isFunction = true)
    {s s' : Storage} (hs : Alike w.toWorld s s') (s0 : Storage) (x : Nat)
    (vis vis' : Visibilities) (hv : (vis' x).getD false = (vis x).getD false)
    (h : FoundAlike w f ad ((vis x).getD false) x) :
    AlikeSt w.toWorld (exposeContext w vis s (Exposer.create w s0 x) x)
      (exposeContext (w.more f ad u) vis' s' (Exposer.create w s0 x) x) := by
  unfold exposeContext
  rw [finalize_more w f ad u, hv, propose_more w f ad u]
  refine finalize_alike w _ (propose_all w _ _ (proposed_alike u ok h _)
    (st := { storage := s }) (st' := { storage := s' }) ⟨hs, rfl, rfl⟩) ?_
  intro y hy
  unfold Exposer.create at hy
  cases hk : (w.info x).kind <;> rw [hk] at hy <;> cases hy
  rw [hk]; rfl

theorem bases_alike {g g' : Graph} (hn : ∀ x, g'.hasNode x = g.hasNode x) (p : InliningPolicy) (h : Hierarchy) :
    emittedBases g' p h = emittedBases g p h := by
  induction h with
  | nil => rfl
  | cons b above rest ih1 ih2 => rw [emittedBases, emittedBases, ih1, ih2, hn]

theorem contextType_alike {s s' : Storage} (hs : Alike w.toWorld s s') (s0 : Storage) (x : Nat)
    {g g' : Graph} (hn : ∀ x, g'.hasNode x = g.hasNode x) :
    (Exposer.create w s0 x).contextType (w.more f ad u) s' g' =
      (Exposer.create w s0 x).contextType w s g := by
  unfold Exposer.create
  cases hk : (w.info x).kind with
  | record =>
    simp only [Exposer.contextType, getRecord]
    rw [bases_alike hn, alike_context hs x (by rw [hk]; rfl)]
  | _ => rfl

/-- States of the loop that writes definitions. -/
structure AlikeDef (w : World) (d d' : Defining) : Prop where
  storage : Alike w d.storage d'.storage
  diags : d'.diags = d.diags
  writes : d'.writes = d.writes

theorem defineItems_alike
    (ok : ∀ t l, w.specializations t = some l → ∀ d ∈ l, (w.info d).kind.isFunction = true)
    (s0 : Storage) {g g' : Graph} (hn : ∀ x, g'.hasNode x = g.hasNode x) (vis vis' : Visibilities)
    (streams count : Nat) (l : List WorklistItem)
    (hl : ∀ item ∈ l, item.exposer = Exposer.create w s0 item.context ∧
      (vis' item.context).getD false = (vis item.context).getD false ∧
      FoundAlike w f ad ((vis item.context).getD false) item.context)
    (d d' : Defining) (k : Nat) (hd : AlikeDef w.toWorld d d') :
    AlikeDef w.toWorld (defineItems w g vis streams count d k l)
      (defineItems (w.more f ad u) g' vis' streams count d' k l) := by
  induction l generalizing d d' k with
  | nil => exact hd
  | cons item l ih =>
    rw [defineItems, defineItems]
    refine ih (fun x hx => hl x (by simp [hx])) _ _ _ ?_
    obtain ⟨e1, e2, e3⟩ := hl item (by simp)
    have hc := exposeContext_alike w f ad u ok hd.storage s0 item.context vis vis' e2 e3
    unfold defineItem
    dsimp only
    rw [e1]
    refine ⟨hc.storage, ?_, ?_⟩
    · dsimp only
      rw [hd.diags, hc.emitted]
    · dsimp only
      rw [hd.writes, hc.emitted, contextType_alike w f ad u hd.storage s0 item.context hn]

theorem introducer_alike (s s0 : Storage) (x : Nat) (parent : Str) {g g' : Graph}
    (hn : ∀ x, g'.hasNode x = g.hasNode x) (hs : Alike w.toWorld s s) :
    (Exposer.create w s0 x).introducer (w.more f ad u) s g' parent =
      (Exposer.create w s0 x).introducer w s g parent := by
  have := contextType_alike w f ad u hs s0 x hn
  unfold Exposer.introducer
  cases hc : Exposer.create w s0 x with
  | plain => rfl
  | «namespace» id => rfl
  | enum id => rw [hc] at this; dsimp only; rw [this]
  | record id p => rw [hc] at this; dsimp only; rw [this]

theorem postamble_alike (s : Storage) (hu : Extends (Unannotated w.toWorld) w.unitVars u)
    (hs : ∀ d, Unannotated w.toWorld d → ((s.entries d).bind (·.fieldOrVar)).getD {} = {}) :
    emitPostamble s u = emitPostamble s w.unitVars := by
  unfold emitPostamble
  generalize w.unitVars = v at hu
  induction hu with
  | nil => rfl
  | keep _ ih => rw [List.filterMap_cons, List.filterMap_cons, ih]
  | add ha _ ih =>
    rw [List.filterMap_cons, hs _ ha, ih]
    rfl

/-- The whole module. -/
theorem emitModule_alike
    (ok : ∀ t l, w.specializations t = some l → ∀ d ∈ l, (w.info d).kind.isFunction = true)
    (s : Storage) (hs : Alike w.toWorld s s) {g g' : Graph} (vis vis' : Visibilities)
    (pick pick' : Pick) (nodes nodes' : List Nat) (n : Nat) (name : Str)
    (hn : ∀ x, g'.hasNode x = g.hasNode x) (hv : ∀ x ∈ g.nodes, (vis' x).getD false = (vis x).getD false)
    (hf : ∀ x ∈ g.nodes, FoundAlike w f ad ((vis x).getD false) x)
    (hu : Extends (Unannotated w.toWorld) w.unitVars u)
    (hus : ∀ d, Unannotated w.toWorld d → ((s.entries d).bind (·.fieldOrVar)).getD {} = {})
    (hp : findEnclosingScopes w.toWorld s g' = findEnclosingScopes w.toWorld s g)
    (hsort : declContextsSortedByDependencies w.toWorld w.bases pick' nodes' g'
        (findEnclosingScopes w.toWorld s g) =
      declContextsSortedByDependencies w.toWorld w.bases pick nodes g
        (findEnclosingScopes w.toWorld s g))
    (hperm : ∀ order, declContextsSortedByDependencies w.toWorld w.bases pick nodes g
        (findEnclosingScopes w.toWorld s g) = (order, none) → order.Perm g.nodes ∧ order.Nodup) :
    (emitModule (w.more f ad u) s g' vis' pick' nodes' n name).diags =
      (emitModule w s g vis pick nodes n name).diags ∧
    (emitModule (w.more f ad u) s g' vis' pick' nodes' n name).writes =
      (emitModule w s g vis pick nodes n name).writes := by
  have hb : EmitWorld.bases (w.more f ad u) = w.bases := rfl
  unfold emitModule
  dsimp only
  rw [hb, hp, hsort]
  rcases hr : declContextsSortedByDependencies w.toWorld w.bases pick nodes g
        (findEnclosingScopes w.toWorld s g) with ⟨order, _ | c⟩
  · dsimp only
    obtain ⟨ho, hnd⟩ := hperm order hr
    have hnm : nameContexts (w.more f ad u) s order = nameContexts w s order := rfl
    rw [hnm]
    have hnamed := named_all w s order hnd
    have hmain : emitMain (w.more f ad u) s g' (findEnclosingScopes w.toWorld s g) name
          (nameContexts w s order) =
        emitMain w s g (findEnclosingScopes w.toWorld s g) name (nameContexts w s order) := by
      unfold emitMain
      have h1 : ∀ item ∈ (nameContexts w s order).worklist,
          Line.declare item.identifier (item.exposer.contextType (w.more f ad u) s g') =
          Line.declare item.identifier (item.exposer.contextType w s g) := by
        intro item hi
        rw [hnamed.exposers item hi, contextType_alike w f ad u hs s item.context hn]
      have h2 : ∀ item ∈ (nameContexts w s order).worklist,
          Line.introduce item.identifier (item.exposer.introducer (w.more f ad u) s g'
            (((nameContexts w s order).identifiers (parentContext (findEnclosingScopes w.toWorld s g)
              item.context)).getD [])) =
          Line.introduce item.identifier (item.exposer.introducer w s g
            (((nameContexts w s order).identifiers (parentContext (findEnclosingScopes w.toWorld s g)
              item.context)).getD [])) := by
        intro item hi
        rw [hnamed.exposers item hi, introducer_alike w f ad u s s item.context _ hn hs]
      rw [List.map_congr_left h1, List.map_congr_left h2]
      show _ ++ emitPostamble s u ++ _ = _
      rw [postamble_alike w u s hu hus]
    rw [hmain]
    have := defineItems_alike w f ad u ok s hn vis vis' n (nameContexts w s order).worklist.length
      (nameContexts w s order).worklist (fun item hi => by
        have hx : item.context ∈ g.nodes := by
          have : item.context ∈ contextsOf w order := by
            rw [← hnamed.contexts]; exact List.mem_map.2 ⟨item, hi, rfl⟩
          exact ho.mem_iff.1 (List.mem_filter.1 this).1
        exact ⟨hnamed.exposers item hi, hv _ hx, hf _ hx⟩)
      { storage := s, writes := (emitMain w s g (findEnclosingScopes w.toWorld s g) name
          (nameContexts w s order)).map (0, ·) }
      { storage := s, writes := (emitMain w s g (findEnclosingScopes w.toWorld s g) name
          (nameContexts w s order)).map (0, ·) } 0 ⟨hs, rfl, rfl⟩
    exact ⟨this.diags, this.writes⟩
  · exact ⟨rfl, rfl⟩

end

end Verif
