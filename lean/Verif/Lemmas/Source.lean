import Verif.Spec.Source
import Verif.Lemmas.Reannotate
import Verif.Props.Introducer
/-!
# Lemmas: one more annotation, and the order of declarations
-/
namespace Verif
open Spec

/-! ### One more annotation -/

theorem parseAll_snoc (id : Nat) (texts : List Str) (word : Str) (a : Annotation)
    (h : parseAnnotationsInto word [] = (none, [a])) :
    (parseAllTexts id [] (texts ++ [lozenge ++ word])).1 = (parseAllTexts id [] texts).1 ++ [a] := by
  have last : ∀ acc, (parseAllTexts id acc [lozenge ++ word]).1 = acc ++ [a] := by
    intro acc
    rw [parseAllTexts_acc]
    congr 1
    unfold parseAllTexts
    rw [(consumeFront_some lozenge (lozenge ++ word) word).2 rfl]
    dsimp only
    rw [h]
    rfl
  have gen : ∀ texts acc, (parseAllTexts id acc (texts ++ [lozenge ++ word])).1 =
      (parseAllTexts id acc texts).1 ++ [a] := by
    intro texts
    induction texts with
    | nil => intro acc; exact last acc
    | cons t ts ih =>
      intro acc
      rw [List.cons_append]
      unfold parseAllTexts
      cases consumeFront lozenge t with
      | none => exact ih acc
      | some rest =>
        dsimp only
        generalize parseAnnotationsInto rest acc = r
        obtain ⟨e, acc'⟩ := r
        cases e with
        | none => exact ih acc'
        | some e => exact ih acc'
  exact gen texts []

theorem applyAnnotation_fst (env : DeclEnv) (id : Nat) (x : DeclAttrs) (a : Annotation) :
    (applyAnnotation env id x a).1 = (anyHandler (handlers env id) a x).attrs := by
  unfold applyAnnotation
  dsimp only
  split <;> rfl

theorem applyAnnotations_fst (w : EmitWorld) (texts : Nat → List Str) (x : Nat) (as : List Annotation)
    (a : DeclAttrs) :
    (applyAnnotations (reannotate w texts).toDeclEnv x a as).1 = (applyAnnotations w.toDeclEnv x a as).1 := by
  induction as generalizing a with
  | nil => rfl
  | cons b as ih =>
    have : (applyAnnotation (reannotate w texts).toDeclEnv x a b).1 = (applyAnnotation w.toDeclEnv x a b).1 := by
      rw [applyAnnotation_fst, applyAnnotation_fst]
      rfl
    simp only [applyAnnotations, this, ih]

theorem applyAnnotations_snoc (env : DeclEnv) (id : Nat) (x : DeclAttrs) (as : List Annotation) (a : Annotation) :
    (applyAnnotations env id x (as ++ [a])).1 = (applyAnnotation env id (applyAnnotations env id x as).1 a).1 := by
  induction as generalizing x with
  | nil => rfl
  | cons b as ih =>
    simp only [List.cons_append, applyAnnotations]
    exact ih _

theorem applyAll_typedef (env : DeclEnv) (id : Nat) (as : List Annotation) (x y : DeclAttrs)
    (sx : Shape (env.info id) x) (sy : Shape (env.info id) y) (h : x.typedefName = y.typedefName) :
    (applyAnnotations env id x as).1.typedefName = (applyAnnotations env id y as).1.typedefName := by
  induction as generalizing x y with
  | nil => exact h
  | cons a as ih =>
    simp only [applyAnnotations]
    have sx' := shape_apply env id a x sx
    have sy' := shape_apply env id a y sy
    refine ih _ _ sx' sy' ?_
    cases hx : x.typedefName with
    | some t =>
      rw [(apply_typedef env id a x sx t hx).1, (apply_typedef env id a y sy t (by rw [← h, hx])).1]
    | none =>
      have hk : ¬ (env.info id).kind = .typedefName := by
        intro hk
        have := sx.typedefName.2 hk
        rw [hx] at this
        cases this
      have e : ∀ z, Shape (env.info id) z → z.typedefName = none := by
        intro z sz
        cases hz : z.typedefName with
        | none => rfl
        | some t => exact absurd (sz.typedefName.1 (by rw [hz]; rfl)) hk
      rw [e _ sx', e _ sy']

/-- The annotations `visible` and `hidden`. -/
structure SetsVisible (word : Str) (v : Bool) : Prop where
  apply : ∃ a, parseAnnotationsInto word [] = (none, [a]) ∧ ∀ env id x,
    (applyAnnotation env id x a).1 = { x with named := { x.named with visible := some v } }

theorem visible_sets : SetsVisible t%"visible" true :=
  ⟨⟨.visible, []⟩, by decide +kernel, fun _ _ _ => rfl⟩

theorem hidden_sets : SetsVisible t%"hidden" false :=
  ⟨⟨.hidden, []⟩, by decide +kernel, fun _ _ _ => rfl⟩

theorem also_firstInsert (w : EmitWorld) (D : Nat → Bool) {word : Str} {v : Bool} (hw : SetsVisible word v)
    (x : Nat) (hx : D x = true) :
    (firstInsert (reannotate w (alsoAnnotated w D word)).toDeclEnv x).1.named.visible = some v ∧
    (firstInsert (reannotate w (alsoAnnotated w D word)).toDeclEnv x).1.typedefName =
      (firstInsert w.toDeclEnv x).1.typedefName ∧
    ((w.info x).kind = .namespace →
      (firstInsert (reannotate w (alsoAnnotated w D word)).toDeclEnv x).1.namespace_ =
        (firstInsert w.toDeclEnv x).1.namespace_) := by
  obtain ⟨a, ha, happ⟩ := hw.apply
  have ht : ((reannotate w (alsoAnnotated w D word)).toDeclEnv.info x).attrTexts =
      (w.info x).attrTexts ++ [lozenge ++ word] := by
    show alsoAnnotated w D word x = _
    simp [alsoAnnotated, hx]
  have hk : ((reannotate w (alsoAnnotated w D word)).toDeclEnv.info x).kind = (w.info x).kind := rfl
  have hf : freshAttrs ((reannotate w (alsoAnnotated w D word)).toDeclEnv.info x) = freshAttrs (w.info x) := rfl
  unfold firstInsert
  dsimp only
  rw [ht, hk, hf, parseAll_snoc x _ word a ha, applyAnnotations_fst, applyAnnotations_snoc, happ]
  refine ⟨rfl, ?_, fun hn => ?_⟩
  · refine applyAll_typedef w.toDeclEnv x _ _ _ (shape_start ..) (shape_start ..) ?_
    split <;> split <;> rfl
  · rw [if_neg (fun h => h.1 hn), if_neg (fun h => h.1 hn)]

theorem fresh_unannotated (w : EmitWorld) (x : Nat) (h : ¬ ∃ t ∈ (w.info x).attrTexts, marker <+: t) :
    (∀ t, (firstInsert w.toDeclEnv x).1.typedefName = some t → t.exposeHere = false ∧ t.encourage = false) ∧
    (∀ n, (firstInsert w.toDeclEnv x).1.namespace_ = some n → n.onlyExposeIn = []) := by
  unfold firstInsert
  dsimp only
  rw [parseAll_none x [] _ (fun t ht hm => h ⟨t, ht, hm⟩)]
  have h1 : ∀ t, (freshAttrs (w.info x)).typedefName = some t → t.exposeHere = false ∧ t.encourage = false := by
    intro t ht
    unfold freshAttrs at ht
    dsimp only at ht
    split at ht
    · cases ht; exact ⟨rfl, rfl⟩
    · cases ht
  have h2 : ∀ n, (freshAttrs (w.info x)).namespace_ = some n → n.onlyExposeIn = [] := by
    intro t ht
    unfold freshAttrs at ht
    dsimp only at ht
    split at ht
    · cases ht; rfl
    · cases ht
  refine ⟨fun t ht => h1 t ?_, fun n hn => h2 n ?_⟩
  · revert ht
    simp only [applyAnnotations]
    split <;> exact id
  · revert hn
    simp only [applyAnnotations]
    split <;> exact id

/-! ### The order of declarations -/

theorem idsAll_append (l r : List Tree) : idsAll (l ++ r) = idsAll l ++ idsAll r := by
  induction l with
  | nil => rfl
  | cons t l ih => simp only [List.cons_append, idsAll, ih, List.append_assoc]

theorem idsAll_perm {l l' : List Tree} (h : l.Perm l') : (idsAll l).Perm (idsAll l') := by
  induction h with
  | nil => exact .refl _
  | cons t _ ih => simp only [idsAll]; exact ih.append_left _
  | swap t u l =>
    simp only [idsAll]
    rw [← List.append_assoc, ← List.append_assoc]
    exact List.perm_append_comm.append_right _
  | trans _ _ h1 h2 => exact h1.trans h2

theorem rearranged_ids {t t' : Tree} (h : Rearranged t t') : (ids t).Perm (ids t') := by
  induction h with
  | refl => exact .refl _
  | siblings hp => simp only [ids]; exact (idsAll_perm hp).cons _
  | child _ ih =>
    simp only [ids, idsAll_append, idsAll]
    exact ((ih.append_right _).append_left _).cons _
  | trans _ _ h1 h2 => exact h1.trans h2

theorem rearranged_id {t t' : Tree} (h : Rearranged t t') : t.id = t'.id := by
  induction h with
  | refl => rfl
  | siblings => rfl
  | child => rfl
  | trans _ _ h1 h2 => exact h1.trans h2

theorem rearranged_symm {t t' : Tree} (h : Rearranged t t') : Rearranged t' t := by
  induction h with
  | refl => exact .refl
  | siblings hp => exact .siblings hp.symm
  | child _ ih => exact .child ih
  | trans _ _ h1 h2 => exact .trans h2 h1

/-- The same declarations are looked at. -/
theorem rearranged_occurs {w : World} {t t' : Tree} (h : Rearranged t t') {s : Tree} (hs : Occurs w t s) :
    ∃ s', Occurs w t' s' ∧ s'.id = s.id := by
  induction h generalizing s with
  | refl => exact ⟨s, hs, rfl⟩
  | @siblings id l l' hp =>
    cases hs with
    | here h => exact ⟨.node id l', .here h, rfl⟩
    | inside h hm ho => exact ⟨s, .inside h (hp.mem_iff.1 hm) ho, rfl⟩
  | @child id l r t t' hr ih =>
    cases hs with
    | here h => exact ⟨.node id (l ++ t' :: r), .here h, rfl⟩
    | @inside _ _ u _ h hm ho =>
      rcases List.mem_append.1 hm with hm | hm
      · exact ⟨s, .inside h (List.mem_append.2 (.inl hm)) ho, rfl⟩
      · rcases List.mem_cons.1 hm with rfl | hm
        · obtain ⟨s', h1, h2⟩ := ih ho
          exact ⟨s', .inside h (by simp) h1, h2⟩
        · exact ⟨s, .inside h (by simp [hm]) ho, rfl⟩
  | trans _ _ h1 h2 =>
    obtain ⟨u, hu, he⟩ := h1 hs
    obtain ⟨v, hv, he'⟩ := h2 hu
    exact ⟨v, hv, he'.trans he⟩

theorem rearranged_wf {w : World} {t t' : Tree} (h : Rearranged t t') (wf : WellFormed w t) : WellFormed w t' :=
  { wf with
    root_unit := (rearranged_id h).symm.trans wf.root_unit
    distinct := (rearranged_ids h).nodup_iff.1 wf.distinct }

end Verif
