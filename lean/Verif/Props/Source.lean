import Verif.Lemmas.Source
import Verif.Props.OptIn
import Verif.Props.Run
/-!
# C96: the classes and enums of a module
-/
namespace Verif
open Spec

/-! ### Graph and source code -/

theorem edge_shown (w : World) (root : Tree) (wf : WellFormed w root) (g : Graph) (b : Building)
    (h : buildGraph w root = (some g, b)) (p x : Nat) : Edge g p x ↔ ShownIn w root x p := by
  have hb := built w root wf g b h
  rw [built_edge_iff hb]
  have hau : ∀ a, ExposesHere w root a x → a ≠ w.unit := by
    rintro a ha rfl
    have h1 := ha.2.2.1
    rw [(wf.unit_kind w.unit).2 rfl] at h1
    cases h1
  constructor
  · rintro (⟨a, ha, hp⟩ | ⟨h1, ⟨t, ht, hx⟩, hc, hp⟩)
    · exact .alias ha ((scopeOf_find w root wf a p (hau a ha)).2 hp.symm)
    · exact .own (fun a ha => h1 ⟨a, ha⟩) ht hx hc
        ((scopeOf_find w root wf x p (context_not_unit w root wf x hc)).2 hp.symm)
  · rintro (⟨ha, hp⟩ | ⟨h1, ht, hx, hc, hp⟩)
    · exact .inl ⟨_, ha, ((scopeOf_find w root wf _ p (hau _ ha)).1 hp).symm⟩
    · exact .inr ⟨fun ⟨a, ha⟩ => h1 a ha, ⟨_, ht, hx⟩, hc,
        ((scopeOf_find w root wf x p (context_not_unit w root wf x hc)).1 hp).symm⟩

theorem below_within (w : World) (root : Tree) (wf : WellFormed w root) (g : Graph) (b : Building)
    (h : buildGraph w root = (some g, b)) (a x : Nat) : Below g a x ↔ Within w root a x := by
  constructor
  · intro hx
    induction hx with
    | self => exact .self
    | step _ he ih => exact .step ih ((edge_shown w root wf g b h _ _).1 he)
  · intro hx
    induction hx with
    | self => exact .self
    | step _ he ih => exact .step ih ((edge_shown w root wf g b h _ _).2 he)

theorem reachable_within (w : World) (root : Tree) (wf : WellFormed w root) (g : Graph) (b : Building)
    (h : buildGraph w root = (some g, b)) (x : Nat) : Reachable g x ↔ Within w root w.unit x := by
  have hr : g.root = w.unit := (built w root wf g b h).root
  rw [← below_within w root wf g b h]
  constructor
  · intro hx
    induction hx with
    | root => rw [hr]; exact .self
    | step _ _ he ih => exact .step ih he
  · intro hx
    induction hx with
    | self => rw [← hr]; exact .root
    | step _ he ih => exact .step ih trivial he

/-- What is stored about the visibility of the nodes of the graph. -/
theorem explicit_stated (w : World) (root : Tree) (wf : WellFormed w root) (g : Graph) (b : Building)
    (h : buildGraph w root = (some g, b)) (hone : OneKindOfAlias w root) (x p : Nat)
    (hx : ShownIn w root x p) (v : Option Bool) : explicit b.storage x = v ↔ Stated w root x v := by
  have key : Stated w root x (explicit b.storage x) := by
    unfold explicit
    by_cases h1 : ∃ a, ExposesHere w root a x
    · obtain ⟨a, ha⟩ := h1
      obtain ⟨own, final, al, _, hal, hent, _, hv, _⟩ := C53_expose_here_partial w root wf g b h a x ha
      have hv := hv fun ⟨e, he⟩ => hone x a e ha he
      have : ownVisible w a = (b.storage.entries x).bind (·.named.visible) := by
        unfold ownVisible
        rw [hal, hent]
        exact hv.symm
      rw [← this]
      exact .exposed ha
    · by_cases h2 : ∃ e, Encourages w root e x
      · obtain ⟨e, he⟩ := h2
        obtain ⟨own, _, hent⟩ := C53_encourage w root wf g b h e x he h1
        rw [hent]
        exact .encouraged he
      · cases hx with
        | alias ha => exact absurd ⟨_, ha⟩ h1
        | @own t _ ht hid =>
          subst hid
          rw [C53_others w root wf g b h _ h1 h2]
          obtain ⟨ha, hn⟩ := C20_attributes w root wf.distinct _ ht
          by_cases hann : Annotated w t.id
          · rw [ha hann]
            exact .own (fun a ha => h1 ⟨a, ha⟩) (fun e he => h2 ⟨e, he⟩) hann
          · rw [hn hann]
            exact .nothing (fun a ha => h1 ⟨a, ha⟩) (fun e he => h2 ⟨e, he⟩) hann
  have hdet : ∀ u v, Stated w root x u → Stated w root x v → u = v := by
    intro u v hu hv
    have hb := built w root wf g b h
    cases hu with
    | exposed ha =>
      cases hv with
      | exposed ha' => rw [exposed_unique hb ha ha']
      | encouraged he => exact absurd he (hone _ _ _ ha)
      | own h1 => exact absurd ha (h1 _)
      | nothing h1 => exact absurd ha (h1 _)
    | encouraged he =>
      cases hv with
      | exposed ha => exact absurd he (hone _ _ _ ha)
      | encouraged => rfl
      | own _ h2 => exact absurd he (h2 _)
      | nothing _ h2 => exact absurd he (h2 _)
    | own h1 h2 ha =>
      cases hv with
      | exposed ha => exact absurd ha (h1 _)
      | encouraged he => exact absurd he (h2 _)
      | own => rfl
      | nothing _ _ hn => exact absurd ha hn
    | nothing h1 h2 hn =>
      cases hv with
      | exposed ha => exact absurd ha (h1 _)
      | encouraged he => exact absurd he (h2 _)
      | own _ _ ha => exact absurd ha hn
      | nothing => rfl
  constructor
  · rintro rfl
    exact key
  · intro hv
    exact hdet _ _ key hv

theorem shown_of_within {w : World} {root : Tree} {x : Nat} (h : Within w root w.unit x) (hx : x ≠ w.unit) :
    ∃ p, ShownIn w root x p := by
  cases h with
  | self => exact absurd rfl hx
  | step _ h => exact ⟨_, h⟩

theorem visible_source (w : World) (root : Tree) (wf : WellFormed w root) (g : Graph) (b : Building)
    (h : buildGraph w root = (some g, b)) (hone : OneKindOfAlias w root) (x : Nat) :
    EffVisible w b.storage g x ↔ SourceVisible w root x := by
  have hr : g.root = w.unit := (built w root wf g b h).root
  constructor
  · intro hx
    induction hx with
    | explicit h1 h2 h3 =>
      have h1 := (reachable_within w root wf g b h _).1 h1
      rw [hr] at h2
      obtain ⟨p, hp⟩ := shown_of_within h1 h2
      exact .stated h1 h2 ((explicit_stated w root wf g b h hone _ p hp _).1 h3)
    | inherited _ he h3 h4 h5 ih =>
      have he := (edge_shown w root wf g b h _ _).1 he
      exact .inherited ih he ((explicit_stated w root wf g b h hone _ _ he _).1 h3) h4 h5
  · intro hx
    induction hx with
    | stated h1 h2 h3 =>
      obtain ⟨p, hp⟩ := shown_of_within h1 h2
      exact .explicit ((reachable_within w root wf g b h _).2 h1) (by rw [hr]; exact h2)
        ((explicit_stated w root wf g b h hone _ p hp _).2 h3)
    | inherited _ he h3 h4 h5 ih =>
      exact .inherited ih ((edge_shown w root wf g b h _ _).2 he)
        ((explicit_stated w root wf g b h hone _ _ he _).2 h3) h4 h5

theorem forOther_source (w : World) (root : Tree) (wf : WellFormed w root) (g : Graph) (b : Building)
    (h : buildGraph w root = (some g, b)) (name : Str) (n : Nat) (hn : Within w root w.unit n) :
    ForOther w b.storage name n ↔ MeantForOthers w name n := by
  have hno : ∀ a, (w.info n).kind = .namespace → (w.info a).aliasTarget ≠ some n := by
    intro a hk ha
    rcases wf.target_tag a n ha with h | h <;> rw [h] at hk <;> cases hk
  have h1 : (w.info n).kind = .namespace → ¬ ∃ e, ExposesHere w root e n :=
    fun hk ⟨e, he⟩ => hno e hk he.2.2.2.1
  have h2 : (w.info n).kind = .namespace → ¬ ∃ e, Encourages w root e n :=
    fun hk ⟨e, he⟩ => hno e hk he.2.2.2.1
  constructor
  · rintro ⟨hk, attrs, ns, he, hns⟩
    obtain ⟨ho, ha⟩ := stored_own w root wf g b h n (h1 hk) (h2 hk) attrs he
    exact ⟨hk, ha, attrs, ns, ho, hns⟩
  · rintro ⟨hk, ha, attrs, ns, ho, hns⟩
    refine ⟨hk, attrs, ns, ?_, hns⟩
    have hu : n ≠ w.unit := by
      rintro rfl
      rw [(wf.unit_kind w.unit).2 rfl] at hk
      cases hk
    obtain ⟨p, hp⟩ := shown_of_within hn hu
    cases hp with
    | alias he => exact absurd ⟨_, he⟩ (h1 hk)
    | own _ ht hid =>
      subst hid
      rw [C53_others w root wf g b h _ (h1 hk) (h2 hk), (C20_attributes w root wf.distinct _ ht).1 ha, ho]

theorem within_trans {w : World} {root : Tree} {a c x : Nat} (h : Within w root a c) (h' : Within w root c x) :
    Within w root a x := by
  induction h' with
  | self => exact h
  | step _ hs ih => exact .step ih hs

/-- C96: whether a class or enum is exposed can be read off the source code. -/
theorem C96_types_partial (w : World) (root : Tree) (wf : WellFormed w root) (g : Graph) (b : Building)
    (h : buildGraph w root = (some g, b)) (hone : OneKindOfAlias w root) (name : Str) (x : Nat) :
    Exposed w b.storage name g x ↔ InModule w root name x := by
  have hup : ∀ a, Within w root w.unit x → Within w root a x → a = w.unit ∨ Within w root w.unit a := by
    intro a hx ha
    rw [← reachable_within w root wf g b h] at hx
    rw [← below_within w root wf g b h] at ha
    by_cases hu : a = w.unit
    · exact .inl hu
    · right
      rw [← reachable_within w root wf g b h]
      have hcg := C23_graphs w root wf g b h
      induction ha with
      | self => exact hx
      | step hb he ih =>
        refine ih ?_
        cases hx with
        | root => exact absurd he (hcg.root_top _)
        | step hp _ he' => rw [hcg.unique _ _ _ he he']; exact hp
  unfold Exposed InModule
  rw [reachable_within w root wf g b h]
  constructor
  · rintro ⟨h1, h2, h3, h4⟩
    refine ⟨h1, h2, fun a ha => ⟨fun hm => ?_, fun ht => ?_⟩⟩
    · have hwa : Within w root w.unit a := by
        rcases hup a h2 ha with rfl | h
        · exact .self
        · exact h
      exact h3 ⟨a, (forOther_source w root wf g b h name a hwa).2 hm, (below_within w root wf g b h a x).2 ha⟩
    · exact (visible_source w root wf g b h hone a).1 (h4 a ((below_within w root wf g b h a x).2 ha) ht)
  · rintro ⟨h1, h2, h3⟩
    refine ⟨h1, h2, ?_, fun a ha ht => ?_⟩
    · rintro ⟨n, hn, hb⟩
      have hb := (below_within w root wf g b h n x).1 hb
      have hwa : Within w root w.unit n := by
        rcases hup n h2 hb with rfl | h
        · exact .self
        · exact h
      exact (h3 n hb).1 ((forOther_source w root wf g b h name n hwa).1 hn)
    · exact (visible_source w root wf g b h hone a).2 ((h3 a ((below_within w root wf g b h a x).1 ha)).2 ht)

/-- C96: if the module can be imported, its classes and enums are the ones given by the source code. -/
theorem C96_run_partial (o : ToolOptions) (i : ToolInput) (ok : InputOK i) (files : Files) (r : ToolResult)
    (hr : runTool o i files = some r) (hx : o.expectFailure = false) (h0 : r.exitCode = 0)
    (hnd : o.outputFiles.Nodup) (hone : OneKindOfAlias i.world.toWorld i.tree) :
    ∃ (name : Str) (place : Nat → List Str) (lines : List (List Line)),
      moduleNameFor o.moduleName i.mainFile = some name ∧
      lines.length = o.outputFiles.length ∧
      (∀ (k : Nat) path ls, o.outputFiles[k]? = some path → lines[k]? = some ls →
        (path ≠ ['-'] → r.files path = some (fileText i ls)) ∧ (path = ['-'] → r.printed = [fileText i ls])) ∧
      ∀ st, importModule lines = .ok st → ∃ types : List Nat, types.Nodup ∧
        (∀ x, x ∈ types ↔ InModule i.world.toWorld i.tree name x) ∧
        st.types = types.map fun x => (i.world.typeName x, place x) := by
  obtain ⟨name, g, b, order, place, h1, h2, _, _, lines, h5, h6, _, h8⟩ := C69_module o i ok files r hr hx h0 hnd
  refine ⟨name, place, lines, h1, h5, h6, fun st hst => ?_⟩
  obtain ⟨_, types, h9, h10, h11⟩ := h8 st hst
  exact ⟨types, h9, fun x => (h10 x).trans
    (C96_types_partial i.world.toWorld i.tree ok.unit g b h2 hone name x), h11⟩

/-! ### Comparing source code -/

/-- Source code with the same declarations and aliases. -/
structure SameScopes (w : World) (root : Tree) (w' : World) (root' : Tree) : Prop where
  unit : w'.unit = w.unit
  access : w'.access = w.access
  occurs : ∀ x, (∃ t, Occurs w root t ∧ t.id = x) ↔ ∃ t, Occurs w' root' t ∧ t.id = x
  exposes : ∀ a x, ExposesHere w root a x ↔ ExposesHere w' root' a x
  encourages : ∀ a x, Encourages w root a x ↔ Encourages w' root' a x
  context : ∀ x, Context w x ↔ Context w' x
  scope : ∀ x p, ScopeOf w x p ↔ ScopeOf w' x p
  type : ∀ x, IsType w x ↔ IsType w' x
  others : ∀ name n, MeantForOthers w name n ↔ MeantForOthers w' name n

variable {w w' : World} {root root' : Tree}

theorem SameScopes.symm (h : SameScopes w root w' root') : SameScopes w' root' w root :=
  ⟨h.unit.symm, h.access.symm, fun x => (h.occurs x).symm, fun a x => (h.exposes a x).symm,
    fun a x => (h.encourages a x).symm, fun x => (h.context x).symm, fun x p => (h.scope x p).symm,
    fun x => (h.type x).symm, fun m n => (h.others m n).symm⟩

theorem SameScopes.shown (h : SameScopes w root w' root') {x p : Nat} (hs : ShownIn w root x p) : ShownIn w' root' x p := by
  cases hs with
  | alias ha hp => exact .alias ((h.exposes _ _).1 ha) ((h.scope _ _).1 hp)
  | own h1 ht hx hc hp =>
    obtain ⟨t', ht', hx'⟩ := (h.occurs x).1 ⟨_, ht, hx⟩
    exact .own (fun a ha => h1 a ((h.exposes _ _).2 ha)) ht' hx' ((h.context x).1 hc) ((h.scope _ _).1 hp)

theorem SameScopes.within (h : SameScopes w root w' root') {a x : Nat} (hs : Within w root a x) : Within w' root' a x := by
  induction hs with
  | self => exact .self
  | step _ he ih => exact .step ih (h.shown he)

theorem SameScopes.module (h : SameScopes w root w' root')
    (hv : ∀ x, SourceVisible w root x → SourceVisible w' root' x) (name : Str) (x : Nat)
    (hm : InModule w root name x) : InModule w' root' name x := by
  obtain ⟨h1, h2, h3⟩ := hm
  refine ⟨(h.type x).1 h1, ?_, fun a ha => ?_⟩
  · rw [h.unit]
    exact h.within h2
  · obtain ⟨h4, h5⟩ := h3 a (h.symm.within ha)
    exact ⟨fun hn => h4 ((h.others _ _).2 hn), fun ht => hv a (h5 ((h.type a).2 ht))⟩

theorem visible_within {x : Nat} (h : SourceVisible w root x) : Within w root w.unit x := by
  induction h with
  | stated h => exact h
  | inherited _ hs _ _ _ ih => exact .step ih hs

theorem shown_not_unit (wf : WellFormed w root) {x p : Nat} (h : ShownIn w root x p) : x ≠ w.unit := by
  cases h with
  | alias ha =>
    rintro rfl
    have hk := (wf.unit_kind w.unit).2 rfl
    rcases wf.target_tag _ _ ha.2.2.2.1 with h | h <;> rw [h] at hk <;> cases hk
  | own _ _ _ hc => exact context_not_unit w root wf x hc

/-- Whatever is visible stays visible if no annotation asks for less. -/
theorem SameScopes.visible (h : SameScopes w root w' root') (wf : WellFormed w root)
    (hs : ∀ x p v, ShownIn w root x p → Stated w root x v → v ≠ some false →
      Stated w' root' x v ∨ Stated w' root' x (some true)) :
    ∀ x, SourceVisible w root x → SourceVisible w' root' x := by
  intro x hx
  induction hx with
  | @stated x h1 h2 h3 =>
    obtain ⟨p, hp⟩ := shown_of_within h1 h2
    have : Stated w' root' x (some true) := by
      rcases hs x p _ hp h3 (by decide) with h | h <;> exact h
    exact .stated (by rw [h.unit]; exact h.within h1) (by rw [h.unit]; exact h2) this
  | @inherited p x hp he h3 h4 h5 ih =>
    rcases hs x p _ he h3 (by decide) with h' | h'
    · exact .inherited ih (h.shown he) h' (by rw [h.access]; exact h4) (by rw [h.access]; exact h5)
    · exact .stated (by rw [h.unit]; exact h.within (.step (visible_within hp) he))
        (by rw [h.unit]; exact shown_not_unit wf he) h'

/-! ### The order of declarations -/

theorem scopes_rearranged (w : World) (h : Rearranged root root') : SameScopes w root w root' := by
  have ho : ∀ x, (∃ t, Occurs w root t ∧ t.id = x) ↔ ∃ t, Occurs w root' t ∧ t.id = x := by
    intro x
    constructor
    · rintro ⟨t, ht, rfl⟩
      exact rearranged_occurs h ht
    · rintro ⟨t, ht, rfl⟩
      exact rearranged_occurs (rearranged_symm h) ht
  exact ⟨rfl, rfl, ho, fun a x => and_congr (ho a) Iff.rfl, fun a x => and_congr (ho a) Iff.rfl,
    fun _ => Iff.rfl, fun _ _ => Iff.rfl, fun _ => Iff.rfl, fun _ _ => Iff.rfl⟩

theorem SameScopes.stated (h : SameScopes w root w root') {x : Nat} {v : Option Bool} (hs : Stated w root x v) :
    Stated w root' x v := by
  cases hs with
  | exposed ha => exact .exposed ((h.exposes _ _).1 ha)
  | encouraged he => exact .encouraged ((h.encourages _ _).1 he)
  | own h1 h2 ha =>
    exact .own (fun a ha => h1 a ((h.exposes _ _).2 ha)) (fun e he => h2 e ((h.encourages _ _).2 he)) ha
  | nothing h1 h2 ha =>
    exact .nothing (fun a ha => h1 a ((h.exposes _ _).2 ha)) (fun e he => h2 e ((h.encourages _ _).2 he)) ha

theorem module_rearranged (w : World) (wf : WellFormed w root) (h : Rearranged root root') (name : Str) (x : Nat) :
    InModule w root name x ↔ InModule w root' name x := by
  have ha := scopes_rearranged w h
  exact ⟨ha.module (ha.visible wf fun _ _ _ _ hs _ => .inl (ha.stated hs)) name x,
    ha.symm.module (ha.symm.visible (rearranged_wf h wf) fun _ _ _ _ hs _ => .inl (ha.symm.stated hs)) name x⟩

/-- C96: the order of declarations does not matter for which classes and enums are exposed. -/
theorem C96_order_partial (w : World) (root root' : Tree) (wf : WellFormed w root) (h : Rearranged root root')
    (hone : OneKindOfAlias w root) (g g' : Graph) (b b' : Building)
    (hb : buildGraph w root = (some g, b)) (hb' : buildGraph w root' = (some g', b')) (name : Str) (x : Nat) :
    Exposed w b'.storage name g' x ↔ Exposed w b.storage name g x := by
  have ha := scopes_rearranged w h
  rw [C96_types_partial w root wf g b hb hone, C96_types_partial w root' (rearranged_wf h wf) g' b' hb'
    (fun x a e h1 h2 => hone x a e ((ha.exposes _ _).2 h1) ((ha.encourages _ _).2 h2))]
  exact (module_rearranged w wf h name x).symm

/-! ### One more annotation -/

theorem also_info (w : EmitWorld) (D : Nat → Bool) (word : Str) (x : Nat) (hx : D x = false) :
    (reannotate w (alsoAnnotated w D word)).info x = w.info x := by
  show { w.info x with attrTexts := alsoAnnotated w D word x } = w.info x
  have : alsoAnnotated w D word x = (w.info x).attrTexts := by simp [alsoAnnotated, hx]
  rw [this]

theorem also_own (w : EmitWorld) (D : Nat → Bool) (word : Str) (x : Nat) (hx : D x = false) :
    ownAttrs (reannotate w (alsoAnnotated w D word)).toWorld x = ownAttrs w.toWorld x := by
  rw [ownAttrs_eq, ownAttrs_eq, firstInsert_congr w.toDeclEnv _ x (also_info w D word x hx) rfl,
    also_info w D word x hx]

theorem also_annotated_iff (w : EmitWorld) (D : Nat → Bool) (word : Str) (x : Nat) (hx : D x = false) :
    Annotated (reannotate w (alsoAnnotated w D word)).toWorld x ↔ Annotated w.toWorld x := by
  unfold Annotated
  rw [show (reannotate w (alsoAnnotated w D word)).toWorld.info x = w.toWorld.info x from also_info w D word x hx]
  exact Iff.rfl

theorem also_annotated (w : EmitWorld) (D : Nat → Bool) (word : Str) (x : Nat) (h : Annotated w.toWorld x) :
    Annotated (reannotate w (alsoAnnotated w D word)).toWorld x := by
  obtain ⟨h1, h2, ⟨t, ht, hm⟩, h4⟩ := h
  refine ⟨h1, h2, ⟨t, ?_, hm⟩, h4⟩
  show t ∈ alsoAnnotated w D word x
  unfold alsoAnnotated
  split
  · exact List.mem_append.2 (.inl ht)
  · exact ht

/-- Annotations for aliases and namespaces stay as they were. -/
theorem also_attrs (w : EmitWorld) (D : Nat → Bool) {word : Str} {v : Bool} (hw : SetsVisible word v) (x : Nat) :
    (ownAttrs (reannotate w (alsoAnnotated w D word)).toWorld x).bind (·.typedefName) =
      (ownAttrs w.toWorld x).bind (·.typedefName) ∧
    ((w.info x).kind = .namespace →
      (ownAttrs (reannotate w (alsoAnnotated w D word)).toWorld x).bind (·.namespace_) =
        (ownAttrs w.toWorld x).bind (·.namespace_)) ∧
    (D x = true → ownVisible (reannotate w (alsoAnnotated w D word)).toWorld x = some v ∨
      ownVisible (reannotate w (alsoAnnotated w D word)).toWorld x = none ∧ ownVisible w.toWorld x = none) := by
  cases hx : D x with
  | false =>
    rw [also_own w D word x hx]
    exact ⟨rfl, fun _ => rfl, nofun⟩
  | true =>
    obtain ⟨h1, h2, h3⟩ := also_firstInsert w D hw x hx
    unfold ownVisible
    rw [ownAttrs_eq, ownAttrs_eq,
      show shouldSkip ((reannotate w (alsoAnnotated w D word)).info x) = shouldSkip (w.info x) from rfl]
    split
    · exact ⟨h2, h3, fun _ => .inl h1⟩
    · exact ⟨rfl, fun _ => rfl, fun _ => .inr ⟨rfl, rfl⟩⟩

theorem also_occurs (w : EmitWorld) (texts : Nat → List Str) {root t : Tree}
    (h : Occurs w.toWorld root t) : Occurs (reannotate w texts).toWorld root t := by
  induction h with
  | here h => exact .here h
  | inside h hm _ ih => exact .inside h hm ih

theorem also_occurs' (w : EmitWorld) (texts : Nat → List Str) {root t : Tree}
    (h : Occurs (reannotate w texts).toWorld root t) : Occurs w.toWorld root t := by
  induction h with
  | here h => exact .here h
  | inside h hm _ ih => exact .inside h hm ih

/-- Only annotated declarations have got annotations. -/
theorem attrs_marked (w : EmitWorld) (x : Nat) {o : DeclAttrs} (ho : ownAttrs w.toWorld x = some o) :
    (∀ t, o.typedefName = some t → t.exposeHere = true ∨ t.encourage = true →
      ∃ s ∈ (w.info x).attrTexts, marker <+: s) ∧
    (∀ n, o.namespace_ = some n → n.onlyExposeIn ≠ [] → ∃ s ∈ (w.info x).attrTexts, marker <+: s) := by
  rw [ownAttrs_eq] at ho
  split at ho
  · cases ho
    refine ⟨fun t ht he => ?_, fun n hn he => ?_⟩
    · apply Classical.byContradiction
      intro hno
      obtain ⟨h1, h2⟩ := (fresh_unannotated w x hno).1 t ht
      rcases he with he | he
      · rw [h1] at he; cases he
      · rw [h2] at he; cases he
    · apply Classical.byContradiction
      intro hno
      exact he ((fresh_unannotated w x hno).2 n hn)
  · cases ho

theorem also_alias (w : EmitWorld) (D : Nat → Bool) {word : Str} {v : Bool} (hw : SetsVisible word v) (a : Nat)
    (f : TypedefNameDeclAttrs → Bool) (hf : ∀ t, f t = true → t.exposeHere = true ∨ t.encourage = true) :
    (Annotated w.toWorld a ∧ ∃ o t, ownAttrs w.toWorld a = some o ∧ o.typedefName = some t ∧ f t = true) ↔
    (Annotated (reannotate w (alsoAnnotated w D word)).toWorld a ∧
      ∃ o t, ownAttrs (reannotate w (alsoAnnotated w D word)).toWorld a = some o ∧ o.typedefName = some t ∧
        f t = true) := by
  have hb := (also_attrs w D hw a).1
  constructor
  · rintro ⟨ha, o, t, ho, ht, hft⟩
    refine ⟨also_annotated w D word a ha, ?_⟩
    rw [ho, Option.bind_some, ht, Option.bind_eq_some_iff] at hb
    obtain ⟨o', ho', ht'⟩ := hb
    exact ⟨o', t, ho', ht', hft⟩
  · rintro ⟨ha, o', t, ho', ht', hft⟩
    rw [ho', Option.bind_some, ht', eq_comm, Option.bind_eq_some_iff] at hb
    obtain ⟨o, ho, ht⟩ := hb
    exact ⟨⟨ha.1, ha.2.1, (attrs_marked w a ho).1 t ht (hf t hft), ha.2.2.2⟩, o, t, ho, ht, hft⟩

theorem scopes_also (w : EmitWorld) (D : Nat → Bool) {word : Str} {v : Bool} (hw : SetsVisible word v) (root : Tree) :
    SameScopes w.toWorld root (reannotate w (alsoAnnotated w D word)).toWorld root := by
  have ho : ∀ x, (∃ t, Occurs w.toWorld root t ∧ t.id = x) ↔
      ∃ t, Occurs (reannotate w (alsoAnnotated w D word)).toWorld root t ∧ t.id = x :=
    fun x => ⟨fun ⟨t, ht, hx⟩ => ⟨t, also_occurs w _ ht, hx⟩, fun ⟨t, ht, hx⟩ => ⟨t, also_occurs' w _ ht, hx⟩⟩
  refine ⟨rfl, rfl, ho, fun a x => ?_, fun a x => ?_, fun _ => Iff.rfl, fun _ _ => Iff.rfl, fun _ => Iff.rfl,
    fun name n => ?_⟩
  · have := also_alias w D hw a (·.exposeHere) fun _ => .inl
    constructor
    · rintro ⟨h1, h2, h3, h4, h5⟩
      obtain ⟨h2, h5⟩ := this.1 ⟨h2, h5⟩
      exact ⟨(ho a).1 h1, h2, h3, h4, h5⟩
    · rintro ⟨h1, h2, h3, h4, h5⟩
      obtain ⟨h2, h5⟩ := this.2 ⟨h2, h5⟩
      exact ⟨(ho a).2 h1, h2, h3, h4, h5⟩
  · have := also_alias w D hw a (·.encourage) fun _ => .inr
    constructor
    · rintro ⟨h1, h2, h3, h4, h5⟩
      obtain ⟨h2, h5⟩ := this.1 ⟨h2, h5⟩
      exact ⟨(ho a).1 h1, h2, h3, h4, h5⟩
    · rintro ⟨h1, h2, h3, h4, h5⟩
      obtain ⟨h2, h5⟩ := this.2 ⟨h2, h5⟩
      exact ⟨(ho a).2 h1, h2, h3, h4, h5⟩
  · have hb := (also_attrs w D hw n).2.1
    constructor
    · rintro ⟨hk, ha, o, ns, h1, h2, h3⟩
      have hb := hb hk
      rw [h1, Option.bind_some, h2, Option.bind_eq_some_iff] at hb
      obtain ⟨o', ho', ht'⟩ := hb
      exact ⟨hk, also_annotated w D word n ha, o', ns, ho', ht', h3⟩
    · rintro ⟨hk, ha, o, ns, h1, h2, h3⟩
      have hb := hb hk
      rw [h1, Option.bind_some, h2, eq_comm, Option.bind_eq_some_iff] at hb
      obtain ⟨o', ho', ht'⟩ := hb
      exact ⟨hk, ⟨ha.1, ha.2.1, (attrs_marked w n ho').2 ns ht' h3.1, ha.2.2.2⟩, o', ns, ho', ht', h3⟩

theorem also_visible (w : EmitWorld) (D : Nat → Bool) {word : Str} {v : Bool} (hw : SetsVisible word v) (x : Nat) :
    ownVisible (reannotate w (alsoAnnotated w D word)).toWorld x = some v ∨
      ownVisible (reannotate w (alsoAnnotated w D word)).toWorld x = ownVisible w.toWorld x := by
  cases hx : D x with
  | false =>
    right
    unfold ownVisible
    rw [also_own w D word x hx]
  | true =>
    rcases (also_attrs w D hw x).2.2 hx with h | ⟨h1, h2⟩
    · exact .inl h
    · exact .inr (h1.trans h2.symm)

/-- One more annotation with `visible` does not ask for less. -/
theorem stated_more (w : EmitWorld) (D : Nat → Bool) (root : Tree) {x : Nat} {u : Option Bool}
    (hs : Stated w.toWorld root x u) :
    Stated (reannotate w (alsoAnnotated w D t%"visible")).toWorld root x u ∨
      Stated (reannotate w (alsoAnnotated w D t%"visible")).toWorld root x (some true) := by
  have h := scopes_also w D visible_sets root
  cases hs with
  | @exposed a ha =>
    have := Stated.exposed ((h.exposes _ _).1 ha)
    rcases also_visible w D visible_sets a with e | e <;> rw [e] at this
    · exact .inr this
    · exact .inl this
  | encouraged he => exact .inl (.encouraged ((h.encourages _ _).1 he))
  | own h1 h2 ha =>
    have := Stated.own (fun a ha => h1 a ((h.exposes _ _).2 ha)) (fun e he => h2 e ((h.encourages _ _).2 he))
      (also_annotated w D t%"visible" x ha)
    rcases also_visible w D visible_sets x with e | e <;> rw [e] at this
    · exact .inr this
    · exact .inl this
  | nothing h1 h2 ha =>
    have h1' := fun a ha => h1 a ((h.exposes a x).2 ha)
    have h2' := fun a ha => h2 a ((h.encourages a x).2 ha)
    by_cases hann : Annotated (reannotate w (alsoAnnotated w D t%"visible")).toWorld x
    · have := Stated.own h1' h2' hann
      cases hx : D x with
      | false => exact absurd ((also_annotated_iff w D _ x hx).1 hann) ha
      | true =>
        rcases (also_attrs w D visible_sets x).2.2 hx with e | ⟨e, _⟩ <;> rw [e] at this
        · exact .inr this
        · exact .inl this
    · exact .inl (.nothing h1' h2' hann)

/-- Without an annotation with `hidden` there is not less that is asked for. -/
theorem stated_less (w : EmitWorld) (D : Nat → Bool) (root : Tree) {x : Nat} {u : Option Bool}
    (hs : Stated (reannotate w (alsoAnnotated w D t%"hidden")).toWorld root x u) (hu : u ≠ some false) :
    Stated w.toWorld root x u := by
  have h := scopes_also w D hidden_sets root
  cases hs with
  | @exposed a ha =>
    have := Stated.exposed ((h.exposes _ _).2 ha)
    rcases also_visible w D hidden_sets a with e | e
    · exact absurd e hu
    · rw [e]; exact this
  | encouraged he => exact .encouraged ((h.encourages _ _).2 he)
  | own h1 h2 ha =>
    have h1' := fun a ha => h1 a ((h.exposes a x).1 ha)
    have h2' := fun a ha => h2 a ((h.encourages a x).1 ha)
    cases hx : D x with
    | false =>
      have := Stated.own h1' h2' ((also_annotated_iff w D _ x hx).1 ha)
      rcases also_visible w D hidden_sets x with e | e
      · exact absurd e hu
      · rw [e]; exact this
    | true =>
      rcases (also_attrs w D hidden_sets x).2.2 hx with e | ⟨e, e'⟩
      · exact absurd e hu
      · rw [e]
        by_cases hann : Annotated w.toWorld x
        · rw [← e']
          exact .own h1' h2' hann
        · exact .nothing h1' h2' hann
  | nothing h1 h2 ha =>
    exact .nothing (fun a ha => h1 a ((h.exposes a x).1 ha)) (fun a ha => h2 a ((h.encourages a x).1 ha))
      fun hann => ha (also_annotated w D _ x hann)

theorem also_wf (w : EmitWorld) (texts : Nat → List Str) (root : Tree) (wf : WellFormed w.toWorld root) :
    WellFormed (reannotate w texts).toWorld root :=
  ⟨wf.root_unit, wf.unit_kind, wf.distinct, wf.nested, wf.outermost, wf.top, wf.target_tag, wf.target_complete,
    wf.alias_name⟩

theorem also_one (w : EmitWorld) (D : Nat → Bool) {word : Str} {v : Bool} (hw : SetsVisible word v) (root : Tree)
    (h : OneKindOfAlias w.toWorld root) :
    OneKindOfAlias (reannotate w (alsoAnnotated w D word)).toWorld root := fun x a e h1 h2 =>
  h x a e (((scopes_also w D hw root).exposes a x).2 h1) (((scopes_also w D hw root).encourages e x).2 h2)

/-- C96: annotating further declarations with `visible` does not remove classes or enums. -/
theorem C96_visible_partial (w : EmitWorld) (root : Tree) (wf : WellFormed w.toWorld root) (D : Nat → Bool)
    (hone : OneKindOfAlias w.toWorld root) (g g' : Graph) (b b' : Building)
    (hb : buildGraph w.toWorld root = (some g, b))
    (hb' : buildGraph (reannotate w (alsoAnnotated w D t%"visible")).toWorld root = (some g', b'))
    (name : Str) (x : Nat) (hx : Exposed w.toWorld b.storage name g x) :
    Exposed (reannotate w (alsoAnnotated w D t%"visible")).toWorld b'.storage name g' x := by
  rw [C96_types_partial _ _ wf g b hb hone] at hx
  rw [C96_types_partial _ _ (also_wf w _ root wf) g' b' hb' (also_one w D visible_sets root hone)]
  have ha := scopes_also w D visible_sets root
  exact ha.module (ha.visible wf fun _ _ _ _ hs _ => stated_more w D root hs) name x hx

/-- C96: annotating further declarations with `hidden` does not add classes or enums. -/
theorem C96_hidden_partial (w : EmitWorld) (root : Tree) (wf : WellFormed w.toWorld root) (D : Nat → Bool)
    (hone : OneKindOfAlias w.toWorld root) (g g' : Graph) (b b' : Building)
    (hb : buildGraph w.toWorld root = (some g, b))
    (hb' : buildGraph (reannotate w (alsoAnnotated w D t%"hidden")).toWorld root = (some g', b'))
    (name : Str) (x : Nat)
    (hx : Exposed (reannotate w (alsoAnnotated w D t%"hidden")).toWorld b'.storage name g' x) :
    Exposed w.toWorld b.storage name g x := by
  rw [C96_types_partial _ _ (also_wf w _ root wf) g' b' hb' (also_one w D hidden_sets root hone)] at hx
  rw [C96_types_partial _ _ wf g b hb hone]
  have ha := (scopes_also w D hidden_sets root).symm
  exact ha.module (ha.visible (also_wf w _ root wf) fun _ _ _ _ hs hu => .inl (stated_less w D root hs hu)) name x hx

/-! ### Examples -/

theorem exW_oneKind : OneKindOfAlias exW exTree := by
  intro x a e ha he
  have h1 := ha.2.2.2.1
  have h2 := he.2.2.2.1
  have h3 : a = 3 ∧ x = 2 ∨ a = 5 ∧ x = 6 := by
    revert h1
    simp only [exW]
    split <;> simp <;> exact Eq.symm
  have h4 : e = 3 ∧ x = 2 ∨ e = 5 ∧ x = 6 := by
    revert h2
    simp only [exW]
    split <;> simp <;> exact Eq.symm
  obtain ⟨_, _, _, _, o, t, ho, ht, hv⟩ := ha
  obtain ⟨_, _, _, _, o', t', ho', ht', hv'⟩ := he
  have e3 : (ownAttrs exW 3).bind (·.typedefName) = some { encourage := false, exposeHere := true } := by
    decide +kernel
  have e5 : (ownAttrs exW 5).bind (·.typedefName) = some { encourage := true, exposeHere := false } := by
    decide +kernel
  rcases h3 with ⟨rfl, rfl⟩ | ⟨rfl, rfl⟩
  · rcases h4 with ⟨rfl, _⟩ | ⟨_, h⟩
    · rw [ho', Option.bind_some, ht'] at e3
      cases e3
      cases hv'
    · cases h
  · rw [ho, Option.bind_some, ht] at e5
    cases e5
    cases hv

/-- The class in namespace `ns` is part of the module because of an alias in the translation unit,
although annotated with `hidden`. -/
example : InModule exW exTree t%"m" 2 := by
  have hx : ExposesHere exW exTree 3 2 :=
    ⟨⟨.node 3 [], .inside (by rintro ⟨h, _⟩; cases h) (by simp) (.here (by rintro ⟨h, _⟩; cases h)), rfl⟩,
      ⟨by decide, by decide, ⟨marker ++ t%"expose_here", List.mem_singleton.2 rfl, List.prefix_append _ _⟩, rfl, by rintro (h | h) <;> cases h⟩, rfl, rfl,
      (ownAttrs exW 3).getD {}, { encourage := false, exposeHere := true }, by decide +kernel, by decide +kernel, rfl⟩
  have hs : ShownIn exW exTree 2 0 :=
    .alias hx ⟨[], [], rfl, .inr (.inr (.inr rfl)), nofun⟩
  have hv : ownVisible exW 3 = some true := by decide +kernel
  have hw : Within exW exTree exW.unit 2 := .step .self hs
  refine ⟨.inr rfl, hw, fun a ha => ?_⟩
  have hcase : a = 2 ∨ a = 0 := by
    cases ha with
    | self => exact .inl rfl
    | step hp hs' =>
      have h0 : ∀ p, ShownIn exW exTree 2 p → p = 0 := by
        intro p hp
        cases hp with
        | alias ha hsc =>
          rename_i a'
          have h1 := ha.2.2.2.1
          have : a' = 3 := by
            revert h1
            simp only [exW]
            split <;> simp
          subst this
          obtain ⟨pre, post, h1, h2, _⟩ := hsc
          cases pre with
          | nil => cases h1; rfl
          | cons q pre => cases pre <;> cases h1
        | own hno => exact absurd hx (hno 3)
      cases h0 _ hs'
      cases hp with
      | self => exact .inr rfl
      | step _ hs'' => exact absurd rfl (shown_not_unit exW_wellFormed hs'')
  rcases hcase with rfl | rfl
  · refine ⟨(by rintro ⟨h, _⟩; cases h), fun _ => .stated hw (by decide) ?_⟩
    rw [← hv]
    exact .exposed hx
  · exact ⟨(by rintro ⟨h, _⟩; cases h), by rintro (h | h) <;> cases h⟩

/-- There is a graph, so that the theorems apply. -/
example : ∃ g b, buildGraph exW exTree = (some g, b) := by
  have h : (buildGraph exW exTree).1.isSome = true := by decide +kernel
  cases e : buildGraph exW exTree with
  | mk g b =>
    cases g with
    | none => rw [e] at h; cases h
    | some g => exact ⟨g, b, rfl⟩

/-- Two aliases of one class, with different annotations. -/
def exMixed : World := { exW with info := fun
  | 3 => { exW.info 3 with attrTexts := [marker ++ t%"expose_here, visible(false)"] }
  | 5 => { exW.info 5 with aliasTarget := some 2 }
  | x => exW.info x }

/-- The same declarations, with the aliases in opposite order. -/
def exTree' : Tree :=
  .node 0 [.node 1 [.node 2 [], .node 6 []], .node 4 [.node 5 []], .node 3 [],
    .node 7 [.node 8 []], .node 9 [.node 10 []]]

theorem exTree_rearranged : Rearranged exTree exTree' := .siblings ((List.Perm.swap ..).cons _)

set_option maxRecDepth 4000 in
/-- C96: with aliases of both kinds for one class, whether it is exposed depends on their order. -/
theorem C96_mixed : ∃ g g' b b', Rearranged exTree exTree' ∧ buildGraph exMixed exTree = (some g, b) ∧
    buildGraph exMixed exTree' = (some g', b') ∧ EffVisible exMixed b.storage g 2 ∧
    ¬ EffVisible exMixed b'.storage g' 2 := by
  have h1 : ((buildGraph exMixed exTree).1.map (·.root), 
      ((buildGraph exMixed exTree).1.map fun g => decide (2 ∈ g.children 0)),
      explicit (buildGraph exMixed exTree).2.storage 2) = (some 0, some true, some true) := by decide +kernel
  have h2 : ((buildGraph exMixed exTree').1.isSome, explicit (buildGraph exMixed exTree').2.storage 2) =
      (true, some false) := by decide +kernel
  cases e : buildGraph exMixed exTree with
  | mk g b =>
  cases e' : buildGraph exMixed exTree' with
  | mk g' b' =>
  rw [e] at h1
  rw [e'] at h2
  cases g with
  | none => cases h1
  | some g =>
  cases g' with
  | none => cases h2
  | some g' =>
  simp only [Option.map_some, Prod.mk.injEq, Option.some.injEq, decide_eq_true_eq] at h1 h2
  refine ⟨g, g', b, b', exTree_rearranged, rfl, rfl, .explicit ?_ ?_ h1.2.2, fun h => ?_⟩
  · exact .step .root trivial (by rw [h1.1]; exact h1.2.1)
  · rw [h1.1]; decide
  · cases h with
    | explicit _ _ h3 => rw [h2.2] at h3; cases h3
    | inherited _ _ h3 => rw [h2.2] at h3; cases h3

end Verif
