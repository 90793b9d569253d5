import Verif.Lemmas.Storage
/-!
# Lemmas: sequences of annotations
-/
set_option linter.unusedSimpArgs false
namespace Verif
open Spec

theorem keepAlive_cases {d : DeclInfo} {s t : Str} {x y : DeclAttrs}
    (h1 : ∀ i j, FirstAt (keepAliveNames d) s i → FirstAt (keepAliveNames d) t j →
      y = { x with function := x.function.map fun f =>
        { f with keepAlive := f.keepAlive ++ [(i, j)] } })
    (h2 : s ∉ keepAliveNames d ∨ t ∉ keepAliveNames d → y = x) :
    ∃ f, y = { x with function := f } := by
  by_cases hs : s ∈ keepAliveNames d
  · by_cases ht : t ∈ keepAliveNames d
    · cases hi : lookupIndex (keepAliveNames d) s with
      | none => exact absurd hs ((lookupIndex_none _ _).1 hi)
      | some i =>
        cases hj : lookupIndex (keepAliveNames d) t with
        | none => exact absurd ht ((lookupIndex_none _ _).1 hj)
        | some j =>
          exact ⟨_, h1 i j ((lookupIndex_some _ _ _).1 hi) ((lookupIndex_some _ _ _).1 hj)⟩
    · exact ⟨x.function, h2 (.inr ht)⟩
  · exact ⟨x.function, h2 (.inl hs)⟩

/-- Which parts a documented annotation leaves alone. -/
theorem effect_frame (env : DeclEnv) (d : DeclInfo) (a : Annotation) (x y : DeclAttrs)
    (h : Effect env d a x y) :
    (responsible a.kind 0 = false → y.named = x.named) ∧
    (responsible a.kind 4 = false → y.typedefName = x.typedefName) := by
  obtain ⟨k, args⟩ := a
  cases k
  case keepAlive =>
    simp only [Effect] at h
    obtain ⟨s, t, -, h1, h2⟩ := h
    obtain ⟨f, rfl⟩ := keepAlive_cases h1 h2
    exact ⟨fun _ => rfl, fun _ => rfl⟩
  case exposeAs =>
    refine ⟨by simp [responsible], fun _ => ?_⟩
    rcases args with _ | ⟨v, _ | ⟨w, r⟩⟩
    · simp only [Effect] at h; rw [h]
    · cases v <;> simp only [Effect] at h
      case string =>
        rename_i s _
        by_cases hv : ValidIdent s
        · rw [h.1 hv]
        · rw [h.2 hv]
      all_goals rw [h]
    · simp only [Effect] at h; rw [h]
  case module =>
    refine ⟨by simp [responsible], fun _ => ?_⟩
    rcases args with _ | ⟨v, _ | ⟨w, r⟩⟩
    · simp only [Effect] at h; rw [h]
    · cases v <;> simp only [Effect] at h
      case string =>
        rename_i s _
        by_cases hv : ValidIdent s
        · rw [h.1 hv]
        · rw [h.2 hv]
      all_goals rw [h]
    · simp only [Effect] at h; rw [h]
  all_goals
    unfold Effect at h; simp only at h
    try split at h
    all_goals first
      | contradiction
      | (subst h; simp [responsible])
      | (obtain ⟨_, _, rfl⟩ := h; simp [responsible])
      | (obtain ⟨_, _, _, rfl, _⟩ := h; simp [responsible])

theorem documented_visibility {d : DeclInfo} {a : Annotation} {v : Option Bool}
    (h : visibilityGiven a = some v) : Documented d a := by
  obtain ⟨k, args⟩ := a
  unfold visibilityGiven at h
  split at h <;> rename_i he
  · cases he; exact ⟨trivial, trivial, .bare, by simp [forms], by simp [Form.Accepts]⟩
  · cases he; exact ⟨trivial, trivial, .bare, by simp [forms], by simp [Form.Accepts]⟩
  · cases he
    exact ⟨trivial, trivial, .one .default, by simp [forms], by simp [Form.Accepts, LiteralValue.kind]⟩
  · cases he
    exact ⟨trivial, trivial, .one .boolean, by simp [forms], by simp [Form.Accepts, LiteralValue.kind]⟩
  · cases h

theorem documented_spelling {d : DeclInfo} {a : Annotation} {v : Str}
    (h : spellingGiven d a = some v) : Documented d a := by
  obtain ⟨k, args⟩ := a
  unfold spellingGiven at h
  split at h <;> rename_i he
  · cases he
    exact ⟨trivial, trivial, .one .default, by simp [forms], by simp [Form.Accepts, LiteralValue.kind]⟩
  · cases he
    exact ⟨trivial, trivial, .one .string, by simp [forms], by simp [Form.Accepts, LiteralValue.kind]⟩
  · cases he
    split at h
    · rename_i hh
      exact ⟨hh.2, trivial, .one .string, by simp [forms], by simp [Form.Accepts, LiteralValue.kind]⟩
    · cases h
  · cases h

/-- The `NamedDeclAttrs` after a documented annotation. -/
theorem effect_named (env : DeclEnv) (d : DeclInfo) (a : Annotation) (x y : DeclAttrs)
    (hd : Documented d a) (h : Effect env d a x y) :
    y.named = { visible := (visibilityGiven a).getD x.named.visible
                spelling := (spellingGiven d a).getD x.named.spelling } := by
  cases hr : responsible a.kind 0 with
  | false =>
    rw [(effect_frame env d a x y h).1 hr]
    obtain ⟨k, args⟩ := a
    cases k <;> simp [responsible] at hr <;> simp [visibilityGiven, spellingGiven]
  | true =>
    obtain ⟨k, args⟩ := a
    obtain ⟨hap, -, f, hf, hacc⟩ := hd
    cases k <;> simp [responsible] at hr
    case hidden =>
      simp [forms] at hf; subst hf; simp [Form.Accepts] at hacc; subst hacc
      simp [Effect] at h; subst h; rfl
    case visible =>
      simp [forms] at hf
      rcases hf with rfl | rfl | rfl
      · simp [Form.Accepts] at hacc; subst hacc; simp [Effect] at h; subst h; rfl
      · rcases args with _ | ⟨v, _ | ⟨w, r⟩⟩ <;> simp [Form.Accepts] at hacc
        cases v <;> simp [LiteralValue.kind] at hacc
        simp [Effect] at h; subst h; rfl
      · rcases args with _ | ⟨v, _ | ⟨w, r⟩⟩ <;> simp [Form.Accepts] at hacc
        cases v <;> simp [LiteralValue.kind] at hacc
        simp [Effect] at h; subst h; rfl
    case exposeAs =>
      simp [forms] at hf
      rcases hf with rfl | rfl
      · rcases args with _ | ⟨v, _ | ⟨w, r⟩⟩ <;> simp [Form.Accepts] at hacc
        cases v <;> simp [LiteralValue.kind] at hacc
        simp [Effect] at h; subst h; simp [visibilityGiven, spellingGiven]
      · rcases args with _ | ⟨v, _ | ⟨w, r⟩⟩ <;> simp [Form.Accepts] at hacc
        cases v <;> simp [LiteralValue.kind] at hacc
        rename_i s
        simp only [Effect] at h
        by_cases hv : ValidIdent s
        · rw [h.1 hv]; simp [visibilityGiven, spellingGiven, hv]
        · rw [h.2 hv]; simp [visibilityGiven, spellingGiven, hv]
    case module =>
      simp only [Applies] at hap
      simp [forms] at hf
      rcases hf with rfl | rfl
      · simp [Form.Accepts] at hacc; subst hacc
        simp [Effect] at h; subst h; simp [visibilityGiven, spellingGiven]
      · rcases args with _ | ⟨v, _ | ⟨w, r⟩⟩ <;> simp [Form.Accepts] at hacc
        cases v <;> simp [LiteralValue.kind] at hacc
        rename_i s
        simp only [Effect] at h
        by_cases hv : ValidIdent s
        · rw [h.1 hv]; simp [visibilityGiven, spellingGiven, hv, hap]
        · rw [h.2 hv]; simp [visibilityGiven, spellingGiven, hv]

theorem apply_named (env : DeclEnv) (id : Nat) (a : Annotation) (x : DeclAttrs)
    (sh : Shape (env.info id) x) :
    (applyAnnotation env id x a).1.named =
      { visible := (visibilityGiven a).getD x.named.visible
        spelling := (spellingGiven (env.info id) a).getD x.named.spelling } := by
  by_cases hd : Documented (env.info id) a
  · exact effect_named _ _ _ _ _ hd (apply_documented env id a x sh hd).1
  · rw [(apply_undocumented env id a x sh hd).1]
    have h1 : visibilityGiven a = none := by
      cases h : visibilityGiven a with
      | none => rfl
      | some v => exact absurd (documented_visibility h) hd
    have h2 : spellingGiven (env.info id) a = none := by
      cases h : spellingGiven (env.info id) a with
      | none => rfl
      | some v => exact absurd (documented_spelling h) hd
    simp [h1, h2]

theorem getLast?_filterMap_cons {α β : Type} (f : α → Option β) (a : α) (as : List α) (d : β) :
    ((a :: as).filterMap f).getLast?.getD d = (as.filterMap f).getLast?.getD ((f a).getD d) := by
  cases h : f a with
  | none => simp [h]
  | some v =>
    rw [List.filterMap_cons, h]
    simp [List.getLast?_cons]

theorem applyAll_named (env : DeclEnv) (id : Nat) (as : List Annotation) (x : DeclAttrs)
    (sh : Shape (env.info id) x) :
    (applyAnnotations env id x as).1.named =
      { visible := (as.filterMap visibilityGiven).getLast?.getD x.named.visible
        spelling := (as.filterMap (spellingGiven (env.info id))).getLast?.getD x.named.spelling } := by
  induction as generalizing x with
  | nil => simp [applyAnnotations]
  | cons a as ih =>
    simp only [applyAnnotations]
    rw [ih _ (shape_apply env id a x sh), apply_named env id a x sh]
    simp only [getLast?_filterMap_cons]

theorem rejected_decl {d : DeclInfo} {id : Nat} {a : Annotation} {ds : List Diag}
    (h : RejectedWith d id a ds) : ∀ g ∈ ds, g.decl = id := by
  intro g' hg
  cases h with
  | wrongDecl extra g _ _ hd _ he =>
    simp at hg
    rcases hg with hg | rfl
    · rcases he with rfl | ⟨-, -, rfl⟩
      · simp at hg
      · simp at hg; simp [hg]
    · exact hd
  | side g _ _ _ hd _ => simp at hg; subst hg; exact hd
  | wrongType g _ _ _ _ hd _ => simp at hg; subst hg; exact hd
  | wrongCount g _ _ _ _ hd _ => simp at hg; subst hg; exact hd

theorem apply_decl (env : DeclEnv) (id : Nat) (a : Annotation) (x : DeclAttrs)
    (sh : Shape (env.info id) x) : ∀ g ∈ (applyAnnotation env id x a).2, g.decl = id := by
  by_cases hd : Documented (env.info id) a
  · exact (apply_documented env id a x sh hd).2.2
  · exact rejected_decl (apply_undocumented env id a x sh hd).2

theorem applyAll_decl (env : DeclEnv) (id : Nat) (as : List Annotation) (x : DeclAttrs)
    (sh : Shape (env.info id) x) : ∀ g ∈ (applyAnnotations env id x as).2, g.decl = id := by
  induction as generalizing x with
  | nil => simp [applyAnnotations]
  | cons a as ih =>
    intro g hg
    simp only [applyAnnotations, List.mem_append] at hg
    rcases hg with hg | hg
    · exact apply_decl env id a x sh g hg
    · exact ih _ (shape_apply env id a x sh) g hg

/-- What is reported for a list of annotations includes, for each of them, what
is reported for it in some state of the right shape. -/
theorem applyAll_mem (env : DeclEnv) (id : Nat) (as : List Annotation) (x : DeclAttrs)
    (sh : Shape (env.info id) x) (a : Annotation) (ha : a ∈ as) :
    ∃ y, Shape (env.info id) y ∧
      ∀ g ∈ (applyAnnotation env id y a).2, g ∈ (applyAnnotations env id x as).2 := by
  induction as generalizing x with
  | nil => simp at ha
  | cons b as ih =>
    simp only [List.mem_cons] at ha
    rcases ha with rfl | ha
    · exact ⟨x, sh, fun g hg => by simp [applyAnnotations, hg]⟩
    · obtain ⟨y, h1, h2⟩ := ih _ (shape_apply env id b x sh) ha
      exact ⟨y, h1, fun g hg => by simp [applyAnnotations, h2 g hg]⟩

theorem rejected_error {d : DeclInfo} {id : Nat} {a : Annotation} {ds : List Diag}
    (h : RejectedWith d id a ds) :
    ∃ g ∈ ds, g.isError = true ∧ g.decl = id ∧ Mentions g a.kind := by
  cases h with
  | wrongDecl extra g _ hk hd hm _ => exact ⟨g, by simp, by simp [Diag.isError, hk, DiagKind.isError], hd, hm⟩
  | side g _ _ he hd hm => exact ⟨g, by simp, he, hd, hm⟩
  | wrongType g _ _ _ hk hd hm => exact ⟨g, by simp, by simp [Diag.isError, hk, DiagKind.isError], hd, hm⟩
  | wrongCount g _ _ _ hk hd hm => exact ⟨g, by simp, by simp [Diag.isError, hk, DiagKind.isError], hd, hm⟩

/-! ### Conflicts -/

/-- Step for the alias attributes. -/
theorem apply_typedef (env : DeclEnv) (id : Nat) (a : Annotation) (x : DeclAttrs)
    (sh : Shape (env.info id) x) (t : TypedefNameDeclAttrs) (ht : x.typedefName = some t) :
    ((applyAnnotation env id x a).1.typedefName =
      some { encourage := t.encourage || a = ⟨.encourage, []⟩
             exposeHere := t.exposeHere || a = ⟨.exposeHere, []⟩ }) ∧
    ((∃ g ∈ (applyAnnotation env id x a).2, g.kind = .conflictingAnnotations) ↔
      (a = ⟨.encourage, []⟩ ∨ a = ⟨.exposeHere, []⟩) ∧
      (t.encourage || a = ⟨.encourage, []⟩) = true ∧
      (t.exposeHere || a = ⟨.exposeHere, []⟩) = true) := by
  have hk : (env.info id).kind = .typedefName := by
    have := sh.typedefName; rw [ht] at this; simpa using this
  by_cases hd : Documented (env.info id) a
  · obtain ⟨he, hdi, -⟩ := apply_documented env id a x sh hd
    have hmem : (∃ g ∈ (applyAnnotation env id x a).2, g.kind = .conflictingAnnotations) ↔
        DiagKind.conflictingAnnotations ∈
          acceptedDiagKinds env (env.info id) a (applyAnnotation env id x a).1 := by
      rw [← hdi]; simp
    rw [hmem]
    generalize (applyAnnotation env id x a).1 = y at *
    cases hr : responsible a.kind 4 with
    | false =>
      rw [(effect_frame _ _ _ _ _ he).2 hr, ht]
      have hn1 : a ≠ ⟨.encourage, []⟩ := by rintro rfl; simp [responsible] at hr
      have hn2 : a ≠ ⟨.exposeHere, []⟩ := by rintro rfl; simp [responsible] at hr
      refine ⟨by simp [hn1, hn2], ?_⟩
      simp only [hn1, hn2, or_self, false_and, iff_false]
      obtain ⟨k, args⟩ := a
      obtain ⟨hap, -⟩ := hd
      cases k <;> simp [responsible] at hr <;> simp_all [Applies] <;>
        simp only [acceptedDiagKinds] <;>
        intro hc <;> simp at hc
      all_goals
        obtain ⟨v, -, hv⟩ := hc
        cases v <;> simp at hv
    | true =>
      obtain ⟨k, args⟩ := a
      obtain ⟨-, -, f, hf, hacc⟩ := hd
      cases k <;> simp [responsible] at hr
      all_goals
        simp [forms] at hf; subst hf; simp [Form.Accepts] at hacc; subst hacc
        simp [Effect] at he; subst he
        obtain ⟨e1, e2⟩ := t
        simp [ht, acceptedDiagKinds]
        try cases e1 <;> cases e2 <;> simp
  · obtain ⟨h1, h2⟩ := apply_undocumented env id a x sh hd
    have hn1 : a ≠ ⟨.encourage, []⟩ := by
      rintro rfl; exact hd ⟨hk, trivial, .bare, by simp [forms], rfl⟩
    have hn2 : a ≠ ⟨.exposeHere, []⟩ := by
      rintro rfl; exact hd ⟨hk, trivial, .bare, by simp [forms], rfl⟩
    rw [h1, ht]
    refine ⟨by simp [hn1, hn2], ?_⟩
    simp only [hn1, hn2, or_self, false_and, iff_false]
    rintro ⟨g, hg, hgk⟩
    generalize (applyAnnotation env id x a).2 = ds at *
    cases h2 with
    | wrongDecl extra g' _ hk' _ _ hex =>
      simp at hg
      rcases hg with hg | rfl
      · rcases hex with rfl | ⟨-, -, rfl⟩
        · simp at hg
        · simp at hg; subst hg; simp at hgk
      · rw [hk'] at hgk; cases hgk
    | side g' hap hsc _ _ _ =>
      obtain ⟨k, args⟩ := a
      cases k <;> simp_all [Applies, SideCondition]
    | wrongType g' _ _ _ hk' _ _ => simp at hg; subst hg; rw [hk'] at hgk; cases hgk
    | wrongCount g' _ _ _ hk' _ _ => simp at hg; subst hg; rw [hk'] at hgk; cases hgk

theorem applyAll_conflict (env : DeclEnv) (id : Nat) (as : List Annotation) (x : DeclAttrs)
    (sh : Shape (env.info id) x) (t : TypedefNameDeclAttrs) (ht : x.typedefName = some t)
    (hn : ¬ (t.encourage = true ∧ t.exposeHere = true)) :
    (∃ g ∈ (applyAnnotations env id x as).2, g.kind = .conflictingAnnotations) ↔
      (t.encourage = true ∨ ⟨.encourage, []⟩ ∈ as) ∧
      (t.exposeHere = true ∨ ⟨.exposeHere, []⟩ ∈ as) := by
  induction as generalizing x t with
  | nil => simp [applyAnnotations]; intro h; simp [h] at hn; simp [hn]
  | cons a as ih =>
    obtain ⟨h1, h2⟩ := apply_typedef env id a x sh t ht
    have sh' := shape_apply env id a x sh
    have hsplit : ∀ A B : List Diag, (∃ g ∈ A ++ B, g.kind = .conflictingAnnotations) ↔
        (∃ g ∈ A, g.kind = .conflictingAnnotations) ∨
        (∃ g ∈ B, g.kind = .conflictingAnnotations) := by
      intro A B; simp [or_and_right, exists_or]
    simp only [applyAnnotations]
    rw [hsplit, h2]
    by_cases hb : ((t.encourage || decide (a = ⟨.encourage, []⟩)) = true ∧
        (t.exposeHere || decide (a = ⟨.exposeHere, []⟩)) = true)
    · constructor
      · intro _
        obtain ⟨hb1, hb2⟩ := hb
        simp at hb1 hb2
        exact ⟨hb1.imp _root_.id (fun h => by simp [h]), hb2.imp _root_.id (fun h => by simp [h])⟩
      · intro _
        left
        refine ⟨?_, hb⟩
        obtain ⟨hb1, hb2⟩ := hb
        simp at hb1 hb2
        rcases hb1 with hb1 | hb1
        · rcases hb2 with hb2 | hb2
          · exact absurd ⟨hb1, hb2⟩ hn
          · exact .inr hb2
        · exact .inl hb1
    · rw [ih _ sh' _ h1 hb, or_iff_right (fun h => hb h.2)]
      simp only [Bool.or_eq_true, decide_eq_true_eq, List.mem_cons, or_assoc, @eq_comm _ a]

end Verif
