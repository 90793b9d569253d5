import Verif.Lemmas.Follows3
/-!
# Lemmas: sequences of annotations, storage
-/
namespace Verif
open Spec

theorem shape_fresh (d : DeclInfo) : Shape d (freshAttrs d) := by
  obtain ⟨kind, _, _, _, _, op, _⟩ := d
  constructor <;> simp only [freshAttrs, supportsNamespace, supportsEnum, supportsRecord,
    supportsTypedef, supportsFieldOrVar, supportsMethod, supportsConstructor, supportsFunction,
    supportsOperator, supportsConversion]
  case method =>
    cases op with
    | none => cases kind <;> simp [DeclKind.isFunction, DeclKind.isMethod]
    | some o => cases kind <;> simp [DeclKind.isFunction, DeclKind.isMethod]
  all_goals
    cases kind <;> simp [DeclKind.isFunction]

theorem shape_of_eq {d : DeclInfo} {x : DeclAttrs} (h : Shape d x) (n : NamedDeclAttrs) :
    Shape d { x with named := n } := by
  obtain ⟨h1, h2, h3, h4, h5, h6, h7, h8⟩ := h
  exact ⟨h1, h2, h3, h4, h5, h6, h7, h8⟩

/-- Which components an outcome may fill is not changed by the handlers. -/
theorem lift_isSome {σ : Type} {get : DeclAttrs → Option σ} {put : DeclAttrs → σ → DeclAttrs}
    {process : Annotation → σ → Outcome σ} {d : DeclInfo} (a : Annotation)
    (hp : ∀ x y, (get x).isSome = true → Shape d x → Shape d (put x y)) (x : DeclAttrs)
    (sh : Shape d x) : Shape d (liftHandler get put process a x).attrs := by
  unfold liftHandler
  cases h : get x with
  | none => exact sh
  | some y => exact hp x _ (by simp [h]) sh

theorem shape_handler (env : DeclEnv) (id : Nat) (h : Handler) (hh : h ∈ handlers env id)
    (a : Annotation) (x : DeclAttrs) (sh : Shape (env.info id) x) :
    Shape (env.info id) (h a x).attrs := by
  simp only [handlers, List.mem_cons, List.not_mem_nil, or_false] at hh
  rcases hh with rfl | rfl | rfl | rfl | rfl | rfl | rfl | rfl | rfl | rfl | rfl
  · exact shape_of_eq sh _
  all_goals
    refine lift_isSome a ?_ x sh
    rintro x y hx ⟨h1, h2, h3, h4, h5, h6, h7, h8⟩
    constructor <;> first | assumption | (simp only [Option.isSome_some]; simp_all)

theorem shape_anyHandler (env : DeclEnv) (id : Nat) (hs : List Handler)
    (hh : ∀ h ∈ hs, h ∈ handlers env id)
    (a : Annotation) (x : DeclAttrs) (sh : Shape (env.info id) x) :
    Shape (env.info id) (anyHandler hs a x).attrs := by
  induction hs generalizing x with
  | nil => exact sh
  | cons h hs ih =>
    rw [anyHandler_cons]
    have h1 := shape_handler env id h (hh h (by simp)) a x sh
    split
    · exact h1
    · exact ih (fun h' hm => hh h' (by simp [hm])) _ h1

theorem shape_apply (env : DeclEnv) (id : Nat) (a : Annotation) (x : DeclAttrs)
    (sh : Shape (env.info id) x) : Shape (env.info id) (applyAnnotation env id x a).1 := by
  have := shape_anyHandler env id (handlers env id) (fun _ h => h) a x sh
  unfold applyAnnotation
  simp only
  split <;> exact this

theorem shape_applyAll (env : DeclEnv) (id : Nat) (as : List Annotation) (x : DeclAttrs)
    (sh : Shape (env.info id) x) : Shape (env.info id) (applyAnnotations env id x as).1 := by
  induction as generalizing x with
  | nil => exact sh
  | cons a as ih => exact ih _ (shape_apply env id a x sh)

/-! ### One annotation -/

theorem apply_documented (env : DeclEnv) (id : Nat) (a : Annotation) (x : DeclAttrs)
    (sh : Shape (env.info id) x) (hd : Documented (env.info id) a) :
    Effect env (env.info id) a x (applyAnnotation env id x a).1 ∧
    (applyAnnotation env id x a).2.map (·.kind) =
      acceptedDiagKinds env (env.info id) a (applyAnnotation env id x a).1 ∧
    ∀ g ∈ (applyAnnotation env id x a).2, g.decl = id := by
  have hf := follows env id a x sh
  obtain ⟨h1, h2, h3⟩ := hf.doc hd
  have : applyAnnotation env id x a = ((anyHandler (handlers env id) a x).attrs,
      (anyHandler (handlers env id) a x).diags) := by
    simp [applyAnnotation, h1]
  rw [this]
  exact ⟨h2, h3, hf.decl⟩

theorem apply_undocumented (env : DeclEnv) (id : Nat) (a : Annotation) (x : DeclAttrs)
    (sh : Shape (env.info id) x) (hd : ¬ Documented (env.info id) a) :
    (applyAnnotation env id x a).1 = x ∧
      RejectedWith (env.info id) id a (applyAnnotation env id x a).2 := by
  have hf := follows env id a x sh
  obtain ⟨h1, h2⟩ := hf.undoc hd
  have hinv : Mentions ⟨id, .invalidForDeclKind,
      [friendlyName (env.info id), (a.print).getD []]⟩ a.kind :=
    ⟨(a.print).getD [], by simp, by rw [← kindText_eq]; exact kindText_prefix_print a⟩
  have hrw : applyAnnotation env id x a =
      (x, if hasErrors (anyHandler (handlers env id) a x).diags
        then (anyHandler (handlers env id) a x).diags
        else (anyHandler (handlers env id) a x).diags ++ reportInvalidAnnotation env id a) := by
    simp only [applyAnnotation, h1, h2]
    cases hasErrors (anyHandler (handlers env id) a x).diags <;> simp
  rw [hrw]
  refine ⟨rfl, ?_⟩
  by_cases hap : Applies a.kind (env.info id)
  · by_cases hsc : SideCondition a.kind (env.info id)
    · have hff : ¬ ∃ f ∈ forms a.kind, f.Accepts a.arguments := fun h => hd ⟨hap, hsc, h⟩
      obtain ⟨args, he⟩ := hf.forms hap hsc hff
      rw [he]
      by_cases hc : ∃ f ∈ forms a.kind, f.AcceptsCount a.arguments.length
      · simp only [if_pos hc]
        rw [if_pos (by simp [hasErrors, Diag.isError, DiagKind.isError])]
        exact .wrongType _ hap hsc hc rfl rfl ⟨kindText a.kind, by simp, by simp [kindText_eq]⟩
      · simp only [if_neg hc]
        rw [if_pos (by simp [hasErrors, Diag.isError, DiagKind.isError])]
        exact .wrongCount _ hap hsc hc rfl rfl ⟨kindText a.kind, by simp, by simp [kindText_eq]⟩
    · have hnt : supportsTypedefDiags id (env.info id) = [] := by
        have : (env.info id).kind ≠ .typedefName := by
          intro hk
          cases hka : a.kind <;> simp_all [Applies, SideCondition]
        simp [supportsTypedefDiags, this]
      rcases hf.side hap hsc with he | ⟨g, he, herr, arg, harg, hpre⟩
      · rw [he]
        simp only [hasErrors, List.any_nil, Bool.false_eq_true, if_false, List.nil_append,
          reportInvalidAnnotation, hnt]
        exact .side _ hap hsc rfl rfl hinv
      · have hdecl := hf.decl g (by rw [he]; simp)
        rw [he, if_pos (by simp [hasErrors, herr])]
        exact .side g hap hsc herr hdecl ⟨arg, harg, by rw [← kindText_eq]; exact hpre⟩
  · rw [hf.applies hap]
    simp only [hasErrors, List.any_nil, Bool.false_eq_true, if_false, List.nil_append,
      reportInvalidAnnotation]
    refine .wrongDecl _ _ hap rfl rfl hinv ?_
    unfold supportsTypedefDiags
    split
    · rename_i h; exact .inr ⟨h.1, h.2.1, rfl⟩
    · exact .inl rfl

end Verif
