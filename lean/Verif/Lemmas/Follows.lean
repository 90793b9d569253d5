import Verif.Lemmas.Dispatch
/-!
# One annotation: the handlers do what is documented
-/
set_option linter.unusedSimpArgs false
namespace Verif
open Spec

theorem follows_hidden (env : DeclEnv) (id : Nat) (args : List LiteralValue) (x : DeclAttrs) :
    Follows env id ⟨.hidden, args⟩ x (anyHandler (handlers env id) ⟨.hidden, args⟩ x) := by
  rw [anyHandler_responsible env id _ args 0 _ rfl (by intro j; simp [responsible])]
  follow_unary args

theorem follows_visible (env : DeclEnv) (id : Nat) (args : List LiteralValue) (x : DeclAttrs) :
    Follows env id ⟨.visible, args⟩ x (anyHandler (handlers env id) ⟨.visible, args⟩ x) := by
  rw [anyHandler_responsible env id _ args 0 _ rfl (by intro j; simp [responsible])]
  follow_unary args

theorem follows_enum (env : DeclEnv) (id : Nat) (k : AnnotationKind) (args : List LiteralValue)
    (x : DeclAttrs) (sh : Shape (env.info id) x) (hk : k = .arithmetic ∨ k = .exportValues) :
    Follows env id ⟨k, args⟩ x (anyHandler (handlers env id) ⟨k, args⟩ x) := by
  rw [anyHandler_responsible env id _ args 2 _ rfl
    (by intro j; rcases hk with rfl | rfl <;> simp [responsible])]
  have hs := sh.enum
  clear sh
  obtain ⟨n, ns, e, r, t, fv, o, c, m, ct, f⟩ := x
  rcases e with _ | e <;> rcases hk with rfl | rfl <;> simp only [liftHandler]
  · follow
  · follow
  · follow_unary args
  · follow_unary args

theorem follows_dynamicAttr (env : DeclEnv) (id : Nat) (k : AnnotationKind)
    (args : List LiteralValue) (x : DeclAttrs) (sh : Shape (env.info id) x)
    (hk : k = .dynamicAttr ∨ k = .holderType) :
    Follows env id ⟨k, args⟩ x (anyHandler (handlers env id) ⟨k, args⟩ x) := by
  rw [anyHandler_responsible env id _ args 3 _ rfl
    (by intro j; rcases hk with rfl | rfl <;> simp [responsible])]
  have hs := sh.record
  clear sh
  obtain ⟨n, ns, e, r, t, fv, o, c, m, ct, f⟩ := x
  rcases r with _ | r <;> rcases hk with rfl | rfl <;> simp only [liftHandler]
  · follow
  · follow
  · follow_unary args
  · follow_unary args

theorem follows_typedef (env : DeclEnv) (id : Nat) (k : AnnotationKind)
    (args : List LiteralValue) (x : DeclAttrs) (sh : Shape (env.info id) x)
    (hk : k = .encourage ∨ k = .exposeHere) :
    Follows env id ⟨k, args⟩ x (anyHandler (handlers env id) ⟨k, args⟩ x) := by
  rw [anyHandler_responsible env id _ args 4 _ rfl
    (by intro j; rcases hk with rfl | rfl <;> simp [responsible])]
  have hs := sh.typedefName
  clear sh
  obtain ⟨n, ns, e, r, t, fv, o, c, m, ct, f⟩ := x
  rcases t with _ | ⟨en, ex⟩ <;> rcases hk with rfl | rfl <;> simp only [liftHandler]
  · follow
  · follow
  · cases en <;> cases ex <;> follow_unary args
  · cases en <;> cases ex <;> follow_unary args

theorem manualBindingsExpr_eq (d : DeclInfo) (l : Nat) :
    manualBindingsExpr d = some l ↔ IsManualLambda d l := by
  unfold manualBindingsExpr IsManualLambda
  cases d.lambda with
  | none => simp
  | some m =>
    obtain ⟨i, e, n, lv, ua⟩ := m
    cases e <;> cases lv <;> cases ua <;> by_cases h : d.kind = .var <;> by_cases hn : n = 1 <;>
      simp [h, hn]

theorem manualBindingsExpr_none (d : DeclInfo) :
    manualBindingsExpr d = none ↔ ∀ l, ¬ IsManualLambda d l := by
  cases h : manualBindingsExpr d with
  | none => simp [← manualBindingsExpr_eq, h]
  | some l =>
    simp only [reduceCtorEq, false_iff]
    exact fun hh => hh l ((manualBindingsExpr_eq d l).1 h)

theorem follows_readonly (env : DeclEnv) (id : Nat) (args : List LiteralValue) (x : DeclAttrs)
    (sh : Shape (env.info id) x) :
    Follows env id ⟨.readonly, args⟩ x (anyHandler (handlers env id) ⟨.readonly, args⟩ x) := by
  rw [anyHandler_responsible env id _ args 5 _ rfl (by intro j; simp [responsible])]
  have hs := sh.fieldOrVar
  clear sh
  obtain ⟨n, ns, e, r, t, fv, o, c, m, ct, f⟩ := x
  rcases fv with _ | fv <;> simp only [liftHandler]
  · follow
  · follow_unary args

theorem follows_manual (env : DeclEnv) (id : Nat) (args : List LiteralValue) (x : DeclAttrs)
    (sh : Shape (env.info id) x) :
    Follows env id ⟨.manual, args⟩ x (anyHandler (handlers env id) ⟨.manual, args⟩ x) := by
  rw [anyHandler_responsible env id _ args 5 _ rfl (by intro j; simp [responsible])]
  have hs := sh.fieldOrVar
  clear sh
  obtain ⟨n, ns, e, r, t, fv, o, c, m, ct, f⟩ := x
  rcases fv with _ | fv <;> simp only [liftHandler]
  · follow
  · cases hm : manualBindingsExpr (env.info id) with
    | none =>
      have hm' := (manualBindingsExpr_none _).1 hm
      follow
    | some l =>
      have hm' := (manualBindingsExpr_eq _ _).1 hm
      have hex : ∃ l, IsManualLambda (env.info id) l := ⟨l, hm'⟩
      rcases args with _ | ⟨v, r⟩
      · constructor <;> simp_all [processFieldOrVar, Documented, Applies, forms, Form.Accepts,
          SideCondition, Effect, acceptedDiagKinds, Dispatcher.start, Dispatcher.nullary,
          Dispatcher.checkMatch, Dispatcher.call, Dispatcher.ensure, modify, notHandled]
      · follow

theorem follows_postamble (env : DeclEnv) (id : Nat) (args : List LiteralValue) (x : DeclAttrs)
    (sh : Shape (env.info id) x) :
    Follows env id ⟨.postamble, args⟩ x (anyHandler (handlers env id) ⟨.postamble, args⟩ x) := by
  rw [anyHandler_responsible env id _ args 5 _ rfl (by intro j; simp [responsible])]
  have hs := sh.fieldOrVar
  clear sh
  obtain ⟨n, ns, e, r, t, fv, o, c, m, ct, f⟩ := x
  rcases fv with _ | fv <;> simp only [liftHandler]
  · follow
  · cases hm : manualBindingsExpr (env.info id) with
    | none =>
      have hm' := (manualBindingsExpr_none _).1 hm
      follow
    | some l =>
      have hm' := (manualBindingsExpr_eq _ _).1 hm
      have hex : ∃ l, IsManualLambda (env.info id) l := ⟨l, hm'⟩
      cases ht : (env.info id).inTranslationUnit
      · follow
        rfl
      · rcases args with _ | ⟨v, r⟩ <;> follow

theorem follows_implicitConversion (env : DeclEnv) (id : Nat) (args : List LiteralValue)
    (x : DeclAttrs) (sh : Shape (env.info id) x) :
    Follows env id ⟨.implicitConversion, args⟩ x
      (anyHandler (handlers env id) ⟨.implicitConversion, args⟩ x) := by
  rw [anyHandler_responsible env id _ args 9 _ rfl (by intro j; simp [responsible])]
  have hs := sh.constructor
  clear sh
  obtain ⟨n, ns, e, r, t, fv, o, c, m, ct, f⟩ := x
  rcases ct with _ | ct <;> simp only [liftHandler]
  · follow
  · cases hc : (env.info id).converting
    · follow
      exact ⟨rfl, .inr (kindText_prefix_print ⟨.implicitConversion, args⟩)⟩
    · by_cases hl : (env.info id).params.length = 1
      · follow_unary args
      · follow
        exact ⟨rfl, .inr (kindText_prefix_print ⟨.implicitConversion, args⟩)⟩

end Verif
