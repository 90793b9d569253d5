import Verif.Spec.Annotations
import Verif.Lemmas.Identifier
/-!
# Evaluation of the dispatcher and the handlers
-/
namespace Verif
open Spec

/-- The error for arguments of a wrong kind. -/
abbrev wrongType (id : Nat) (k : AnnotationKind) (v : LiteralValue) : Diag :=
  { decl := id, kind := .wrongArgumentType, args := [kindText k, v.print] }

/-- The error for a wrong number of arguments. -/
abbrev wrongCount (id : Nat) (k : AnnotationKind) : Diag :=
  { decl := id, kind := .wrongNumberOfArguments, args := [kindText k] }

/-- A handler that does nothing for an annotation. -/
def Inert (h : Handler) (a : Annotation) : Prop := ∀ x, h a x = notHandled x

theorem anyHandler_cons (h : Handler) (hs : List Handler) (a : Annotation) (x : DeclAttrs) :
    anyHandler (h :: hs) a x = if (h a x).handled then h a x else
      { anyHandler hs a (h a x).attrs with
        diags := (h a x).diags ++ (anyHandler hs a (h a x).attrs).diags } := rfl

theorem anyHandler_inert {h : Handler} {hs : List Handler} {a : Annotation} (hi : Inert h a)
    (x : DeclAttrs) : anyHandler (h :: hs) a x = anyHandler hs a x := by
  rw [anyHandler_cons, hi x]
  simp [notHandled]

theorem anyHandler_allInert {hs : List Handler} {a : Annotation} (hi : ∀ h ∈ hs, Inert h a)
    (x : DeclAttrs) : anyHandler hs a x = notHandled x := by
  induction hs with
  | nil => rfl
  | cons h hs ih =>
    rw [anyHandler_inert (hi h (by simp))]
    exact ih (fun h' hh => hi h' (by simp [hh]))

theorem anyHandler_first {h : Handler} {hs : List Handler} {a : Annotation}
    (hi : ∀ h ∈ hs, Inert h a) (x : DeclAttrs) : anyHandler (h :: hs) a x = h a x := by
  rw [anyHandler_cons, anyHandler_allInert hi]
  split
  · rfl
  · rename_i hh
    rcases hr : h a x with ⟨b, y, ds⟩
    rw [hr] at hh
    cases b
    · simp [notHandled]
    · simp at hh

theorem inert_lift {σ : Type} {get : DeclAttrs → Option σ} {put : DeclAttrs → σ → DeclAttrs}
    {process : Annotation → σ → Outcome σ} {a : Annotation}
    (hp : ∀ x, process a x = notHandled x) (hput : ∀ x y, get x = some y → put x y = x) :
    Inert (liftHandler get put process) a := by
  intro x
  unfold liftHandler
  cases hg : get x with
  | none => rfl
  | some y => simp [hp, notHandled, hput x y hg]

/-- The annotation kinds a handler is responsible for, by index of the handler. -/
def responsible : AnnotationKind → Nat → Bool
  | .hidden, i | .visible, i | .exposeAs, i => i = 0
  | .module, i => i = 0 || i = 1
  | .onlyExposeIn, i => i = 1
  | .arithmetic, i | .exportValues, i => i = 2
  | .dynamicAttr, i | .hideBase, i | .holderType, i | .inlineBase, i => i = 3
  | .encourage, i | .exposeHere, i => i = 4
  | .readonly, i | .manual, i | .postamble, i => i = 5
  | .getterFor, i | .setterFor, i => i = 8
  | .implicitConversion, i => i = 9
  | .keepAlive, i | .noconvert, i | .required, i | .returnValuePolicy, i => i = 10

section
variable (env : DeclEnv) (id : Nat) (k : AnnotationKind) (args : List LiteralValue)

theorem inert_named (h : responsible k 0 = false) :
    Inert (fun a x =>
      let r := processNamed id (env.info id) a x.named
      { handled := r.handled, attrs := { x with named := r.attrs }, diags := r.diags })
      ⟨k, args⟩ := by
  intro x
  cases k <;> first | (exfalso; revert h; decide) | rfl

theorem inert_namespace (h : responsible k 1 = false) :
    Inert (liftHandler (·.namespace_) (fun x y => { x with namespace_ := some y })
      (processNamespace id)) ⟨k, args⟩ := by
  refine inert_lift ?_ (by rintro ⟨⟩ y h; simp_all)
  intro x
  cases k <;> first | (exfalso; revert h; decide) | rfl

theorem inert_enum (h : responsible k 2 = false) :
    Inert (liftHandler (·.enum) (fun x y => { x with enum := some y }) (processEnum id))
      ⟨k, args⟩ := by
  refine inert_lift ?_ (by rintro ⟨⟩ y h; simp_all)
  intro x
  cases k <;> first | (exfalso; revert h; decide) | rfl

theorem inert_record (h : responsible k 3 = false) :
    Inert (liftHandler (·.record) (fun x y => { x with record := some y }) (processRecord env id))
      ⟨k, args⟩ := by
  refine inert_lift ?_ (by rintro ⟨⟩ y h; simp_all)
  intro x
  cases k <;> first | (exfalso; revert h; decide) | rfl

theorem inert_typedef (h : responsible k 4 = false) :
    Inert (liftHandler (·.typedefName) (fun x y => { x with typedefName := some y })
      (processTypedef id)) ⟨k, args⟩ := by
  refine inert_lift ?_ (by rintro ⟨⟩ y h; simp_all)
  intro x
  cases k <;> first | (exfalso; revert h; decide) | rfl

theorem inert_fieldOrVar (h : responsible k 5 = false) :
    Inert (liftHandler (·.fieldOrVar) (fun x y => { x with fieldOrVar := some y })
      (processFieldOrVar id (env.info id))) ⟨k, args⟩ := by
  refine inert_lift ?_ (by rintro ⟨⟩ y h; simp_all)
  intro x
  cases k <;> first | (exfalso; revert h; decide) | rfl

theorem inert_operator (a : Annotation) :
    Inert (liftHandler (·.operator) (fun x y => { x with operator := some y }) processNothing)
      a := by
  refine inert_lift ?_ (by rintro ⟨⟩ y h; simp_all)
  intro x
  rfl

theorem inert_conversion (a : Annotation) :
    Inert (liftHandler (·.conversion) (fun x y => { x with conversion := some y }) processNothing)
      a := by
  refine inert_lift ?_ (by rintro ⟨⟩ y h; simp_all)
  intro x
  rfl

theorem inert_method (h : responsible k 8 = false) :
    Inert (liftHandler (·.method) (fun x y => { x with method := some y })
      (processMethod id (env.info id))) ⟨k, args⟩ := by
  refine inert_lift ?_ (by rintro ⟨⟩ y h; simp_all)
  intro x
  cases k <;> first | (exfalso; revert h; decide) | rfl

theorem inert_constructor (h : responsible k 9 = false) :
    Inert (liftHandler (·.constructor) (fun x y => { x with constructor := some y })
      (processConstructor id (env.info id))) ⟨k, args⟩ := by
  refine inert_lift ?_ (by rintro ⟨⟩ y h; simp_all)
  intro x
  cases k <;> first | (exfalso; revert h; decide) | rfl

theorem inert_function (h : responsible k 10 = false) :
    Inert (liftHandler (·.function) (fun x y => { x with function := some y })
      (processFunction id (env.info id))) ⟨k, args⟩ := by
  refine inert_lift ?_ (by rintro ⟨⟩ y h; simp_all)
  intro x
  cases k <;> first | (exfalso; revert h; decide) | rfl

/-- Evaluates `anyHandler` for a kind with one responsible handler. -/
theorem handlers_inert (i : Nat) (hi : responsible k i = false) (h : Handler)
    (hh : (handlers env id)[i]? = some h) : Inert h ⟨k, args⟩ := by
  match i with
  | 0 => cases hh; exact inert_named env id k args hi
  | 1 => cases hh; exact inert_namespace id k args hi
  | 2 => cases hh; exact inert_enum id k args hi
  | 3 => cases hh; exact inert_record env id k args hi
  | 4 => cases hh; exact inert_typedef id k args hi
  | 5 => cases hh; exact inert_fieldOrVar env id k args hi
  | 6 => cases hh; exact inert_operator _
  | 7 => cases hh; exact inert_conversion _
  | 8 => cases hh; exact inert_method env id k args hi
  | 9 => cases hh; exact inert_constructor env id k args hi
  | 10 => cases hh; exact inert_function env id k args hi
  | n + 11 => simp [handlers] at hh

end

theorem anyHandler_only (hs : List Handler) (a : Annotation) (i : Nat) (h : Handler)
    (hi : hs[i]? = some h) (ho : ∀ j h', j ≠ i → hs[j]? = some h' → Inert h' a) (x : DeclAttrs) :
    anyHandler hs a x = h a x := by
  induction hs generalizing i with
  | nil => simp at hi
  | cons g gs ih =>
    cases i with
    | zero =>
      simp at hi
      subst hi
      apply anyHandler_first
      intro h' hm
      obtain ⟨j, hj⟩ := List.mem_iff_getElem?.1 hm
      exact ho (j + 1) h' (by omega) (by simpa using hj)
    | succ i =>
      rw [anyHandler_inert (ho 0 g (by omega) (by simp))]
      apply ih i (by simpa using hi)
      intro j h' hj hh
      exact ho (j + 1) h' (by omega) (by simpa using hh)

theorem anyHandler_responsible (env : DeclEnv) (id : Nat) (k : AnnotationKind)
    (args : List LiteralValue) (i : Nat) (h : Handler) (hh : (handlers env id)[i]? = some h)
    (ho : ∀ j, j ≠ i → responsible k j = false) (x : DeclAttrs) :
    anyHandler (handlers env id) ⟨k, args⟩ x = h ⟨k, args⟩ x :=
  anyHandler_only _ _ i h hh (fun j h' hj hh' => handlers_inert env id k args j (ho j hj) h' hh') x

end Verif
