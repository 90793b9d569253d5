import Verif.Spec.Success
/-!
# Properties, conversions, manual bindings and exported values of a module
-/
namespace Verif.Spec

/-- The properties: name, getter and setter. -/
def propertyOf : Stmt → Option (Str × FnPtr × Option FnPtr)
  | .property name getter setter => some (name, getter, setter)
  | _ => none

/-- The statement that makes enumerators available outside of their enum. -/
def exportOf : Stmt → Option Unit
  | .exportValues => some ()
  | _ => none

/-- The enumerators of an enum are to be available outside of it: it is annotated, with
`export_values`, or without it and unscoped. -/
def ExportsValues (w : EmitWorld) (s : Storage) (x : Nat) : Prop :=
  ∃ a, (s.entries x).bind (·.enum) = some a ∧
    (a.exportValues = some true ∨ a.exportValues = none ∧ w.isScoped x = false)

/-- The function for writing property `n` of class `x`, if there is one. -/
def SetterOf (w : EmitWorld) (s : Storage) (g : Graph) (x : Nat) (n : Str) : Option FnPtr → Prop
  | some p => ∃ d, SetterIn w s g x n d ∧ p = emitFunctionPointer w d
  | none => ∀ d, ¬ SetterIn w s g x n d

/-- A free function that prints objects of class `x` to a stream, annotated with the name the
method is to have in Python. -/
def PrintsAs (w : EmitWorld) (s : Storage) (d : Nat) (n : Str) : Prop :=
  overloadsOperator (w.info d) = true ∧ (w.fn d).isDeleted = false ∧ printsToStream w d = true ∧
    n ≠ [] ∧ ∃ a, attrsOf w s d = some a ∧ a.named.spelling = n

end Verif.Spec
