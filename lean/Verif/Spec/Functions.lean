import Verif.Spec.Annotations
/-!
# What pybind11 makes of argument annotations and call policies

Written from the pybind11 documentation: `keep_alive<Nurse, Patient>` counts the
return value as 0, then the arguments of the bound function from 1, the implicit
object being the first argument of a method or constructor.
-/
namespace Verif.Spec

/-- What a position can refer to. -/
inductive Place where
  | result
  | self
  | param (n : Nat)
  deriving DecidableEq

/-- The bound function has an implicit object. -/
def HasSelf (d : DeclInfo) (isStatic : Bool) : Prop :=
  (d.kind = .method ∧ isStatic = false) ∨ d.kind = .constructor ∨ d.kind = .conversion

instance (d : DeclInfo) (b : Bool) : Decidable (HasSelf d b) := by
  unfold HasSelf; infer_instance

/-- What pybind11 finds at a position. -/
def seenAt (d : DeclInfo) (isStatic : Bool) : Nat → Option Place
  | 0 => some .result
  | n + 1 =>
    if HasSelf d isStatic then
      match n with
      | 0 => some .self
      | n + 1 => if n < d.params.length then some (.param n) else none
    else if n < d.params.length then some (.param n) else none

/-- What a name in `keep_alive` means to the user. -/
inductive Denotes (d : DeclInfo) (isStatic : Bool) : Str → Place → Prop where
  | result : Denotes d isStatic t%"return" .result
  | self : HasSelf d isStatic → Denotes d isStatic t%"this" .self
  | param (s n) : FirstAt d.params s n → Denotes d isStatic s (.param n)

end Verif.Spec
