import Verif.Model.Defaults
/-!
# Which default arguments are to be instantiated
-/
namespace Verif.Spec

/-- A default argument of a valid function that has to be instantiated. -/
def Wanted (w : DefaultsWorld) (p : Nat) : Prop :=
  (w.parm p).arg = .uninstantiated ∧
    ∃ f, (w.parm p).function = some f ∧ f.invalid = false ∧ f.undeclared = false

/-- The specialization exists when position `k` of the traversal is reached: it does from the start,
or is instantiated for a default argument that is visited before. -/
inductive Available (w : DefaultsWorld) : Nat → Nat → Prop where
  | start {n k : Nat} : w.existing n = true → Available w n k
  | created {n j k q : Nat} : w.order[j]? = some q → j < k → (∀ m ∈ (w.parm q).needs, Available w m j) →
      Wanted w q → (w.parm q).instantiable = true → n ∈ (w.parm q).creates → Available w n k

/-- Facts about clang: parameters are visited once, and what is instantiated for a default argument
includes what is for the ones it uses, which are instantiated too. -/
structure DefaultsOK (w : DefaultsWorld) : Prop where
  once : w.order.Nodup
  uses : ∀ p, ∀ q ∈ (w.parm p).uses, ∀ n ∈ (w.parm q).creates, n ∈ (w.parm p).creates

/-- Expressions can be read. -/
def Readable (w : DefaultsWorld) (s : DefaultsState) (p : Nat) : Prop :=
  ∃ b, getDefaultArg (argNow w s p) = some b

end Verif.Spec
