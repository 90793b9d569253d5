import Verif.Model.Messages
import Verif.Spec.TopoSort
import Verif.Spec.Ast
/-!
# What the texts of diagnostics have to contain
-/
namespace Verif.Spec

/-- The message can be shown and contains these texts as they are. -/
def Shows (display : Nat → Str) (q : Diag) (parts : List Str) : Prop :=
  ∃ text, message display q = some text ∧ ∀ p ∈ parts, p <:+: text

/-- The texts that the user needs: everything the diagnostic is about, the name of a context that
is not exposed, and whether it is about a getter or a setter. -/
def shownParts (display : Nat → Str) (q : Diag) : List Str :=
  match q.kind, q.args with
  | .unreachableDeclContext, _ => [display q.decl]
  | .propertyAlreadyDefined, [n, ['0']] => [t%"getter", n]
  | .propertyAlreadyDefined, [n, ['1']] => [t%"setter", n]
  | .previouslyExposedHere, _ => []
  | _, args => args

/-- Definitions start behind those of the contexts around them and those of base classes. -/
def StartsAfter (w : World) (bases : Bases) (rank : Nat → Nat) : Prop :=
  (∀ x p, ScopeOf w x p → rank p < rank x) ∧ ∀ x a p, (a, p) ∈ bases x → rank p < rank x

end Verif.Spec
