import Verif.Spec.Tool
import Verif.Spec.Import
import Verif.Spec.Visibility
/-!
# Notions about whole runs
-/
namespace Verif.Spec

/-- Both are declarations of the same namespace. -/
def SameNamespace (w : World) (x y : Nat) : Prop :=
  (w.info x).kind = .namespace ∧ (w.info y).kind = .namespace ∧ w.canonical x = w.canonical y

/-- What C++ ensures about namespaces that are opened repeatedly: their declarations have
the same name, which is not the one of a template specialization, and the same scope; access
to namespaces is not restricted. -/
structure Reopening (w : World) : Prop where
  name : ∀ x y, SameNamespace w x y → (w.info x).name = (w.info y).name ∧
    (w.info x).nameIsIdentifier = (w.info y).nameIsIdentifier ∧
    (w.info x).templateArgs = (w.info y).templateArgs
  scope : ∀ x y p q, SameNamespace w x y → ScopeOf w x p → ScopeOf w y q →
    p = q ∨ SameNamespace w p q
  access : ∀ x, (w.info x).kind = .namespace → w.access x = .none

/-- No declaration of an annotated namespace is free of annotations: it is annotated itself
or something in it is. -/
def NoBareReopening (w : World) (root : Tree) : Prop :=
  ∀ s t, Occurs w root s → Occurs w root t → SameNamespace w s.id t.id → Annotated w s.id → Relevant w t

/-- What is expected of a class or enum that is part of the module: it is placed in the
translation unit, all types around it and itself are visible, and it is not in a
namespace for other modules. -/
def Exposed (w : World) (s : Storage) (name : Str) (g : Graph) (x : Nat) : Prop :=
  IsType w x ∧ Reachable g x ∧ ¬ InOther w s name g x ∧
    ∀ a, Below g a x → IsType w a → EffVisible w s g a

end Verif.Spec
