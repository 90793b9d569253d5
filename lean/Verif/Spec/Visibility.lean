import Verif.Spec.Graph
import Verif.Model.Processing
/-!
# Which declaration contexts are visible and exposed

Specification by inductive definitions on the graph, without reference to
traversals.
-/
namespace Verif.Spec

/-- A graph of declaration contexts: the root is a translation unit, all other
nodes are namespaces or types. -/
structure ContextGraph (w : World) (g : Graph) : Prop extends Forest g where
  root_kind : (w.info g.root).kind = .translationUnit
  node_kind : ∀ x ∈ g.nodes, x ≠ g.root → (w.info x).kind = .namespace ∨
    (w.info x).kind = .enum ∨ (w.info x).kind = .record

/-- `x` is `a` or is placed somewhere below it. -/
inductive Below (g : Graph) (a : Nat) : Nat → Prop where
  | self : Below g a a
  | step {p x : Nat} : Below g a p → Edge g p x → Below g a x

/-- Visibility given by annotations. -/
def explicit (s : Storage) (x : Nat) : Option Bool :=
  (s.entries x).bind (·.named.visible)

/-- Classes and enums. -/
def IsType (w : World) (x : Nat) : Prop :=
  (w.info x).kind = .enum ∨ (w.info x).kind = .record

/-- Effective visibility: explicit, or inherited from the context it is exposed in
unless access to it is restricted.  The translation unit is not visible. -/
inductive EffVisible (w : World) (s : Storage) (g : Graph) : Nat → Prop where
  | explicit {x : Nat} : Reachable g x → x ≠ g.root → explicit s x = some true →
      EffVisible w s g x
  | inherited {p x : Nat} : EffVisible w s g p → Edge g p x → Spec.explicit s x = none →
      w.access x ≠ .private → w.access x ≠ .protected → EffVisible w s g x

/-- A namespace that is only to be exposed in other modules. -/
def ForOther (w : World) (s : Storage) (moduleName : Str) (n : Nat) : Prop :=
  (w.info n).kind = .namespace ∧ ∃ attrs ns, s.entries n = some attrs ∧
    attrs.namespace_ = some ns ∧ ns.onlyExposeIn ≠ [] ∧ moduleName ∉ ns.onlyExposeIn

/-- In, or itself, a namespace that is only to be exposed in other modules. -/
def InOther (w : World) (s : Storage) (moduleName : Str) (g : Graph) (x : Nat) : Prop :=
  ∃ n, ForOther w s moduleName n ∧ Below g n x

/-- The context contains a declaration (other than a type or namespace) that is
visible, given the visibility `V` of contexts. -/
def HasVisibleMember (s : Storage) (m : Members) (V : Nat → Prop) (x : Nat) : Prop :=
  ∃ d ∈ m.decls x, m.isImplicit d = false ∧
    (explicit s d = some true ∨ (explicit s d = none ∧ V x))

/-- The context contains something visible, possibly in a nested context that is
not a hidden type. -/
inductive HasVisible (w : World) (s : Storage) (m : Members) (V : Nat → Prop) (g : Graph) :
    Nat → Prop where
  | member {x : Nat} : HasVisibleMember s m V x → HasVisible w s m V g x
  | type {x c : Nat} : Edge g x c → IsType w c → V c → HasVisible w s m V g x
  | nested {x c : Nat} : Edge g x c → HasVisible w s m V g c → (IsType w c → V c) →
      HasVisible w s m V g x

end Verif.Spec
