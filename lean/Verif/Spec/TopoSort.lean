import Verif.Model.TopoSort
import Verif.Spec.Visibility
/-!
# Notions about dependencies and orders
-/
namespace Verif.Spec

/-- `std::priority_queue` with the comparison used: `top` is some element with the
smallest location. -/
def PicksTop (loc : Nat → Nat) (pick : Pick) : Prop :=
  ∀ k l, l ≠ [] → pick k l ∈ l ∧ ∀ x ∈ l, loc (pick k l) ≤ loc x

/-- A graph all of whose nodes are reachable, as it results from pruning. -/
structure ExposedGraph (w : World) (g : Graph) : Prop extends ContextGraph w g where
  reach : ∀ x ∈ g.nodes, Reachable g x
  nodup : g.nodes.Nodup

/-- `x` is reached from `a` in one or more steps. -/
inductive Steps (R : Nat → Nat → Prop) (a : Nat) : Nat → Prop where
  | one {x : Nat} : R a x → Steps R a x
  | more {p x : Nat} : Steps R a p → R p x → Steps R a x

/-- Namespaces for which no Python object is created. -/
def PassedOver (s : Storage) (x : Nat) : Prop :=
  ∃ attrs ns, s.entries x = some attrs ∧ attrs.namespace_ = some ns ∧ ns.module = false

/-- `q` is the innermost context around `x`, in the graph, that is not passed over. -/
inductive EnclosingScope (s : Storage) (g : Graph) (q : Nat) : Nat → Prop where
  | here {x : Nat} : Edge g q x → q = g.root ∨ ¬ PassedOver s q → EnclosingScope s g q x
  | above {p x : Nat} : EnclosingScope s g q p → Edge g p x → p ≠ g.root → PassedOver s p →
      EnclosingScope s g q x

/-- `x` can be exposed only after `p`: its enclosing scope, or a direct public base
that is exposed. -/
def Depends (w : World) (s : Storage) (bases : Bases) (g : Graph) (p x : Nat) : Prop :=
  x ∈ g.nodes ∧ (EnclosingScope s g p x ∨
    ((w.info x).kind = .record ∧ p ∈ g.nodes ∧ (.public, p) ∈ bases x))

/-- `order` lists all contexts once, each after those it depends on. -/
structure ValidOrder (w : World) (s : Storage) (bases : Bases) (g : Graph) (order : List Nat) :
    Prop where
  perm : order.Perm g.nodes
  sorted : ∀ pre x post, order = pre ++ x :: post → ∀ p, Depends w s bases g p x → p ∈ pre

end Verif.Spec
