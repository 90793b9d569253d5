import Verif.Model.Graph
/-!
# Notions about graphs
-/
namespace Verif.Spec

/-- There is an edge from `p` to `c`. -/
def Edge (g : Graph) (p c : Nat) : Prop := c ∈ g.children p

/-- Reachable from the root by a path all of whose inner nodes satisfy `P`. -/
inductive ReachVia (g : Graph) (P : Nat → Prop) : Nat → Prop where
  | root : ReachVia g P g.root
  | step {p c : Nat} : ReachVia g P p → P p → Edge g p c → ReachVia g P c

/-- Reachable from the root. -/
abbrev Reachable (g : Graph) : Nat → Prop := ReachVia g fun _ => True

/-- Edges lead from and to nodes of the graph. -/
structure GraphOK (g : Graph) : Prop where
  root : g.root ∈ g.nodes
  child : ∀ p c, Edge g p c → c ∈ g.nodes
  parent : ∀ p c, Edge g p c → p ∈ g.nodes

/-- Every node has at most one place: one edge leads to it, none to the root. -/
structure Forest (g : Graph) : Prop extends GraphOK g where
  unique : ∀ p q c, Edge g p c → Edge g q c → p = q
  once : ∀ p, (g.children p).Nodup
  root_top : ∀ p, ¬ Edge g p g.root

end Verif.Spec
