import Verif.Spec.Tool
/-!
# Choices that are left open by containers

The order in which the nodes of the graph are iterated (a hash map), the one in which a priority
queue returns equivalent elements, and the one in which lookup finds the declarations of a context
(a hash map with names as keys) depend on addresses, which differ from run to run.
-/
namespace Verif.Spec

/-- The source code, as read by the compiler, is the same; the choices of containers may differ. -/
def SameSource (i i' : ToolInput) : Prop :=
  ∃ found pick iterate, (∀ x, (found x).Perm (i.world.found x)) ∧ PicksTop i.world.loc pick ∧
    (∀ g : Graph, (iterate g).Perm g.nodes) ∧
    i' = { i with world := { i.world with found }, pick, iterate }

/-- A type or namespace with a place in the module: an alias exposes it here, or it is written in
the translation unit. -/
def Placed (w : World) (root : Tree) (x : Nat) : Prop :=
  (∃ a, ExposesHere w root a x) ∨ ∃ t, Occurs w root t ∧ t.id = x ∧ Context w x

/-- The declaration that stands for `x` in diagnostics: the alias that exposes it here, or itself. -/
def StandsFor (w : World) (root : Tree) (a x : Nat) : Prop :=
  ExposesHere w root a x ∨ (¬ ∃ a, ExposesHere w root a x) ∧ a = x

/-- Different types and namespaces, and what stands for them in diagnostics, are at different
places in the source code. -/
structure DistinctPlaces (i : ToolInput) : Prop where
  contexts : ∀ x y, Placed i.world.toWorld i.tree x → Placed i.world.toWorld i.tree y →
    i.world.loc x = i.world.loc y → x = y
  unit : ∀ x, Placed i.world.toWorld i.tree x → i.world.loc x ≠ i.world.loc i.world.unit
  aliases : ∀ x y a a', Placed i.world.toWorld i.tree x → Placed i.world.toWorld i.tree y →
    StandsFor i.world.toWorld i.tree a x → StandsFor i.world.toWorld i.tree a' y →
    i.world.loc a = i.world.loc a' → a = a'

/-- The declaration lookup leads to. -/
def leadsTo (f : Found) : Nat := f.shadows.getD f.decl

/-- Different declarations that are found in the same context are at different places. -/
def DistinctMembers (w : EmitWorld) : Prop :=
  ∀ x, ∀ f ∈ w.found x, ∀ f' ∈ w.found x, w.hasLocation (leadsTo f) = true →
    w.hasLocation (leadsTo f') = true → w.loc (leadsTo f) = w.loc (leadsTo f') →
    leadsTo f = leadsTo f'

/-- Declarations that are found in the same context and are at the same place are found in the same
order by both runs.  (Those with the same name are, for example constructors which are provided by
the compiler: these are at the place of the class.) -/
def TiesAlike (w w' : EmitWorld) : Prop :=
  ∀ x n, (w'.found x).filter (fun f => w.loc (leadsTo f) = n) =
    (w.found x).filter (fun f => w.loc (leadsTo f) = n)

end Verif.Spec
