import Verif.Spec.Reproducible
import Verif.Spec.Visibility
/-!
# More declarations in the translation unit

For example those of another header that is included: what it means that a translation unit
contains everything another one contains, and some more declarations that are neither annotated
nor placed in something that is visible.
-/
namespace Verif.Spec

/-- The second list is the first one, with further elements that satisfy `p` in between. -/
inductive Extends {α : Type} (p : α → Prop) : List α → List α → Prop where
  | nil : Extends p [] []
  | keep {a : α} {l l' : List α} : Extends p l l' → Extends p (a :: l) (a :: l')
  | add {a : α} {l l' : List α} : p a → Extends p l l' → Extends p l (a :: l')

mutual
/-- The second tree is the first one, with further subtrees without annotations. -/
inductive Grown (w : World) : Tree → Tree → Prop where
  | node {id : Nat} {children children' : List Tree} : GrownAll w children children' →
      Grown w (.node id children) (.node id children')
/-- The same for several trees. -/
inductive GrownAll (w : World) : List Tree → List Tree → Prop where
  | nil : GrownAll w [] []
  | keep {t t' : Tree} {l l' : List Tree} : Grown w t t' → GrownAll w l l' →
      GrownAll w (t :: l) (t' :: l')
  | add {t : Tree} {l l' : List Tree} : ¬ Relevant w t → GrownAll w l l' → GrownAll w l (t :: l')
end

/-- A type or namespace that is part of the second tree, but not of the first. -/
def AddedContext (w : World) (tree tree' : Tree) (x : Nat) : Prop :=
  Context w x ∧ (∃ t, Occurs w tree' t ∧ t.id = x) ∧ ¬ ∃ t, Occurs w tree t ∧ t.id = x

/-- The declaration has no annotations, whether these are taken into account or not. -/
def Unannotated (w : World) (d : Nat) : Prop := ∀ text ∈ (w.info d).attrTexts, ¬ marker <+: text

/-- What lookup found is not offered to the context it is looked up in: it is hidden, not accessible,
has no place in the source code, or is a type or namespace, which are looked at on their own. -/
def NotOffered (w : EmitWorld) (f : Found) : Prop :=
  f.hiddenBy.isSome = true ∨ f.access = .private ∨ f.access = .protected ∨
  w.hasLocation (leadsTo f) = false ∨ (w.info (leadsTo f)).kind = .namespace ∨
  (w.info (leadsTo f)).kind = .enum ∨ (w.info (leadsTo f)).kind = .record ∨
  (w.info (leadsTo f)).kind = .translationUnit

/-- The declaration, or what it is instantiated to if it is a function template. -/
def Instances (w : EmitWorld) (d e : Nat) : Prop :=
  match w.specializations d with
  | some l => e ∈ l
  | none => e = d

/-- The declaration can only be exposed where everything is. -/
def Ordinary (w : EmitWorld) (d : Nat) : Prop :=
  Unannotated w.toWorld d ∧ ∀ e, Instances w d e → Unannotated w.toWorld e

/-- What is part of the second input but not of the first one is neither annotated nor placed in
something that is visible. -/
structure OnlyIrrelevantAdded (i i' : ToolInput) : Prop where
  /-- nothing else differs -/
  same : i' = { i with
    tree := i'.tree
    world := { i.world with
      found := i'.world.found, associated := i'.world.associated, unitVars := i'.world.unitVars }
    pick := i'.pick
    iterate := i'.iterate }
  tree : Grown i.world.toWorld i.tree i'.tree
  /-- no alias of the first translation unit refers to an added type -/
  targets : ∀ a x, AddedContext i.world.toWorld i.tree i'.tree x →
    ¬ ExposesHere i.world.toWorld i.tree a x ∧ ¬ Encourages i.world.toWorld i.tree a x
  /-- what has been there before is not placed in what is added -/
  outside : ∀ t p, Occurs i.world.toWorld i.tree t → ScopeOf i.world.toWorld t.id p →
    ¬ AddedContext i.world.toWorld i.tree i'.tree p
  /-- what is added is not placed in something that is visible -/
  hidden : ∀ g b, buildGraph i.world.toWorld i.tree = (some g, b) → ∀ x p,
    AddedContext i.world.toWorld i.tree i'.tree x → ScopeOf i.world.toWorld x p →
    ¬ EffVisible i.world.toWorld b.storage g p
  /-- nothing annotated is found in added types and namespaces -/
  inside : ∀ x f, AddedContext i.world.toWorld i.tree i'.tree x → f ∈ i'.world.found x →
    NotOffered i.world f ∨ Ordinary i.world (leadsTo f)
  /-- members are only added to what is not visible -/
  found : ∀ x, ¬ AddedContext i.world.toWorld i.tree i'.tree x →
    Extends (fun f => NotOffered i.world f ∨ Ordinary i.world (leadsTo f) ∧
      ∀ g b, buildGraph i.world.toWorld i.tree = (some g, b) →
        ¬ EffVisible i.world.toWorld b.storage g x) (i.world.found x) (i'.world.found x)
  /-- no operators for types that have been there before -/
  associated : ∀ x, ¬ AddedContext i.world.toWorld i.tree i'.tree x →
    Extends (fun d => ∀ e, Instances i.world d e → ∀ p ∈ (i.world.fn e).params, p.type.record ≠ some x)
      (i.world.associated x) (i'.world.associated x)
  variables : Extends (Unannotated i.world.toWorld) i.world.unitVars i'.world.unitVars

end Verif.Spec
