import Verif.Model.Ast
import Verif.Spec.Annotations
/-!
# What counts as part of the translation unit

Specification of which declarations of a translation unit are looked at, without
reference to the traversal.
-/
namespace Verif.Spec

/-- Namespaces that are not looked into: `std` and reserved ones. -/
def Implementation (w : World) (id : Nat) : Prop :=
  (w.info id).kind = .namespace ∧ ((w.info id).isStd = true ∨ ['_', '_'] <+: (w.info id).name)

/-- The subtree occurs in the tree and does not lie in (nor is) an implementation
namespace. -/
inductive Occurs (w : World) : Tree → Tree → Prop where
  | here {t : Tree} : ¬ Implementation w t.id → Occurs w t t
  | inside {id : Nat} {children : List Tree} {s t : Tree} :
      ¬ Implementation w id → s ∈ children → Occurs w s t → Occurs w (.node id children) t

mutual
/-- All declarations of a tree. -/
def ids : Tree → List Nat
  | .node id children => id :: idsAll children
/-- All declarations of several trees. -/
def idsAll : List Tree → List Nat
  | [] => []
  | t :: ts => ids t ++ idsAll ts
end

/-- The declaration carries annotations of its own that are taken into account:
it is a named declaration, not part of a template, and, for types, a definition. -/
def Annotated (w : World) (id : Nat) : Prop :=
  (w.info id).kind ≠ .translationUnit ∧ (w.info id).kind ≠ .linkageSpec ∧
  (∃ text ∈ (w.info id).attrTexts, marker <+: text) ∧
  w.dependentContext id = false ∧
  ((w.info id).kind = .enum ∨ (w.info id).kind = .record →
    (w.info id).complete = true ∧ (w.info id).dependent = false)

/-- The tree is annotated or contains annotated declarations. -/
def Relevant (w : World) (t : Tree) : Prop := ∃ s, Occurs w t s ∧ Annotated w s.id

/-- A type definition or namespace that can be exposed or contain something to be
exposed. -/
def Context (w : World) (id : Nat) : Prop :=
  (w.info id).kind = .namespace ∨
  (((w.info id).kind = .enum ∨ (w.info id).kind = .record) ∧
    (w.info id).complete = true ∧ (w.info id).dependent = false)

/-- The innermost scope around a declaration that is a namespace, class, enum or
the translation unit (linkage specifications and functions do not count). -/
def ScopeOf (w : World) (id p : Nat) : Prop :=
  ∃ pre post, w.ancestors id = pre ++ p :: post ∧
    ((w.info p).kind = .namespace ∨ (w.info p).kind = .enum ∨ (w.info p).kind = .record ∨
      (w.info p).kind = .translationUnit) ∧
    ∀ q ∈ pre, (w.info q).kind ≠ .namespace ∧ (w.info q).kind ≠ .enum ∧
      (w.info q).kind ≠ .record ∧ (w.info q).kind ≠ .translationUnit

/-- The attributes annotations give to a declaration on its own, i.e. when it is
the only one processed. -/
def ownAttrs (w : World) (id : Nat) : Option DeclAttrs :=
  (Storage.empty.insert w.toDeclEnv id).1.entries id

/-- An alias of the translation unit annotated with `expose_here`. -/
def ExposesHere (w : World) (root : Tree) (a x : Nat) : Prop :=
  (∃ t, Occurs w root t ∧ t.id = a) ∧ Annotated w a ∧ (w.info a).kind = .typedefName ∧
  (w.info a).aliasTarget = some x ∧
  ∃ o t, ownAttrs w a = some o ∧ o.typedefName = some t ∧ t.exposeHere = true

/-- An alias of the translation unit annotated with `encourage`. -/
def Encourages (w : World) (root : Tree) (a x : Nat) : Prop :=
  (∃ t, Occurs w root t ∧ t.id = a) ∧ Annotated w a ∧ (w.info a).kind = .typedefName ∧
  (w.info a).aliasTarget = some x ∧
  ∃ o t, ownAttrs w a = some o ∧ o.typedefName = some t ∧ t.encourage = true

/-- Properties of a translation unit ensured by C++ and clang. -/
structure WellFormed (w : World) (root : Tree) : Prop where
  /-- the tree starts at the translation unit -/
  root_unit : root.id = w.unit
  /-- which is one -/
  unit_kind : ∀ id, (w.info id).kind = .translationUnit ↔ id = w.unit
  /-- every declaration is visited at most once -/
  distinct : (ids root).Nodup
  /-- declaration contexts are nested -/
  nested : ∀ id p ps, w.ancestors id = p :: ps → w.ancestors p = ps
  /-- the translation unit is the outermost context -/
  outermost : ∀ id, id ≠ w.unit → w.unit ∈ w.ancestors id
  /-- and is not contained in anything -/
  top : w.ancestors w.unit = []
  /-- `aliasTarget` gives the definition of a tag type -/
  target_tag : ∀ a x, (w.info a).aliasTarget = some x →
    (w.info x).kind = .enum ∨ (w.info x).kind = .record
  /-- which outside of templates is not a dependent one -/
  target_complete : ∀ a x, (w.info a).aliasTarget = some x → w.dependentContext a = false →
    (w.info x).complete = true ∧ (w.info x).dependent = false
  /-- aliases are named by identifiers -/
  alias_name : ∀ a, (w.info a).kind = .typedefName →
    (w.info a).nameIsIdentifier = true ∧ (w.info a).templateArgs = none

end Verif.Spec
