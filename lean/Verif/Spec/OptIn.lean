import Verif.Spec.Members
import Verif.Spec.Success
/-!
# What has been asked for by annotations
-/
namespace Verif.Spec

/-- The declaration carries an annotation for the tool. -/
def Marked (w : World) (x : Nat) : Prop := ∃ text ∈ (w.info x).attrTexts, marker <+: text

/-- What its own annotations say about the visibility of the declaration. -/
def ownVisible (w : World) (x : Nat) : Option Bool := (ownAttrs w x).bind (·.named.visible)

/-- It has been asked for the declaration to be exposed: by its own annotations, by those of
an alias, or for the context it is part of. -/
inductive Requested (w : EmitWorld) (root : Tree) : Nat → Prop where
  /-- an annotation of its own -/
  | annotated {x : Nat} : ownVisible w.toWorld x = some true → Requested w root x
  /-- an alias with `encourage` -/
  | encouraged {a x : Nat} : Encourages w.toWorld root a x → Requested w root x
  /-- an alias with `expose_here` -/
  | exposed {a x : Nat} : ExposesHere w.toWorld root a x → ownVisible w.toWorld a = some true →
      Requested w root x
  /-- an alias with `expose_here` that leaves it to the context -/
  | moved {a p x : Nat} : ExposesHere w.toWorld root a x → ownVisible w.toWorld a = none →
      ScopeOf w.toWorld a p → Requested w root p → w.access x ≠ .private → w.access x ≠ .protected →
      Requested w root x
  /-- a type or namespace nested in one -/
  | nested {p x : Nat} : Requested w root p → ScopeOf w.toWorld x p →
      (Annotated w.toWorld x → ownVisible w.toWorld x = none) →
      w.access x ≠ .private → w.access x ≠ .protected → Requested w root x
  /-- a member of one, of one of its bases or of a namespace used in it -/
  | member {x d : Nat} {f : Found} : Requested w root x → f ∈ w.found x →
      f.access = .public ∨ f.access = .none → d ∈ specializationsOf w (f.shadows.getD f.decl) →
      ownVisible w.toWorld d = none → Requested w root d
  /-- an operator for a class -/
  | operator {x d f : Nat} : Requested w root x → f ∈ w.associated x → d ∈ specializationsOf w f →
      ownVisible w.toWorld d = none → Requested w root d

/-- Bindings given by the user for the end of the module. -/
def AtTheEnd (w : World) (d : Nat) : Prop :=
  ∃ a v l, ownAttrs w d = some a ∧ a.fieldOrVar = some v ∧ v.postamble = true ∧ v.manualBindings = some l

/-- The declarations a statement is about. -/
def subjects : Stmt → List Nat
  | .implicitlyConvertible d .. | .init d .. | .function d .. | .operator d .. | .stringFromLshift d ..
  | .typeAttr d .. | .valueAttr d .. | .manual d .. | .field d .. | .enumValue d .. => [d]
  | .property _ g s => g.fn :: (s.map (·.fn)).toList
  | .exportValues | .useContext => []

/-- The code of a module without contents. -/
def skeleton (name : Str) : Str :=
  t%"void expose_context(::pybind11::module& context);\n\nPYBIND11_MODULE(" ++ name ++
  t%", root) {\nauto context = root;\n\nexpose_context(context);\n}\n\nvoid expose_context(::pybind11::module& context) {\n(void)context;\n}\n\n"

end Verif.Spec
