import Verif.Spec.Members
/-!
# What the generated code can refer to
-/
namespace Verif.Spec

/-- What C++ restricts the use of declarations by and the tool never asks for. -/
structure Traits where
  isBitField : Nat → Bool
  /-- the type of the variable or data member is a reference -/
  isReference : Nat → Bool
  /-- the parameters end in an ellipsis, `f(int, ...)` -/
  isVariadic : Nat → Bool
  /-- a method for lvalues or rvalues only, `f() &` -/
  isRefQualified : Nat → Bool
  isVolatile : Nat → Bool

/-- Access is not restricted. -/
def Open (w : World) (x : Nat) : Prop := w.access x = .public ∨ w.access x = .none

/-- Contexts that are (or can be) part of a qualified name. -/
def Qualifies (w : World) (x : Nat) : Prop :=
  (w.info x).kind = .translationUnit ∨ (w.info x).kind = .namespace ∨ (w.info x).kind = .linkageSpec ∨
    (w.info x).kind = .enum ∨ (w.info x).kind = .record

/-- The qualified name can be used from outside of all classes: it and everything around it can
be accessed, and it is not local to a function. -/
def Nameable (w : World) (x : Nat) : Prop :=
  Open w x ∧ ∀ y ∈ w.ancestors x, Open w y ∧ Qualifies w y

/-- `pybind11::overload_cast` can be applied to the address of the function. -/
def CanPoint (w : EmitWorld) (t : Traits) (f : Nat) : Prop :=
  Nameable w.toWorld f ∧ (w.fn f).isDeleted = false ∧ t.isVariadic f = false ∧
    t.isRefQualified f = false ∧ t.isVolatile f = false

/-- What the statement, written for context `x`, refers to can be used in the way it is used.
Not considered are the types of parameters, the expressions of default arguments, and code given
by the user. -/
def Referable (w : EmitWorld) (t : Traits) (x : Nat) : Stmt → Prop
  | .init d .. | .implicitlyConvertible d .. =>
    Nameable w.toWorld d ∧ (w.fn d).isDeleted = false ∧ w.isAbstract x = false
  | .function d _ _ p .. => p.fn = d ∧ CanPoint w t d
  | .property _ g s => CanPoint w t g.fn ∧ ∀ p, s = some p → CanPoint w t p.fn
  | .operator d .. | .stringFromLshift d .. =>
    (w.fn d).isDeleted = false ∧ ((w.info d).kind.isMethod = true → Nameable w.toWorld d)
  | .typeAttr d .. => ∃ y, (w.info d).aliasTarget = some y ∧ Nameable w.toWorld y
  | .valueAttr d .. => Nameable w.toWorld d
  | .field d .. => Nameable w.toWorld d ∧
      ((w.info d).kind = .field → t.isBitField d = false ∧ t.isReference d = false)
  | .enumValue d .. => Nameable w.toWorld d
  | .manual .. | .exportValues | .useContext => True

/-- What is assumed about clang: access to namespaces is not restricted; what lookup finds (other
than by using-declarations) in a context, or in a base class of it, has the access told, and lies
in the context or base class, or in a namespace, or in an enum with that access, which is therein;
specializations of templates are found where the templates are; argument dependent lookup does
not find methods. -/
structure NamingOK (w : EmitWorld) : Prop where
  scopes : ∀ x, (w.info x).kind = .translationUnit ∨ (w.info x).kind = .namespace ∨
    (w.info x).kind = .linkageSpec → Open w.toWorld x
  members : ∀ x, ∀ f ∈ w.found x, f.shadows = none → w.access f.decl = f.access
  within : ∀ x, ∀ f ∈ w.found x, f.shadows = none → f.inBaseClass = false → ∀ y ∈ w.ancestors f.decl,
    y = x ∨ y ∈ w.ancestors x ∨ ((w.info y).kind = .translationUnit ∨ (w.info y).kind = .namespace ∨
      (w.info y).kind = .linkageSpec) ∨ (w.info y).kind = .enum ∧ w.access y = f.access
  inherited : ∀ x, ∀ f ∈ w.found x, f.shadows = none → f.inBaseClass = true →
    ∀ r, f.parentRecord = some r → ∀ y ∈ w.ancestors f.decl,
    y = r ∨ y ∈ w.ancestors r ∨ ((w.info y).kind = .translationUnit ∨ (w.info y).kind = .namespace ∨
      (w.info y).kind = .linkageSpec) ∨ (w.info y).kind = .enum ∧ w.access y = f.access
  parent : ∀ x, ∀ f ∈ w.found x, ∀ r, f.parentRecord = some r → (w.info r).kind = .record
  specialized : ∀ t l, w.specializations t = some l → ∀ d ∈ l,
    w.access d = w.access t ∧ w.ancestors d = w.ancestors t
  free : ∀ r, ∀ f ∈ w.associated r, ∀ d ∈ specializationsOf w f, (w.info d).kind.isMethod = false

/-- What the tool leaves to the user, as far as types are concerned: types marked as visible
can be accessed; so can the types named by annotated aliases, which have to be complete; and types
are not local to functions. -/
structure NameableTypes (w : World) (root : Tree) : Prop where
  types : ∀ x a, IsType w x → ownAttrs w x = some a → a.named.visible = some true → Open w x
  aliases : ∀ a o, (w.info a).kind = .typedefName → ownAttrs w a = some o →
    o.named.visible ≠ none ∨ Annotated w a → ∀ x, (w.info a).aliasTarget = some x → Nameable w x
  locals : ∀ t, Occurs w root t → Context w t.id → ∀ y ∈ w.ancestors t.id, Qualifies w y

/-- The same for members: aliases marked as visible or hidden name complete types, classes that
are inlined can be accessed, and so can what using-declarations refer to. -/
structure NameableMembers (w : EmitWorld) (s : Storage) : Prop where
  complete : ∀ a o, (w.info a).kind = .typedefName → ownAttrs w.toWorld a = some o →
    o.named.visible ≠ none → w.aliasTag a ≠ none → ∃ x, (w.info a).aliasTarget = some x
  bases : ∀ x y, InlinedInto w s x y → Nameable w.toWorld y
  usings : ∀ x, ∀ f ∈ w.found x, f.access = .public ∨ f.access = .none →
    ∀ y, f.shadows = some y → Nameable w.toWorld y

/-- And for what is offered: no bit-fields and references as data members; no functions that
are variadic, ref-qualified or volatile; properties are not defined by deleted functions. -/
structure Suitable (w : EmitWorld) (s : Storage) (t : Traits) (d : Nat) : Prop where
  data : (w.info d).kind = .field → t.isBitField d = false ∧ t.isReference d = false
  function : (w.info d).kind.isFunction = true →
    t.isVariadic d = false ∧ t.isRefQualified d = false ∧ t.isVolatile d = false
  accessor : isAccessor w s d = true → (w.fn d).isDeleted = false

end Verif.Spec
