import Verif.Model.Module
import Verif.Spec.Ast
/-!
# Notions about what is exposed in a context
-/
namespace Verif.Spec

/-- The attributes of a declaration when it is considered for exposition: the stored
ones (its name and visibility may have been changed by an alias), if any. -/
def attrsOf (w : EmitWorld) (s : Storage) (d : Nat) : Option DeclAttrs :=
  match s.entries d with
  | some a => some a
  | none => ownAttrs w.toWorld d

/-- The declaration is to be shown in context `c`: it is marked as visible, or has no
such mark and the context is visible. -/
def shown (w : EmitWorld) (s : Storage) (vis : Visibilities) (c d : Nat) : Bool :=
  match attrsOf w s d with
  | some a => a.named.visible.getD ((vis c).getD false)
  | none => false

/-- What is assumed about clang: specializations of function templates and operators
are functions, the parameters of a function are known under the same names, and
`*this` has the type of the class. -/
structure EmitOK (w : EmitWorld) : Prop where
  specialization : ∀ t l, w.specializations t = some l → ∀ d ∈ l, (w.info d).kind.isFunction = true
  operator : ∀ r, ∀ f ∈ w.associated r, w.specializations f = none → (w.info f).kind.isFunction = true
  params : ∀ d, (w.info d).params = (w.fn d).params.map (·.param.name)
  self : ∀ r c, (w.selfType r c).record = some r

/-- The stored attributes have been derived from annotations; apart from names and
visibility they are the ones of the declaration's own annotations. -/
def Derived (w : EmitWorld) (s : Storage) : Prop :=
  ∀ x a, s.entries x = some a → ∃ o n, ownAttrs w.toWorld x = some o ∧ a = { o with named := n }

/-- The getters and setters of a property among `ds`. -/
def getters (w : EmitWorld) (s : Storage) (vis : Visibilities) (c : Nat) (ds : List Nat) (name : Str) :
    List Nat :=
  ds.filter fun d => shown w s vis c d &&
    ((attrsOf w s d).bind (·.method)).any fun m => m.getterFor.contains name

/-- See `getters`. -/
def setters (w : EmitWorld) (s : Storage) (vis : Visibilities) (c : Nat) (ds : List Nat) (name : Str) :
    List Nat :=
  ds.filter fun d => shown w s vis c d &&
    ((attrsOf w s d).bind (·.method)).any fun m => m.setterFor.contains name

/-- Order of strings by bytes. -/
inductive StrBefore : Str → Str → Prop where
  | nil (c l) : StrBefore [] (c :: l)
  | head (a b l m) : a.toNat < b.toNat → StrBefore (a :: l) (b :: m)
  | tail (a l m) : StrBefore l m → StrBefore (a :: l) (a :: m)

/-! ### Parts of the output -/

/-- The constructors and their parameter types. -/
def initOf : Stmt → Option (Nat × List Str)
  | .init d types _ _ _ => some (d, types)
  | _ => none

/-- The implicit conversions: constructor, source and target. -/
def conversionOf : Stmt → Option (Nat × Str × Str)
  | .implicitlyConvertible d source target => some (d, source, target)
  | _ => none

/-- The manual bindings: variable and lambda. -/
def manualOf : Stmt → Option (Nat × Nat)
  | .manual d l => some (d, l)
  | _ => none

/-- The functions: whether static, name and pointer. -/
def functionOf : Stmt → Option (Nat × Bool × Str × FnPtr)
  | .function d isStatic name p _ _ _ => some (d, isStatic, name, p)
  | _ => none

/-- The data members: whether read-only, whether static, name and qualified name. -/
def fieldOf : Stmt → Option (Nat × Bool × Bool × Str × Str)
  | .field d r st name q => some (d, r, st, name, q)
  | _ => none

/-- The enumerators: name in Python and in C++. -/
def enumeratorOf : Stmt → Option (Nat × Str × Str)
  | .enumValue d name scope e _ => some (d, name, scope ++ t%"::" ++ e)
  | _ => none

/-- The attributes set to a type or a value: name and C++ name. -/
def attributeOf : Stmt → Option (Nat × Str × Str)
  | .typeAttr d name t => some (d, name, t)
  | .valueAttr d name q => some (d, name, q)
  | _ => none

/-- A constructor that can be called from outside. -/
def callable (w : EmitWorld) (r d : Nat) : Bool :=
  (w.info d).kind = .constructor && !(w.fn d).isMoveConstructor && !(w.fn d).isDeleted &&
    !w.isAbstract r

/-- `implicit_conversion` is in effect. -/
def convertsImplicitly (w : EmitWorld) (s : Storage) (d : Nat) : Bool :=
  ((attrsOf w s d).bind (·.constructor)).any (·.implicitConversion)

/-- The lambda of a variable annotated with `manual` but not with `postamble`. -/
def manualLambda (w : EmitWorld) (s : Storage) (d : Nat) : Option Nat :=
  match (attrsOf w s d).bind (·.fieldOrVar) with
  | some v => if v.postamble then none else v.manualBindings
  | none => none

/-- The lambda of a variable annotated with `manual` and `postamble`. -/
def postambleLambda (s : Storage) (d : Nat) : Option Nat :=
  match (s.entries d).bind (·.fieldOrVar) with
  | some v => if v.postamble then v.manualBindings else none
  | none => none

/-- Used for a property. -/
def isAccessor (w : EmitWorld) (s : Storage) (d : Nat) : Bool :=
  ((attrsOf w s d).bind (·.method)).any fun m => !m.getterFor.isEmpty || !m.setterFor.isEmpty

/-- The name in Python: the one given by an annotation, or the one in C++ turned into
an identifier. -/
def pythonName (w : EmitWorld) (s : Storage) (d : Nat) : Str :=
  let given := ((attrsOf w s d).map (·.named.spelling)).getD []
  if given ≠ [] then given
  else if (w.info d).operator = some .call ∧ (w.info d).kind.isFunction = true then t%"__call__"
  else getSpelling (w.info d)

/-- A function, method or conversion. -/
def isPlainFunction (d : DeclInfo) : Bool :=
  d.kind = .function || d.kind = .method || d.kind = .conversion

/-- An overloaded operator other than the call operator. -/
def isOperator (d : DeclInfo) : Bool :=
  d.operator ≠ none && d.operator ≠ some .call

end Verif.Spec
