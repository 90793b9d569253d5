import Verif.Spec.Names
import Verif.Spec.ClassOperators
/-!
# Evaluating operator expressions with the objects of an imported module

The rules of Python (CPython's Objects/typeobject.c, `SLOT1BINFULL`, and Objects/object.c,
`do_richcompare`): the method of the left operand is called, and if it returns `NotImplemented` the
reflected one of the right operand.  It is the other way round if the class of the right operand is
a subclass of the other one and, except for comparisons, has a reflected method of its own.  For
operands of the same class there is no second try, except for comparisons.  If a class has no
`__ne__`, the one of `object` negates the result of `__eq__`.

pybind11 tries the overloads of an operator as those of other functions, and returns
`NotImplemented` instead of raising `TypeError` because of `pybind11::is_operator()`
(`cpp_function::dispatcher`).
-/
namespace Verif.Spec

/-- Objects of Python. -/
structure PyOperands (V : Type) where
  /-- the exposed class an object is an instance of; there are others -/
  typeOf : V → Option (List Str)
  /-- whether an object can be converted to a type of C++, with or without implicit conversions -/
  loads : (type : Str) → (convert : Bool) → V → Bool
  /-- `not` -/
  negate : V → V
  /-- what methods return that are not exposed operators; `none` is `NotImplemented` -/
  elsewhere : (name : Str) → (self other : V) → Option V
  /-- what is possible without conversions is possible with them -/
  loads_more : ∀ type v, loads type false v = true → loads type true v = true

/-- Where a result comes from. -/
inductive Evaluated (V : Type) where
  /-- it was returned by this operator -/
  | computed (operator : Nat) (value : V)
  /-- it was returned by this operator, and is negated -/
  | negated (operator : Nat) (value : V)
  | elsewhere (value : V)
  deriving DecidableEq, Repr

/-- The lambda takes these arguments. -/
def takesOperands {V : Type} (O : PyOperands V) (convert : Bool) (args : List V) (l : OpLambda) : Bool :=
  l.params.length = args.length && (l.params.zip args).all fun q => O.loads q.1.1 convert q.2

/-- The overload that is called for two operands. -/
def chooseOperator {V : Type} (O : PyOperands V) (args : List V) (ls : List (Nat × Str × OpLambda)) :
    Option (Nat × Str × OpLambda) :=
  match ls with
  | [l] => if takesOperands O true args l.2.2 then some l else none
  | ls => (ls.find? fun l => takesOperands O false args l.2.2).or
      (ls.find? fun l => takesOperands O true args l.2.2)

/-- Call a method of an object, except for those of `object`. -/
def callOperator {V : Type} (apply : OperatorKind → List V → V) (O : PyOperands V)
    (mro : List Str → List (List Str)) (names : PyNames) (name : Str) (self other : V) : Option (Evaluated V) :=
  match O.typeOf self with
  | none => (O.elsewhere name self other).map .elsewhere
  | some c =>
    match names.find mro c name with
    | none => none
    | some (.functions true overloads) =>
      if overloads.all fun s => (operatorOf s).isSome then
        (chooseOperator O [self, other] (overloads.filterMap operatorOf)).bind fun l =>
          (evalLambda apply l.2.2 [self, other]).map (.computed l.1)
      else (O.elsewhere name self other).map .elsewhere
    | some _ => (O.elsewhere name self other).map .elsewhere

/-- The class has an attribute with this name, itself or because of its bases. -/
def hasAttribute {V : Type} (O : PyOperands V) (mro : List Str → List (List Str)) (names : PyNames)
    (name : Str) (v : V) : Bool :=
  match O.typeOf v with
  | none => true
  | some c => (names.find mro c name).isSome

/-- `not` -/
def Evaluated.negate {V : Type} (O : PyOperands V) : Evaluated V → Evaluated V
  | .computed d v => .negated d (O.negate v)
  | .negated d v => .negated d (O.negate v)
  | .elsewhere v => .elsewhere (O.negate v)

/-- Call a method of an object. -/
def callMethod {V : Type} (apply : OperatorKind → List V → V) (O : PyOperands V)
    (mro : List Str → List (List Str)) (names : PyNames) (name : Str) (self other : V) : Option (Evaluated V) :=
  if name = t%"__ne__" ∧ hasAttribute O mro names name self = false then
    (callOperator apply O mro names t%"__eq__" self other).map (Evaluated.negate O)
  else callOperator apply O mro names name self other

/-- The class whose attribute is found. -/
def ownerOf (mro : List Str → List (List Str)) (names : PyNames) (c : List Str) (n : Str) : Option (List Str) :=
  (c :: mro c).find? fun b => (names b n).isSome

def PyOp.isComparison (op : PyOp) : Bool := op.inplace.isNone

/-- The class of the right operand is a subclass of that of the left one. -/
def subclassOnRight {V : Type} (O : PyOperands V) (mro : List Str → List (List Str)) (a b : V) : Bool :=
  match O.typeOf a, O.typeOf b with
  | some c, some d => c ≠ d && (mro d).contains c
  | _, _ => false

/-- It has a reflected method of its own. -/
def overridesOnRight {V : Type} (O : PyOperands V) (mro : List Str → List (List Str)) (names : PyNames)
    (op : PyOp) (a b : V) : Bool :=
  match O.typeOf a, O.typeOf b with
  | some c, some d => (ownerOf mro names d op.reflected).isSome &&
      ownerOf mro names d op.reflected ≠ ownerOf mro names c op.reflected
  | _, _ => false

/-- Both are instances of the same exposed class. -/
def sameClass {V : Type} (O : PyOperands V) (a b : V) : Bool :=
  (O.typeOf a).isSome && O.typeOf a = O.typeOf b

/-- The methods that are called one after the other. -/
def tries {V : Type} (O : PyOperands V) (mro : List Str → List (List Str)) (names : PyNames) (op : PyOp)
    (a b : V) : List (Str × V × V) :=
  let forward := (op.method, a, b)
  let reflected := (op.reflected, b, a)
  if op.isComparison then
    if subclassOnRight O mro a b then [reflected, forward] else [forward, reflected]
  else if sameClass O a b then [forward]
  else if subclassOnRight O mro a b && overridesOnRight O mro names op a b then [reflected, forward]
  else [forward, reflected]

/-- The result of `a op b`; `none` if all methods return `NotImplemented`: then `TypeError` is raised,
or objects are compared by identity. -/
def evaluateExpr {V : Type} (apply : OperatorKind → List V → V) (O : PyOperands V)
    (mro : List Str → List (List Str)) (names : PyNames) (op : PyOp) (a b : V) : Option (Evaluated V) :=
  (tries O mro names op a b).findSome? fun t => callMethod apply O mro names t.1 t.2.1 t.2.2

/-- The new value of `a` after `a op= b`. -/
def evaluateAssignment {V : Type} (apply : OperatorKind → List V → V) (O : PyOperands V)
    (mro : List Str → List (List Str)) (names : PyNames) (op : PyOp) (a b : V) : Option (Evaluated V) :=
  (op.inplace.bind fun n => callMethod apply O mro names n a b).or (evaluateExpr apply O mro names op a b)

/-! ### Expectations -/

/-- The operator takes `a` as its left and `b` as its right operand, and returns `v`. -/
def Performs {V : Type} (apply : OperatorKind → List V → V) (O : PyOperands V) (w : EmitWorld)
    (x d : Nat) (k : OperatorKind) (a b v : V) : Prop :=
  ∃ t0 t1 convert, operandTypes w x d = [t0, t1] ∧ (w.info d).operator = some k ∧
    O.loads t0.text convert a = true ∧ O.loads t1.text convert b = true ∧ v = apply k [a, b]

/-- `v` is the result of an operator with the same symbol on the same operands, or of the mirrored
comparison (`b > a` for `a < b`). -/
def Explains {V : Type} (apply : OperatorKind → List V → V) (O : PyOperands V) (w : EmitWorld)
    (symbol : Str) (x d : Nat) (a b v : V) : Prop :=
  ∃ k, k.spelling = symbol ∧ Performs apply O w x d k a b v ∨
    ∃ m, mirrored k = some m ∧ m.spelling = symbol ∧ Performs apply O w x d k b a v

/-- It is an operator of class `x`, visible there, and not one of those without counterpart. -/
def OperatorIn (w : EmitWorld) (s : Storage) (g : Graph) (x d : Nat) : Prop :=
  (w.info x).kind = .record ∧
    ((∃ m, FoundIn w s x m ∧ d ∈ specializationsOf w m) ∨ isFreeOperator w x d) ∧
    VisibleIn w s g x d ∧ definesOperator w x d = true

/-- The method of this name is not one for operators: the object is no instance of an exposed class, or its
class has something else with this name. -/
def OtherMethod {V : Type} (O : PyOperands V) (mro : List Str → List (List Str)) (names : PyNames) (name : Str)
    (v : V) : Prop :=
  ∀ c, O.typeOf v = some c → ∃ a, names.find mro c name = some a ∧
    ∀ overloads, a = .functions true overloads → ∃ s ∈ overloads, operatorOf s = none

/-- It is an operator of the class one of the objects is an instance of, or of one of its bases. -/
def OperatorFor {V : Type} (O : PyOperands V) (mro : List Str → List (List Str)) (i : ToolInput) (name : Str)
    (g : Graph) (b : Building) (place : Nat → List Str) (x d : Nat) (vs : List V) : Prop :=
  ∃ object c, Fills i.world.toWorld b.storage i.members name g place x object ∧
    OperatorIn i.world b.storage g x d ∧ (∃ v ∈ vs, O.typeOf v = some c) ∧ object ∈ c :: mro c

/-- What is expected of the result of `a op b`: it is the result of an operator of C++ with the same symbol, for
the same operands in the same order, or of the mirrored comparison; that of `a != b` may also be the negation of
the result of `==`.  The operator belongs to the class of `a` or `b` or to one of its bases.  The only other
results are those of methods that are not for operators. -/
def Meant {V : Type} (apply : OperatorKind → List V → V) (O : PyOperands V) (mro : List Str → List (List Str))
    (names : PyNames) (i : ToolInput) (name : Str) (g : Graph) (bu : Building) (place : Nat → List Str)
    (op : PyOp) (a b : V) (e : Evaluated V) : Prop :=
  (∃ d v x, e = .computed d v ∧ OperatorFor O mro i name g bu place x d [a, b] ∧
    Explains apply O i.world op.symbol x d a b v) ∨
  (∃ d v x, op = .ne ∧ e = .negated d (O.negate v) ∧ OperatorFor O mro i name g bu place x d [a, b] ∧
    Explains apply O i.world (PyOp.symbol .eq) x d a b v) ∨
  (∃ v, e = .elsewhere v ∧ ∃ op', (op' = op ∨ op = .ne ∧ op' = .eq) ∧
    (OtherMethod O mro names op'.method a ∨ OtherMethod O mro names op'.reflected b))

/-- What is expected of `a op= b`: the compound assignment operator of C++, or what is expected of `a op b`. -/
def MeantAssignment {V : Type} (apply : OperatorKind → List V → V) (O : PyOperands V)
    (mro : List Str → List (List Str)) (names : PyNames) (i : ToolInput) (name : Str) (g : Graph) (bu : Building)
    (place : Nat → List Str) (op : PyOp) (a b : V) (e : Evaluated V) : Prop :=
  (∃ d v x k, e = .computed d v ∧ OperatorFor O mro i name g bu place x d [a] ∧
    k.spelling = op.symbol ++ t%"=" ∧ isCompoundAssignment k ∧ Performs apply O i.world x d k a b v) ∨
  (∃ v n, e = .elsewhere v ∧ op.inplace = some n ∧ OtherMethod O mro names n a) ∨
  Meant apply O mro names i name g bu place op a b e

end Verif.Spec
