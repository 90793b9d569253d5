import Verif.Model.Operators
/-!
# Operators in Python and the meaning of emitted lambdas

The Python data model (Language Reference, 3.3.1 and 3.3.8): which methods an
operator expression calls, and with which arguments.  Values are arbitrary.
-/
namespace Verif.Spec

/-- Binary operators of Python that have a counterpart in C++. -/
inductive PyOp where
  | add | sub | mul | truediv | mod | xor | and | or | lshift | rshift
  | lt | le | eq | ne | gt | ge
  deriving DecidableEq, Repr

/-- The symbol in Python source code. -/
def PyOp.symbol : PyOp → Str
  | .add => t%"+" | .sub => t%"-" | .mul => t%"*" | .truediv => t%"/" | .mod => t%"%"
  | .xor => t%"^" | .and => t%"&" | .or => t%"|" | .lshift => t%"<<" | .rshift => t%">>"
  | .lt => t%"<" | .le => t%"<=" | .eq => t%"==" | .ne => t%"!=" | .gt => t%">" | .ge => t%">="

/-- The method called on the left operand. -/
def PyOp.method : PyOp → Str
  | .add => t%"__add__" | .sub => t%"__sub__" | .mul => t%"__mul__" | .truediv => t%"__truediv__"
  | .mod => t%"__mod__" | .xor => t%"__xor__" | .and => t%"__and__" | .or => t%"__or__"
  | .lshift => t%"__lshift__" | .rshift => t%"__rshift__" | .lt => t%"__lt__" | .le => t%"__le__"
  | .eq => t%"__eq__" | .ne => t%"__ne__" | .gt => t%"__gt__" | .ge => t%"__ge__"

/-- The method called on the right operand if the left one does not support the
operation: "there are no swapped-argument versions of [comparisons]; rather,
`__lt__()` and `__gt__()` are each other's reflection, `__le__()` and `__ge__()` are
each other's reflection, and `__eq__()` and `__ne__()` are their own reflection". -/
def PyOp.reflected : PyOp → Str
  | .add => t%"__radd__" | .sub => t%"__rsub__" | .mul => t%"__rmul__" | .truediv => t%"__rtruediv__"
  | .mod => t%"__rmod__" | .xor => t%"__rxor__" | .and => t%"__rand__" | .or => t%"__ror__"
  | .lshift => t%"__rlshift__" | .rshift => t%"__rrshift__" | .lt => t%"__gt__" | .le => t%"__ge__"
  | .eq => t%"__eq__" | .ne => t%"__ne__" | .gt => t%"__lt__" | .ge => t%"__le__"

/-- The method called for augmented assignment. -/
def PyOp.inplace : PyOp → Option Str
  | .add => some t%"__iadd__" | .sub => some t%"__isub__" | .mul => some t%"__imul__"
  | .truediv => some t%"__itruediv__" | .mod => some t%"__imod__" | .xor => some t%"__ixor__"
  | .and => some t%"__iand__" | .or => some t%"__ior__" | .lshift => some t%"__ilshift__"
  | .rshift => some t%"__irshift__"
  | _ => none

/-- Evaluating `a symbol b` (or, for augmented assignment, `a symbol= b`) may call
the method `name` on `self` with argument `other`. -/
inductive Calls {V : Type} : (symbol : Str) → (a b : V) → (name : Str) → (self other : V) → Prop where
  | forward (op : PyOp) (a b : V) : Calls op.symbol a b op.method a b
  | reflected (op : PyOp) (a b : V) : Calls op.symbol a b op.reflected b a
  | inplace (op : PyOp) (name : Str) (a b : V) : op.inplace = some name →
      Calls (op.symbol ++ t%"=") a b name a b
  | inplaceForward (op : PyOp) (a b : V) : op.inplace.isSome = true →
      Calls (op.symbol ++ t%"=") a b op.method a b
  | inplaceReflected (op : PyOp) (a b : V) : op.inplace.isSome = true →
      Calls (op.symbol ++ t%"=") a b op.reflected b a

/-- Evaluating `symbol a` calls the method `name` on `a`. -/
inductive CallsUnary : (symbol : Str) → (name : Str) → Prop where
  | pos : CallsUnary t%"+" t%"__pos__"
  | neg : CallsUnary t%"-" t%"__neg__"
  | invert : CallsUnary t%"~" t%"__invert__"

/-- The C++ meaning of an emitted lambda: `apply` is what C++ operators do, `args`
are the arguments. -/
def evalLambda {V : Type} (apply : OperatorKind → List V → V) (l : OpLambda) (args : List V) :
    Option V :=
  let value (p : OpParam) : Option V := ((l.params.map (·.2)).zip args).lookup p
  match l.body with
  | .unary k p => (value p).map fun a => apply k [a]
  | .binary p k q => match value p, value q with
    | some a, some b => some (apply k [a, b])
    | _, _ => none

/-- `a < b` and `b > a` mean the same. -/
def mirrored : OperatorKind → Option OperatorKind
  | .less => some .greater
  | .greater => some .less
  | .lessEqual => some .greaterEqual
  | .greaterEqual => some .lessEqual
  | .equalEqual => some .equalEqual
  | .exclaimEqual => some .exclaimEqual
  | _ => none

/-- Compound assignment. -/
def isCompoundAssignment (k : OperatorKind) : Prop :=
  k ∈ [OperatorKind.plusEqual, .minusEqual, .starEqual, .slashEqual, .percentEqual, .caretEqual,
    .ampEqual, .pipeEqual, .lessLessEqual, .greaterGreaterEqual]

/-- The operators of C++ by number of operands (including the implicit object),
[over.unary] and [over.binary]; for `()`, `new` and so on any number. -/
def ValidArity (k : OperatorKind) (n : Nat) : Prop :=
  match k with
  | .tilde | .exclaim | .arrow | .coawait => n = 1
  | .plus | .minus | .star | .amp | .plusPlus | .minusMinus => n = 1 ∨ n = 2
  | .new | .delete | .arrayNew | .arrayDelete | .call | .subscript => True
  /- cannot be overloaded -/
  | .conditional => False
  | _ => n = 2

end Verif.Spec
