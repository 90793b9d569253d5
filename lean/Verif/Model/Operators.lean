import Verif.Model.Decl
/-!
# Operators (src/expose.cpp:420-613, 1108-1226)
-/
namespace Verif

/-- `clang::getOperatorSpelling` (clang/Basic/OperatorKinds.def). -/
def OperatorKind.spelling : OperatorKind → Str
  | .new => t%"new" | .delete => t%"delete" | .arrayNew => t%"new[]" | .arrayDelete => t%"delete[]"
  | .plus => t%"+" | .minus => t%"-" | .star => t%"*" | .slash => t%"/" | .percent => t%"%"
  | .caret => t%"^" | .amp => t%"&" | .pipe => t%"|" | .tilde => t%"~" | .exclaim => t%"!"
  | .equal => t%"=" | .less => t%"<" | .greater => t%">"
  | .plusEqual => t%"+=" | .minusEqual => t%"-=" | .starEqual => t%"*=" | .slashEqual => t%"/="
  | .percentEqual => t%"%=" | .caretEqual => t%"^=" | .ampEqual => t%"&=" | .pipeEqual => t%"|="
  | .lessLess => t%"<<" | .greaterGreater => t%">>"
  | .lessLessEqual => t%"<<=" | .greaterGreaterEqual => t%">>="
  | .equalEqual => t%"==" | .exclaimEqual => t%"!=" | .lessEqual => t%"<=" | .greaterEqual => t%">="
  | .spaceship => t%"<=>" | .ampAmp => t%"&&" | .pipePipe => t%"||"
  | .plusPlus => t%"++" | .minusMinus => t%"--" | .comma => t%"," | .arrowStar => t%"->*"
  | .arrow => t%"->" | .call => t%"()" | .subscript => t%"[]" | .conditional => t%"?"
  | .coawait => t%"co_await"

/-- `pythonUnaryOperatorName`, src/expose.cpp:503-515. -/
def pythonUnaryOperatorName : OperatorKind → Str
  | .plus => t%"__pos__"
  | .minus => t%"__neg__"
  | .tilde => t%"__invert__"
  | _ => []

/-- `pythonBinaryOperatorName`, src/expose.cpp:517-613. -/
def pythonBinaryOperatorName (kind : OperatorKind) (reverse : Bool) : Str :=
  if reverse then
    match kind with
    | .plus => t%"__radd__"
    | .minus => t%"__rsub__"
    | .star => t%"__rmul__"
    | .slash => t%"__rtruediv__"
    | .percent => t%"__rmod__"
    | .caret => t%"__rxor__"
    | .amp => t%"__rand__"
    | .pipe => t%"__ror__"
    | .less => t%"__gt__"
    | .greater => t%"__lt__"
    | .lessLess => t%"__rlshift__"
    | .greaterGreater => t%"__rrshift__"
    | .equalEqual => t%"__eq__"
    | .exclaimEqual => t%"__ne__"
    | .lessEqual => t%"__ge__"
    | .greaterEqual => t%"__le__"
    | _ => []
  else
    match kind with
    | .plus => t%"__add__"
    | .minus => t%"__sub__"
    | .star => t%"__mul__"
    | .slash => t%"__truediv__"
    | .percent => t%"__mod__"
    | .caret => t%"__xor__"
    | .amp => t%"__and__"
    | .pipe => t%"__or__"
    | .less => t%"__lt__"
    | .greater => t%"__gt__"
    | .plusEqual => t%"__iadd__"
    | .minusEqual => t%"__isub__"
    | .starEqual => t%"__imul__"
    | .slashEqual => t%"__itruediv__"
    | .percentEqual => t%"__imod__"
    | .caretEqual => t%"__ixor__"
    | .ampEqual => t%"__iand__"
    | .pipeEqual => t%"__ior__"
    | .lessLess => t%"__lshift__"
    | .greaterGreater => t%"__rshift__"
    | .lessLessEqual => t%"__ilshift__"
    | .greaterGreaterEqual => t%"__irshift__"
    | .equalEqual => t%"__eq__"
    | .exclaimEqual => t%"__ne__"
    | .lessEqual => t%"__le__"
    | .greaterEqual => t%"__ge__"
    | _ => []

/-- What is read about a type.  `text` is its fully qualified name, `record` the
class it denotes once references and qualifiers are removed:
`ast_context.hasSameUnqualifiedType(pointee or type, record type)`. -/
structure CppType where
  text : Str
  record : Option Nat := none
  deriving DecidableEq, Repr

/-- The operators not exposed at all, src/expose.cpp:1115-1134. -/
def neverExposed : OperatorKind → Bool
  | .new | .delete | .arrayNew | .arrayDelete | .equal | .spaceship | .ampAmp | .pipePipe
  | .plusPlus | .minusMinus | .comma | .arrowStar | .arrow | .call | .subscript => true
  | _ => false

/-- `parameter_names`, src/expose.cpp:1196. -/
inductive OpParam where
  | lhs | rhs
  deriving DecidableEq, Repr

def OpParam.text : OpParam → Str
  | .lhs => t%"lhs"
  | .rhs => t%"rhs"

/-- The returned expression, src/expose.cpp:1217-1224. -/
inductive OpBody where
  | unary (kind : OperatorKind) (operand : OpParam)
  | binary (left : OpParam) (kind : OperatorKind) (right : OpParam)
  deriving DecidableEq, Repr

/-- The lambda emitted by `emitOperatorDefinition`. -/
structure OpLambda where
  /-- types and names of the parameters -/
  params : List (Str × OpParam)
  returnType : Str
  body : OpBody
  deriving DecidableEq, Repr

/-- `emitOperatorDefinition`, src/expose.cpp:1188-1226.  There are one or two
parameter types (the assertion at :1193, and `parameter_types.front()` before). -/
def emitOperatorDefinition (kind : OperatorKind) (types : List CppType) (returnType : Str)
    (reverse : Bool) : OpLambda :=
  { params := ((if reverse then types.reverse else types).map (·.text)).zip [.lhs, .rhs]
    returnType
    body := if types.length = 1 then .unary kind .lhs
      else if reverse then .binary .rhs kind .lhs else .binary .lhs kind .rhs }

/-- The text of the lambda, src/expose.cpp:1198-1225. -/
def OpLambda.emit (l : OpLambda) : Str :=
  t%"[](" ++ (t%", ").intercalate (l.params.map fun p => p.1 ++ ' ' :: p.2.text) ++ t%") -> " ++
  l.returnType ++ t%" { return " ++
  (match l.body with
    | .unary k p => k.spelling ++ p.text
    | .binary p k q => p.text ++ ' ' :: k.spelling ++ ' ' :: q.text) ++ t%"; }"

/-- The name and definition emitted by `RecordExposer::emitOperator`,
src/expose.cpp:1108-1186, for the class `record`.  `self` is the type of `*this` if
the operator is a member function of the class. -/
def emitOperator (record : Nat) (kind : OperatorKind) (self : Option CppType)
    (params : List CppType) (returnType : Str) : Option (Str × OpLambda) :=
  if neverExposed kind then none
  else
    let types := self.toList ++ params
    let unary := types.length = 1
    if unary && (kind = .star || kind = .amp) then none
    else
      let reverse := match types with
        | [] => true
        | t :: _ => t.record ≠ some record
      some (if unary then pythonUnaryOperatorName kind else pythonBinaryOperatorName kind reverse,
        emitOperatorDefinition kind types returnType reverse)

/-- The operators for which argument dependent lookup is performed,
src/expose.cpp:454-483. -/
def adlOperators : List OperatorKind :=
  [.plus, .minus, .star, .slash, .percent, .caret, .amp, .pipe, .tilde, .less, .greater,
   .plusEqual, .minusEqual, .starEqual, .slashEqual, .percentEqual, .caretEqual, .ampEqual,
   .pipeEqual, .lessLess, .greaterGreater, .lessLessEqual, .greaterGreaterEqual, .equalEqual,
   .exclaimEqual, .lessEqual, .greaterEqual, .spaceship]

end Verif
