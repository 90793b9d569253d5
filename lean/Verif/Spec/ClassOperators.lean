import Verif.Spec.Exposer
import Verif.Spec.Python
/-!
# Operators of a class
-/
namespace Verif.Spec

/-- A function that overloads an operator other than the call operator. -/
def overloadsOperator (d : DeclInfo) : Bool :=
  d.kind.isFunction && d.kind ≠ .constructor && isOperator d

/-- The types of the operands: the one of `*this` for members of a class, and the ones
of the parameters. -/
def operandTypes (w : EmitWorld) (r d : Nat) : List CppType :=
  (if (w.info d).kind.isMethod then [w.selfType r (w.fn d).isConst] else []) ++
    (w.fn d).params.map (·.type)

/-- `operator<<(std::ostream &, …)`. -/
def printsToStream (w : EmitWorld) (d : Nat) : Bool :=
  !(w.info d).kind.isMethod && (w.info d).operator = some .lessLess &&
    (w.fn d).firstPointee = .named true

/-- Operators that cannot be defined in Python, by number of operands: memory
management, assignment, three-way comparison, logical operators with short-circuit
evaluation, increment and decrement, comma, member access, subscript (which is not
supported), address-of and dereference. -/
def noCounterpart (k : OperatorKind) (operands : Nat) : Bool :=
  [.new, .delete, .arrayNew, .arrayDelete, .equal, .spaceship, .ampAmp, .pipePipe, .plusPlus,
    .minusMinus, .comma, .arrow, .arrowStar, .call, .subscript].contains k ||
  (operands = 1 && [.star, .amp].contains k)

/-- An operator of the class that is defined in Python. -/
def definesOperator (w : EmitWorld) (r d : Nat) : Bool :=
  overloadsOperator (w.info d) && !(w.fn d).isDeleted && !printsToStream w d &&
    !(w.info d).operator.any fun k => noCounterpart k (operandTypes w r d).length

/-- The function itself, or the specializations of a function template. -/
def specializationsOf (w : EmitWorld) (d : Nat) : List Nat := (w.specializations d).getD [d]

/-- Found in the class by name lookup, accessible, and not in a base that is not
inlined. -/
def isMember (w : EmitWorld) (p : InliningPolicy) (r d : Nat) : Prop :=
  ∃ f ∈ w.found r, ∃ m, foundDecl w.toWorld w.hasLocation (some p) f = some m ∧
    d ∈ specializationsOf w m

/-- Found by argument dependent lookup for the class, with an operand of the class. -/
def isFreeOperator (w : EmitWorld) (r d : Nat) : Prop :=
  ∃ f ∈ w.associated r, d ∈ specializationsOf w f ∧ ∃ p ∈ (w.fn d).params, p.type.record = some r

/-- The operators: the function, its name in Python and its definition. -/
def operatorOf : Stmt → Option (Nat × Str × OpLambda)
  | .operator d name l _ => some (d, name, l)
  | _ => none

/-- The methods that print to a stream: function, name in Python and class. -/
def streamOf : Stmt → Option (Nat × Str × Str)
  | .stringFromLshift d name t => some (d, name, t)
  | _ => none

/-- The declaration a statement is for. -/
def declOf : Stmt → Option Nat
  | .implicitlyConvertible d .. | .init d .. | .function d .. | .operator d .. | .stringFromLshift d ..
  | .typeAttr d .. | .valueAttr d .. | .manual d .. | .field d .. | .enumValue d .. => some d
  | .property .. | .exportValues | .useContext => none

/-- What is assumed about clang in addition: specializations are no templates, what is
found by lookup in a class are members, and the first parameter of a free `operator<<`
does not refer to a class without a name. -/
structure OperatorsOK (w : EmitWorld) (r : Nat) : Prop where
  specialized : ∀ t l, w.specializations t = some l → ∀ d ∈ l, w.specializations d = none
  member : ∀ p d, isMember w p r d → overloadsOperator (w.info d) = true →
    (w.info d).kind.isMethod = true
  pointee : ∀ d, (w.fn d).firstPointee ≠ .unnamed

end Verif.Spec
