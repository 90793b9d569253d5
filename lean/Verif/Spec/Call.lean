import Verif.Spec.Names
import Verif.Spec.Signature
/-!
# Calling functions of an imported module

What pybind11 does when an exposed function is called (pybind11/pybind11.h,
`cpp_function::dispatcher`, and pybind11/attr.h, `process_attribute<arg>`): overloads are
tried in order.  For each one the values for its arguments are collected from positional and
keyword arguments and from default arguments, then converted.  If there are several overloads,
this is first tried without implicit conversions for all of them.

Functions that take `pybind11::args` or `pybind11::kwargs` are left out.
-/
namespace Verif.Spec

/-- What pybind11 can do with the values of Python. -/
structure PyValues (V : Type) where
  isNone : V → Bool
  /-- whether a value can be converted to the type of a parameter of a C++ function (`none`: the
  implicit object), with or without implicit conversions -/
  loads : (fn : Nat) → (param : Option Nat) → (convert : Bool) → V → Bool
  /-- the object made from a C++ expression when the function is defined -/
  object : Str → V
  /-- what is possible without conversions is possible with them -/
  loads_more : ∀ fn param v, loads fn param false v = true → loads fn param true v = true

/-- `argument_record` -/
structure PyArg (V : Type) where
  name : Str
  value : Option V
  convert : Bool
  none : Bool

/-- `function_record` -/
structure PyFunction (V : Type) where
  fn : Nat
  isMethod : Bool
  nargs : Nat
  args : List (PyArg V)

/-- `process_attribute<arg>` and `process_attribute<arg_v>`: for a method, the first `arg` is
preceded by one for `self`. -/
def pyArgs {V : Type} (P : PyValues V) (isMethod : Bool) (args : List ArgOut) : List (PyArg V) :=
  if args.isEmpty then []
  else (if isMethod then [⟨t%"self", none, true, false⟩] else []) ++
    args.map fun a => ⟨a.name, a.default.map P.object, !a.noconvert, !a.noneFalse⟩

/-- What is known about the function defined by a statement. -/
def pyFunction {V : Type} (P : PyValues V) (isMethod : Bool) : Stmt → Option (PyFunction V)
  | .function _ _ _ p _ args _ =>
    some ⟨p.fn, isMethod, p.types.length + isMethod.toNat, pyArgs P isMethod args⟩
  | .init d types _ args _ => some ⟨d, isMethod, types.length + isMethod.toNat, pyArgs P isMethod args⟩
  | _ => none

/-- Copy the positional arguments, together with the permission to convert them. -/
def takePositional {V : Type} (P : PyValues V) (kw : List (Str × V)) :
    List (PyArg V) → List V → Option (List (V × Bool))
  | _, [] => some []
  | [], v :: vs => (takePositional P kw [] vs).map ((v, true) :: ·)
  | a :: as, v :: vs =>
    if (kw.lookup a.name).isSome then none
    else if !a.none && P.isNone v then none
    else (takePositional P kw as vs).map ((v, a.convert) :: ·)

/-- Take the remaining ones from keyword and default arguments, and what is left of the
keyword arguments. -/
def takeKeywords {V : Type} (P : PyValues V) :
    List (PyArg V) → List (Str × V) → Option (List (V × Bool) × List (Str × V))
  | [], kw => some ([], kw)
  | a :: as, kw =>
    let found := kw.lookup a.name
    let left := if found.isSome then kw.filter (·.1 ≠ a.name) else kw
    match found.or a.value with
    | none => none
    | some v =>
      if !a.none && P.isNone v then none
      else (takeKeywords P as left).map fun r => ((v, a.convert) :: r.1, r.2)

/-- The values for the arguments of an overload, if it can be called like this. -/
def prepare {V : Type} (P : PyValues V) (f : PyFunction V) (pos : List V) (kw : List (Str × V)) :
    Option (List (V × Bool)) :=
  if pos.length > f.nargs then none
  else if pos.length < f.nargs ∧ f.args.length < f.nargs then none
  else match takePositional P kw f.args pos with
    | none => none
    | some given =>
      match takeKeywords P (f.args.drop pos.length) kw with
      | some (more, []) => some (given ++ more)
      | _ => none

/-- The parameter of the C++ function an argument stands for. -/
def PyFunction.param {V : Type} (f : PyFunction V) (k : Nat) : Option Nat :=
  if f.isMethod then (if k = 0 then none else some (k - 1)) else some k

/-- Try to call the function: all arguments have to be converted. -/
def attempt {V : Type} (P : PyValues V) (convert : Bool) (pos : List V) (kw : List (Str × V))
    (f : PyFunction V) : Option (Nat × List V) :=
  match prepare P f pos kw with
  | none => none
  | some given =>
    if given.zipIdx.all fun q => P.loads f.fn (f.param q.2) (convert && q.1.2) q.1.1 then
      some (f.fn, given.map (·.1))
    else none

/-- Some argument other than the object may be converted. -/
def worthAnother {V : Type} (P : PyValues V) (pos : List V) (kw : List (Str × V)) (f : PyFunction V) : Bool :=
  match prepare P f pos kw with
  | none => false
  | some given => (given.drop f.isMethod.toNat).any (·.2)

/-- The function that is called, and with which values; `none` stands for a `TypeError`. -/
def dispatch {V : Type} (P : PyValues V) (fs : List (PyFunction V)) (pos : List V) (kw : List (Str × V)) :
    Option (Nat × List V) :=
  match fs with
  | [f] => attempt P true pos kw f
  | fs =>
    match fs.findSome? (attempt P false pos kw) with
    | some r => some r
    | none => (fs.filter (worthAnother P pos kw)).findSome? (attempt P true pos kw)

/-! ### Expectations -/

/-- The value for parameter `k` is the positional argument at this place, or else the keyword
argument with this name, or else the default argument. -/
def Passed {V : Type} (P : PyValues V) (pos : List V) (kw : List (Str × V)) (k : Nat) (p : Param) (v : V) :
    Prop :=
  pos[k]? = some v ∨ pos.length ≤ k ∧ ((p.name, v) ∈ kw ∨
    (∀ u, (p.name, u) ∉ kw) ∧ ∃ e, p.default = some e ∧ v = P.object e)

/-- These are the values for the parameters, and nothing else has been given. -/
structure Bound {V : Type} (P : PyValues V) (ps : List Param) (pos : List V) (kw : List (Str × V))
    (given : List V) : Prop where
  length : given.length = ps.length
  positional : pos.length ≤ ps.length
  values : ∀ (k : Nat) p v, ps[k]? = some p → given[k]? = some v → Passed P pos kw k p v
  keywords : ∀ n v, (n, v) ∈ kw → ∃ (k : Nat) (p : Param), pos.length ≤ k ∧ ps[k]? = some p ∧ p.name = n

/-- Parameter `k` of the function takes this value: not if it is `None` and the parameter
is annotated as `required`, and only without conversions if it is annotated with `noconvert`. -/
def Accepts {V : Type} (P : PyValues V) (w : EmitWorld) (d : Nat) (convert : Bool) (k : Nat) (v : V) : Prop :=
  (NamedIn w d .required k → P.isNone v = false) ∧
  ∃ conv : Bool, (conv = true ↔ convert = true ∧ ¬ NamedIn w d .noconvert k) ∧
    P.loads d (some k) conv v = true

/-- The function can be called like this, with or without conversions. -/
def Matches {V : Type} (P : PyValues V) (w : EmitWorld) (convert : Bool) (pos : List V) (kw : List (Str × V))
    (d : Nat) (given : List V) : Prop :=
  Bound P (paramsOf w d) pos kw given ∧ ∀ (k : Nat) v, given[k]? = some v → Accepts P w d convert k v

/-- It is the first one that can be called. -/
def FirstMatch {V : Type} (P : PyValues V) (w : EmitWorld) (convert : Bool) (pos : List V) (kw : List (Str × V))
    (ds : List Nat) (d : Nat) (given : List V) : Prop :=
  ∃ pre post, ds = pre ++ d :: post ∧ Matches P w convert pos kw d given ∧
    ∀ d' ∈ pre, ∀ given', ¬ Matches P w convert pos kw d' given'

/-- The function that is to be called: the first one that can be called without conversions, or
else the first one that can be called with them. -/
def Resolved {V : Type} (P : PyValues V) (w : EmitWorld) (pos : List V) (kw : List (Str × V))
    (ds : List Nat) (d : Nat) (given : List V) : Prop :=
  FirstMatch P w false pos kw ds d given ∨
    (∀ d' ∈ ds, ∀ given', ¬ Matches P w false pos kw d' given') ∧ FirstMatch P w true pos kw ds d given

/-- What C++ ensures about the names of parameters; none of them is `pybind11::args` or
`pybind11::kwargs`. -/
structure OrdinaryParams (w : EmitWorld) (d : Nat) : Prop where
  plain : ∀ p ∈ paramsOf w d, p.argsType = none
  distinct : ∀ (j k : Nat) p q, (paramsOf w d)[j]? = some p → (paramsOf w d)[k]? = some q →
    p.name = q.name → p.name ≠ [] → j = k

/-- Keyword arguments of a call: their names are distinct and not empty. -/
structure Keywords {V : Type} (kw : List (Str × V)) : Prop where
  distinct : (kw.map (·.1)).Nodup
  named : ∀ v, ([], v) ∉ kw

/-- The function a statement is for. -/
def overloadOf : Stmt → Option Nat
  | .function d .. => some d
  | .init d .. => some d
  | _ => none

/-- The statement exposes this function or constructor, with its own parameters. -/
def IsOverload (w : EmitWorld) (s : Stmt) (d : Nat) : Prop :=
  (∃ isStatic name doc args policies,
    s = .function d isStatic name (emitFunctionPointer w d) doc args policies ∧ Signature w d doc args policies) ∨
  ∃ doc args policies, s = .init d ((w.fn d).params.map (·.originalType)) doc args policies ∧
    Signature w d doc args policies

/-- The object the functions are called for, if they are methods, is not `None` and has the right
type, and no keyword argument is called `self`. -/
structure CalledFor {V : Type} (P : PyValues V) (ds : List Nat) (kw : List (Str × V)) (obj : Option V) :
    Prop where
  notNone : ∀ v, obj = some v → P.isNone v = false
  loads : ∀ v, obj = some v → ∀ d ∈ ds, P.loads d none false v = true
  keyword : obj.isSome = true → ∀ v, (t%"self", v) ∉ kw

/-- The values of the default arguments of the parameters that follow those that have been given. -/
def defaultsFrom {V : Type} (P : PyValues V) (ps : List Param) (n : Nat) : List V :=
  (ps.drop n).map fun p => P.object (p.default.getD [])

end Verif.Spec
