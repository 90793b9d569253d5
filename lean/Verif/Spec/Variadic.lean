import Verif.Spec.Call
/-!
# Calling functions that take `pybind11::args` or `pybind11::kwargs`

Complements Spec/Call.lean: what pybind11 does for overloads whose last parameters are `args`, `kwargs` or both
(pybind11/pybind11.h, `cpp_function::dispatcher`; pybind11/cast.h, `argument_loader`).  Functions with parameters
after `args` are left out.
-/
namespace Verif.Spec

/-- `function_record`; what is known about `args` and `kwargs` is deduced from the type of the function. -/
structure PyVariadic (V : Type) where
  fn : Nat
  isMethod : Bool
  /-- `nargs_pos`: the number of arguments before `args` and `kwargs` -/
  nargsPos : Nat
  hasArgs : Bool
  hasKwargs : Bool
  args : List (PyArg V)

/-- The parameters before `args` and `kwargs`. -/
def leadingParams (w : EmitWorld) (d : Nat) : List Param := (paramsOf w d).takeWhile (·.argsType.isNone)

/-- What is known about a function. -/
def variadicFor {V : Type} (P : PyValues V) (w : EmitWorld) (isMethod : Bool) (d : Nat) (args : List ArgOut) :
    PyVariadic V :=
  ⟨d, isMethod, (leadingParams w d).length + isMethod.toNat,
    (paramsOf w d).any (·.argsType == some .args), (paramsOf w d).any (·.argsType == some .kwargs),
    pyArgs P isMethod args⟩

/-- What is known about the function defined by a statement. -/
def pyVariadic {V : Type} (P : PyValues V) (w : EmitWorld) (isMethod : Bool) : Stmt → Option (PyVariadic V)
  | .function _ _ _ p _ args _ => some (variadicFor P w isMethod p.fn args)
  | .init d _ _ args _ => some (variadicFor P w isMethod d args)
  | _ => none

/-- The values for the arguments, and what is left of the positional and keyword arguments. -/
def prepareVariadic {V : Type} (P : PyValues V) (f : PyVariadic V) (pos : List V) (kw : List (Str × V)) :
    Option (List (V × Bool) × List V × List (Str × V)) :=
  if f.hasArgs = false ∧ pos.length > f.nargsPos then none
  else if pos.length < f.nargsPos ∧ f.args.length < f.nargsPos then none
  else match takePositional P kw f.args (pos.take f.nargsPos) with
    | none => none
    | some given =>
      match takeKeywords P (f.args.drop (pos.take f.nargsPos).length) kw with
      | none => none
      | some (more, left) =>
        if left ≠ [] ∧ f.hasKwargs = false then none
        else some (given ++ more, pos.drop f.nargsPos, left)

/-- The parts that are the same for all functions. -/
def PyVariadic.record {V : Type} (f : PyVariadic V) : PyFunction V := ⟨f.fn, f.isMethod, f.nargsPos, f.args⟩

/-- Try to call the function: the function, the values of the arguments, the elements of `args` and the items of
`kwargs`. -/
def attemptVariadic {V : Type} (P : PyValues V) (convert : Bool) (pos : List V) (kw : List (Str × V))
    (f : PyVariadic V) : Option (Nat × List V × List V × List (Str × V)) :=
  match prepareVariadic P f pos kw with
  | none => none
  | some (given, rest, left) =>
    if given.zipIdx.all fun q =>
        P.loads f.fn (f.record.param q.2) (convert && q.1.2) q.1.1 then
      some (f.fn, given.map (·.1), rest, left)
    else none

/-- Some argument other than the object may be converted. -/
def worthVariadic {V : Type} (P : PyValues V) (pos : List V) (kw : List (Str × V)) (f : PyVariadic V) : Bool :=
  match prepareVariadic P f pos kw with
  | none => false
  | some (given, _, _) => (given.drop f.isMethod.toNat).any (·.2)

/-- What is called if there are several overloads; `none` stands for a `TypeError`. -/
def dispatchVariadic {V : Type} (P : PyValues V) (fs : List (PyVariadic V)) (pos : List V) (kw : List (Str × V)) :
    Option (Nat × List V × List V × List (Str × V)) :=
  match fs with
  | [f] => attemptVariadic P true pos kw f
  | fs =>
    match fs.findSome? (attemptVariadic P false pos kw) with
    | some r => some r
    | none => (fs.filter (worthVariadic P pos kw)).findSome? (attemptVariadic P true pos kw)

/-! ### Expectations -/

/-- The function has ordinary parameters, followed by `args` or `kwargs` or both, in this order. -/
structure VariadicParams (w : EmitWorld) (d : Nat) (ps : List Param) (hasArgs hasKwargs : Bool) : Prop where
  shape : ∃ tail, paramsOf w d = ps ++ tail ∧
    tail.map (·.argsType) = (if hasArgs then [some .args] else []) ++ if hasKwargs then [some .kwargs] else []
  plain : ∀ p ∈ ps, p.argsType = none
  distinct : ∀ (j k : Nat) p q, ps[j]? = some p → ps[k]? = some q → p.name = q.name → p.name ≠ [] → j = k

/-- What the function is meant to be called with: `given` are the values of the ordinary parameters, as if there
were no others, `rest` the further positional arguments, and `left` the keyword arguments that are not the name of a
parameter.  Without `args` or `kwargs` there must not be such arguments. -/
structure BoundVariadic {V : Type} (P : PyValues V) (ps : List Param) (hasArgs hasKwargs : Bool) (pos : List V)
    (kw : List (Str × V)) (given rest : List V) (left : List (Str × V)) : Prop where
  ordinary : Bound P ps (pos.take ps.length) (kw.filter fun q => q.1 ∈ ps.map (·.name)) given
  further : rest = pos.drop ps.length
  unnamed : left = kw.filter fun q => q.1 ∉ ps.map (·.name)
  noArgs : hasArgs = false → rest = []
  noKwargs : hasKwargs = false → left = []

/-- The function can be called like this, with or without conversions. -/
def MatchesVariadic {V : Type} (P : PyValues V) (w : EmitWorld) (convert : Bool) (pos : List V)
    (kw : List (Str × V)) (d : Nat) (given rest : List V) (left : List (Str × V)) : Prop :=
  ∃ ps hasArgs hasKwargs, VariadicParams w d ps hasArgs hasKwargs ∧
    BoundVariadic P ps hasArgs hasKwargs pos kw given rest left ∧
    ∀ (k : Nat) v, given[k]? = some v → Accepts P w d convert k v

/-- It is the first one that can be called. -/
def FirstVariadic {V : Type} (P : PyValues V) (w : EmitWorld) (convert : Bool) (pos : List V)
    (kw : List (Str × V)) (ss : List Stmt) (d : Nat) (given rest : List V) (left : List (Str × V)) : Prop :=
  ∃ pre s post, ss = pre ++ s :: post ∧ overloadOf s = some d ∧
    MatchesVariadic P w convert pos kw d given rest left ∧
    ∀ s' ∈ pre, ∀ d', overloadOf s' = some d' →
      ∀ given' rest' left', ¬ MatchesVariadic P w convert pos kw d' given' rest' left'

/-- The function that is to be called: the first one that can be called without conversions, or
else the first one that can be called with them. -/
def ResolvedVariadic {V : Type} (P : PyValues V) (w : EmitWorld) (pos : List V)
    (kw : List (Str × V)) (ss : List Stmt) (d : Nat) (given rest : List V) (left : List (Str × V)) : Prop :=
  FirstVariadic P w false pos kw ss d given rest left ∨
    (∀ s' ∈ ss, ∀ d', overloadOf s' = some d' →
      ∀ given' rest' left', ¬ MatchesVariadic P w false pos kw d' given' rest' left') ∧
    FirstVariadic P w true pos kw ss d given rest left

end Verif.Spec
