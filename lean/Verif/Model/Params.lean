import Verif.Model.Storage
/-!
# Emitted function arguments and call policies (src/expose.cpp:301-375)
-/
namespace Verif

/-- Result of `getPybind11ArgsType`, src/expose.cpp:316-326, if not empty. -/
inductive ArgsType where
  | args | kwargs
  deriving DecidableEq, Repr

/-- What `emitParameters` reads about a parameter.  `name` is empty for unnamed
parameters, `default` is the pretty-printed default argument. -/
structure Param where
  id : Nat
  name : Str
  argsType : Option ArgsType := none
  default : Option Str := none
  deriving DecidableEq, Repr

/-- One emitted `::pybind11::arg(...)`. -/
structure ArgOut where
  name : Str
  noconvert : Bool
  noneFalse : Bool
  default : Option Str
  deriving DecidableEq, Repr

/-- The loop of `emitParameters`, src/expose.cpp:334-364. -/
def emitParametersLoop (attrs : FunctionDeclAttrs) :
    (index : Nat) → (lastKwargs : Option Nat) → List Param → List ArgOut × List Diag
  | _, _, [] => ([], [])
  | index, lastKwargs, p :: ps =>
    if p.argsType = some .kwargs then emitParametersLoop attrs index (some p.id) ps
    else if p.argsType.isSome then emitParametersLoop attrs index lastKwargs ps
    else match lastKwargs with
    | some k => ([], [{ decl := k, kind := .trailingParameters }])
    | none =>
      let r := emitParametersLoop attrs (index + 1) lastKwargs ps
      ({ name := p.name, noconvert := index ∈ attrs.noconvert, noneFalse := index ∈ attrs.required,
         default := p.default } :: r.1, r.2)

/-- `emitParameters`, src/expose.cpp:328-365. -/
def emitParameters (attrs : FunctionDeclAttrs) (ps : List Param) : List ArgOut × List Diag :=
  emitParametersLoop attrs 0 none ps

/-- The text of an emitted argument, src/expose.cpp:350-362. -/
def ArgOut.text (a : ArgOut) : Str :=
  t%", ::pybind11::arg(" ++ emitStringLiteral a.name ++ t%")" ++
    (if a.noconvert then t%".noconvert()" else []) ++
    (if a.noneFalse then t%".none(false)" else []) ++
    (match a.default with
      | some e => t%" = " ++ e
      | none => [])

/-- One emitted call policy. -/
inductive PolicyOut where
  | returnValuePolicy (p : Str)
  | keepAlive (nurse patient : Nat)
  deriving DecidableEq, Repr

/-- `emitPolicies`, src/expose.cpp:367-375. -/
def emitPolicies (attrs : FunctionDeclAttrs) : List PolicyOut :=
  (if attrs.returnValuePolicy.isEmpty then [] else [.returnValuePolicy attrs.returnValuePolicy]) ++
    attrs.keepAlive.map fun p => .keepAlive p.1 p.2

/-- The text of an emitted policy, src/expose.cpp:369-373. -/
def PolicyOut.text : PolicyOut → Str
  | .returnValuePolicy p => t%", pybind11::return_value_policy::" ++ p
  | .keepAlive i j => t%", pybind11::keep_alive<" ++ printNat i ++ t%", " ++ printNat j ++ t%">()"

end Verif
