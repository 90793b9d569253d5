import Verif.Model.Macro
/-!
# Macro expansion, and the macros of genpybind.h

public/genpybind/genpybind.h:9-31.  The expansion of macros is what C++ says ([cpp.replace], as
spelled out in D. Prosser's algorithm, X3J11/86-196): every token carries the names of the macros
it must not be expanded for.  Directives within the arguments of a macro are left out; a token after
a macro that expands to nothing has white space before it only if it had in the file (this matters
for the operator `#` only).
-/
namespace Verif

/-- A token during macro expansion; it is not expanded if its spelling is one of `hide`. -/
structure MacroToken where
  tok : PPToken
  hide : List Str := []
  deriving DecidableEq, Repr

/-- Elements of the replacement list of a macro. -/
inductive MacroPart where
  | token (t : PPToken)
  /-- parameter number `k` -/
  | param (k : Nat) (spaced : Bool)
  /-- `#` and parameter number `k` -/
  | stringized (k : Nat) (spaced : Bool)
  /-- parameters number `j` and `k` with `##` in between -/
  | pasted (j k : Nat) (spaced : Bool)
  deriving DecidableEq, Repr

/-- A macro. -/
inductive Macro where
  | object (body : List MacroPart)
  /-- with at least one parameter; if it is variadic the last one is `__VA_ARGS__` -/
  | function (params : Nat) (variadic : Bool) (body : List MacroPart)
  /-- `__COUNTER__` of gcc and clang: 0, 1, ... -/
  | counter
  deriving DecidableEq, Repr

/-- The macros that are defined. -/
abbrev Macros := Str → Option Macro

/-- Arguments of a macro: `commas` is the number of commas that still separate arguments, `depth`
the number of parentheses that have been opened, `arg` the current argument.  Results in the
arguments, the closing parenthesis and what follows. -/
def readArguments (commas : Nat) (variadic : Bool) : Nat → List MacroToken → List MacroToken →
    Option (List (List MacroToken) × MacroToken × List MacroToken)
  | _, _, [] => none
  | depth, arg, t :: ts =>
    if t.tok.spelling = ['('] then readArguments commas variadic (depth + 1) (arg ++ [t]) ts
    else if t.tok.spelling = [')'] then
      match depth with
      | 0 => if commas = 0 then some ([arg], t, ts) else none
      | depth + 1 => readArguments commas variadic depth (arg ++ [t]) ts
    else if t.tok.spelling = [','] ∧ depth = 0 then
      match commas with
      | 0 => if variadic then readArguments 0 variadic 0 (arg ++ [t]) ts else none
      | commas + 1 => (readArguments commas variadic 0 [] ts).map fun r => (arg :: r.1, r.2)
    else readArguments commas variadic depth (arg ++ [t]) ts

/-- What replaces something has white space before it if that had. -/
def setSpaced (spaced : Bool) : List MacroToken → List MacroToken
  | [] => []
  | t :: ts => { t with tok := { t.tok with spaced } } :: ts

/-- The operator `##`: the last token of one argument and the first token of the other become one. -/
def paste : List MacroToken → List MacroToken → List MacroToken
  | [], b => b
  | [t], [] => [t]
  | [t], u :: b => { tok := { t.tok with spelling := t.tok.spelling ++ u.tok.spelling } } :: b
  | t :: t' :: a, b => t :: paste (t' :: a) b

/-- The replacement list with arguments in place of parameters.  They are expanded completely unless
they are operands of `#` or `##`. -/
def replaceParts (expandArgument : Nat → List MacroToken → Option (List MacroToken × Nat))
    (args : List (List MacroToken)) : Nat → List MacroPart → Option (List MacroToken × Nat)
  | counter, [] => some ([], counter)
  | counter, part :: body =>
    let first : Option (List MacroToken × Nat) := match part with
      | .token t => some ([{ tok := t }], counter)
      | .param k spaced => (expandArgument counter (args.getD k [])).map fun r => (setSpaced spaced r.1, r.2)
      | .stringized k spaced =>
        some ([{ tok := { spelling := '"' :: stringize ((args.getD k []).map (·.tok)) ++ ['"']
                          literal := true, spaced } }], counter)
      | .pasted j k spaced => some (setSpaced spaced (paste (args.getD j []) (args.getD k [])), counter)
    match first with
    | none => none
    | some (ts, counter) =>
      (replaceParts expandArgument args counter body).map fun r => (ts ++ r.1, r.2)

/-- Tokens that come from a macro are not expanded for it again. -/
def addHidden (hide : List Str) (ts : List MacroToken) : List MacroToken :=
  ts.map fun t => { t with hide := hide ++ t.hide }

/-- Expand macros, for at most the given number of steps; `counter` is the next value of
`__COUNTER__`. -/
def expandMacros (macros : Macros) : Nat → Nat → List MacroToken → Option (List MacroToken × Nat)
  | 0, _, _ => none
  | _ + 1, counter, [] => some ([], counter)
  | n + 1, counter, t :: ts =>
    let keep := (expandMacros macros n counter ts).map fun r => (t :: r.1, r.2)
    if t.tok.spelling ∈ t.hide then keep
    else match macros t.tok.spelling with
      | none => keep
      | some .counter => (expandMacros macros n (counter + 1) ts).map fun r =>
          ({ tok := { spelling := Nat.toDigits 10 counter, spaced := t.tok.spaced } } :: r.1, r.2)
      | some (.object body) =>
        match replaceParts (expandMacros macros n) [] counter body with
        | none => none
        | some (new, counter) => expandMacros macros n counter
            (addHidden (t.tok.spelling :: t.hide) (setSpaced t.tok.spaced new) ++ ts)
      | some (.function params variadic body) =>
        match ts with
        | [] => keep
        | p :: rest =>
          if p.tok.spelling ≠ ['('] then keep
          else match readArguments (params - 1) variadic 0 [] rest with
            | none => none
            | some (args, close, rest) =>
              match replaceParts (expandMacros macros n) args counter body with
              | none => none
              | some (new, counter) => expandMacros macros n counter
                  (addHidden (t.tok.spelling :: t.hide.filter (close.hide.contains ·))
                    (setSpaced t.tok.spaced new) ++ rest)

/-! ### genpybind.h -/

/-- A token of a replacement list, preceded by white space or not. -/
def word (s : Str) (spaced : Bool := false) : MacroPart := .token { spelling := s, spaced }

/-- The macros if `__GENPYBIND__` is defined, public/genpybind/genpybind.h:11-24. -/
def toolMacros : List (Str × Macro) := [
  (t%"GENPYBIND__PRIVATE_CONCAT_EXPANDED__", .function 2 false [.pasted 0 1 false]),
  (t%"GENPYBIND__PRIVATE_CONCAT__", .function 2 false [
    word t%"GENPYBIND__PRIVATE_CONCAT_EXPANDED__", word t%"(", .param 0 false, word t%",", .param 1 true, word t%")"]),
  (t%"GENPYBIND__PRIVATE_UNIQUE__", .function 1 false [
    word t%"GENPYBIND__PRIVATE_CONCAT__", word t%"(", .param 0 false, word t%",", word t%"__COUNTER__" true,
    word t%")"]),
  (t%"GENPYBIND__PRIVATE_STRINGIZE__", .function 1 true [.stringized 0 false]),
  (t%"GENPYBIND", .function 1 true [
    word t%"__attribute__", word t%"(", word t%"(", word t%"annotate", word t%"(",
    -- the marker, UTF-8 encoded
    .token { spelling := t%"\"\xe2\x97\x8a\"", literal := true },
    word t%"GENPYBIND__PRIVATE_STRINGIZE__" true, word t%"(", .param 0 false, word t%")",
    word t%")", word t%")", word t%")"]),
  (t%"GENPYBIND_MANUAL", .function 1 true [
    word t%"static", word t%"constexpr" true, word t%"auto" true, word t%"__attribute__" true,
    word t%"(", word t%"(", word t%"unused", word t%")", word t%")",
    word t%"GENPYBIND" true, word t%"(", word t%"manual", word t%")",
    word t%"GENPYBIND__PRIVATE_UNIQUE__" true, word t%"(", word t%"genpybind_", word t%")",
    word t%"=" true, word t%"[" true, word t%"]", word t%"(", word t%"auto", word t%"&" true, word t%"parent",
    word t%")", .param 0 true, word t%";"]),
  (t%"GENPYBIND_PARENT_TYPE", .object [
    word t%"typename", word t%"std" true, word t%"::", word t%"remove_reference_t", word t%"<", word t%"decltype",
    word t%"(", word t%"parent", word t%")", word t%">", word t%"::", word t%"type"])]

/-- The macros otherwise, public/genpybind/genpybind.h:26-29. -/
def plainMacros : List (Str × Macro) := [
  (t%"GENPYBIND", .function 1 true []),
  (t%"GENPYBIND_MANUAL", .function 1 true [])]

end Verif
