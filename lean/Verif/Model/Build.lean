import Verif.Model.Options
/-!
# The CMake function (tools/genpybind.cmake)

`genpybind_add_module` is modelled as a function from its arguments to the custom command
and the target it defines.  Arguments are elements of CMake lists; texts that contain `;`
(which CMake would split) are not modelled, neither is what `pybind11_add_module` does with
its arguments.
-/
namespace Verif

/-- What is provided by CMake. -/
structure CMakeWorld where
  /-- `CMAKE_BINARY_DIR` -/
  buildDir : Str
  /-- `CMAKE_CURRENT_BINARY_DIR` -/
  binaryDir : Str
  /-- `get_filename_component(… ABSOLUTE BASE_DIR ${CMAKE_CURRENT_SOURCE_DIR})` -/
  absolute : Str → Str
  /-- `if(… LESS 1)` -/
  lessThanOne : Str → Bool
  /-- `math(EXPR … "… - 1")`, and the check of the result in `foreach(… RANGE …)`; `none` is
  an error -/
  lastIndex : Str → Option Nat

/-- Which keyword values belong to in `cmake_parse_arguments`. -/
inductive KeywordState where
  | none
  | header
  | libraries
  | count
  deriving DecidableEq, Repr

/-- Variables set by `cmake_parse_arguments`. -/
structure ParsedArguments where
  /-- `ARG_HEADER` -/
  header : Option Str := none
  /-- `ARG_LINK_LIBRARIES` -/
  libraries : List Str := []
  /-- `ARG_NUM_BINDING_FILES` -/
  count : List Str := []
  /-- `ARG_UNPARSED_ARGUMENTS` -/
  unparsed : List Str := []
  deriving DecidableEq, Repr

/-- `cmake_parse_arguments`, tools/genpybind.cmake:21-26, with a keyword for one value and
two keywords for several values. -/
def cmakeParseArguments : KeywordState → ParsedArguments → List Str → ParsedArguments
  | _, a, [] => a
  | state, a, x :: l =>
    if x = t%"HEADER" then cmakeParseArguments .header a l
    else if x = t%"LINK_LIBRARIES" then cmakeParseArguments .libraries a l
    else if x = t%"NUM_BINDING_FILES" then cmakeParseArguments .count a l
    else match state with
    | .header => cmakeParseArguments .none { a with header := some x } l
    | .libraries => cmakeParseArguments .libraries { a with libraries := a.libraries ++ [x] } l
    | .count => cmakeParseArguments .count { a with count := a.count ++ [x] } l
    | .none => cmakeParseArguments .none { a with unparsed := a.unparsed ++ [x] } l

/-- A list as text. -/
def cmakeList : List Str → Str
  | [] => []
  | [x] => x
  | x :: l => x ++ ';' :: cmakeList l

/-- What is defined by the function. -/
structure ModuleTarget where
  /-- arguments of the tool -/
  command : List Str
  /-- files generated by this command -/
  outputs : List Str
  /-- arguments of `pybind11_add_module` after the name of the target -/
  sources : List Str
  /-- libraries the target is linked to -/
  libraries : List Str
  deriving DecidableEq, Repr

/-- Path of a generated file, tools/genpybind.cmake:39-44. -/
def bindingFile (cm : CMakeWorld) (target : Str) (index : Nat) : Str :=
  cm.binaryDir ++ t%"/genpybind-" ++ target ++ t%"-" ++ Nat.toDigits 10 index ++ t%".cpp"

/-- `genpybind_add_module`, tools/genpybind.cmake:20-65; `none` is an error during
configuration. -/
def addModule (cm : CMakeWorld) (target : Str) (args : List Str) : Option ModuleTarget :=
  let a := cmakeParseArguments .none {} args
  -- lines 28-30
  let count := if a.count = [] ∨ cm.lessThanOne (cmakeList a.count) then t%"1" else cmakeList a.count
  -- line 31
  match cm.lastIndex count, a.header with
  | none, _ => none
  -- lines 33-36: without a header an argument is missing
  | _, none | _, some [] => none
  | some last, some header =>
    let bindings := (List.range (last + 1)).map (bindingFile cm target)
    some {
      command := [t%"-p", cm.buildDir, t%"--module-name", target, cm.absolute header] ++
        bindings.map (t%"-o=" ++ ·)
      outputs := bindings
      sources := bindings ++ a.unparsed
      libraries := a.libraries ++ [t%"genpybind::genpybind"] }

end Verif
