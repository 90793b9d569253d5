import Verif.Model.Build
import Verif.Spec.Options
/-!
# Use of the CMake function
-/
namespace Verif.Spec

/-- What can be passed to the function after the name of the target. -/
inductive BuildArgument where
  | header (path : Str)
  | libraries (targets : List Str)
  | count (n : Nat)
  /-- arguments for `pybind11_add_module` -/
  | other (args : List Str)

/-- How it is written. -/
def BuildArgument.text : BuildArgument → List Str
  | .header path => [t%"HEADER", path]
  | .libraries targets => t%"LINK_LIBRARIES" :: targets
  | .count n => [t%"NUM_BINDING_FILES", Nat.toDigits 10 n]
  | .other args => args

/-- Words with a special meaning. -/
def IsKeyword (x : Str) : Prop := x ∈ [t%"HEADER", t%"LINK_LIBRARIES", t%"NUM_BINDING_FILES"]

/-- No keywords are used as values. -/
def BuildArgument.OK : BuildArgument → Prop
  | .header path => ¬ IsKeyword path ∧ path ≠ []
  | .libraries targets => ∀ x ∈ targets, ¬ IsKeyword x
  | .count _ => True
  | .other args => args ≠ [] ∧ ∀ x ∈ args, ¬ IsKeyword x

/-- Arguments for `pybind11_add_module` do not directly follow libraries or a count. -/
def Delimited : List BuildArgument → Prop
  | .libraries _ :: .other _ :: _ => False
  | .count _ :: .other _ :: _ => False
  | _ :: l => Delimited l
  | [] => True

/-- The headers asked for. -/
def headersOf (l : List BuildArgument) : List Str :=
  l.filterMap fun | .header p => some p | _ => none

/-- The libraries asked for. -/
def librariesOf (l : List BuildArgument) : List Str :=
  l.flatMap fun | .libraries t => t | _ => []

/-- The numbers of files asked for. -/
def countsOf (l : List BuildArgument) : List Nat :=
  l.filterMap fun | .count n => some n | _ => none

/-- Arguments for `pybind11_add_module`. -/
def othersOf (l : List BuildArgument) : List Str :=
  l.flatMap fun | .other a => a | _ => []

/-- A call of the function: one header, at most one count. -/
structure BuildCall (l : List BuildArgument) (header : Str) (count : Nat) : Prop where
  ok : ∀ a ∈ l, a.OK
  delimited : Delimited l
  header : headersOf l = [header]
  /-- at least one file is generated -/
  count : countsOf l = [] ∧ count = 1 ∨ ∃ n, countsOf l = [n] ∧ count = max n 1

/-- What is assumed about CMake. -/
structure CMakeOK (cm : CMakeWorld) : Prop where
  absolute : ∀ p, AbsolutePath (cm.absolute p)
  buildDir : AbsolutePath cm.buildDir
  binaryDir : AbsolutePath cm.binaryDir
  /-- nothing is built in the root directory -/
  notRoot : cm.binaryDir ≠ t%"/"
  less : ∀ n, cm.lessThanOne (Nat.toDigits 10 n) = decide (n < 1)
  index : ∀ n, cm.lastIndex (Nat.toDigits 10 (n + 1)) = some n
  /-- comparison of a list is that of its first element -/
  lessList : ∀ n rest, cm.lessThanOne (Nat.toDigits 10 n ++ ';' :: rest) = decide (n < 1)
  /-- expressions cannot contain semicolons -/
  indexList : ∀ text, ';' ∈ text → cm.lastIndex text = none

end Verif.Spec
