import Verif.Model.Identifier
/-!
# The default module name (src/tool.cpp:205-209)

`llvm::sys::path::stem` is library code (llvm/lib/Support/Path.cpp); it is modelled
here, for POSIX paths, because its result determines the name of the module.
-/
namespace Verif

/-- `StringRef::find_last_of(c)`. -/
def findLastOf (c : Char) : Str → Option Nat
  | [] => none
  | x :: xs =>
    match findLastOf c xs with
    | some i => some (i + 1)
    | none => if x = c then some 0 else none

/-- `StringRef::find_first_of(c, from)`. -/
def findFirstOf (c : Char) (start : Nat) (s : Str) : Option Nat :=
  ((s.drop start).findIdx? (· = c)).map (· + start)

/-- `root_dir_start` of llvm/lib/Support/Path.cpp: the slash of the root directory. -/
def rootDirStart (path : Str) : Option Nat :=
  match path with
  | '/' :: '/' :: c :: _ :: _ => if c = '/' then some 0 else findFirstOf '/' 2 path
  | '/' :: _ => some 0
  | _ => none

/-- `filename_pos` of llvm/lib/Support/Path.cpp. -/
def filenamePos (s : Str) : Nat :=
  if s.getLast? = some '/' then s.length - 1
  else match findLastOf '/' s with
  | none => 0
  | some pos => if pos = 1 ∧ s.head? = some '/' then 0 else pos + 1

/-- The loop that skips separators in `reverse_iterator::operator++`; the result is
`end_pos`. -/
def skipSeparators (path : Str) (rootDir : Option Nat) : Nat → Nat
  | 0 => 0
  | n + 1 => if rootDir ≠ some n ∧ path[n]? = some '/' then skipSeparators path rootDir n else n + 1

/-- `llvm::sys::path::filename`: the component `*rbegin(path)`. -/
def pathFilename (path : Str) : Str :=
  let rootDir := rootDirStart path
  let stop := skipSeparators path rootDir path.length
  if path.getLast? = some '/' ∧ (rootDir.all fun r => r < stop - 1) then ['.']
  else (path.take stop).drop (filenamePos (path.take stop))

/-- `llvm::sys::path::stem`. -/
def pathStem (path : Str) : Str :=
  let name := pathFilename path
  match findLastOf '.' name with
  | none => name
  | some pos => if name = ['.'] ∨ name = ['.', '.'] then name else name.take pos

/-- The name of the module, src/tool.cpp:205-209; `option` is the value of
`--module-name`.  `none` would be a fault of `makeValidIdentifier` (there is none,
see C07). -/
def moduleNameFor (option mainFile : Str) : Option Str :=
  if option.isEmpty then makeValidIdentifier (pathStem mainFile) else some option

end Verif
