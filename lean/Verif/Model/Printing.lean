import Verif.Model.Literal
/-!
# Printing of annotations and string literals
-/
namespace Verif

/-- Body of the loop of `raw_ostream::write_escaped` (llvm/lib/Support/raw_ostream.cpp)
for one byte, with `UseHexEscapes` false: named escapes, printable ASCII as it is
(`llvm::isPrint`), anything else as a full three digit octal escape.  The octal
digits are `(c >> 6) & 7`, `(c >> 3) & 7`, `c & 7`. -/
def escapeChar (c : Char) : Str :=
  if c = '\\' then ['\\', '\\']
  else if c = '\t' then ['\\', 't']
  else if c = '\n' then ['\\', 'n']
  else if c = '"' then ['\\', '"']
  else if 0x20 ≤ c.toNat ∧ c.toNat ≤ 0x7e then [c]
  else ['\\', Char.ofNat (48 + c.toNat / 64 % 8), Char.ofNat (48 + c.toNat / 8 % 8),
        Char.ofNat (48 + c.toNat % 8)]

/-- `raw_ostream::write_escaped`. -/
def writeEscaped (s : Str) : Str := s.flatMap escapeChar

/-- `emitStringLiteral`, src/expose.cpp:260-264. -/
def emitStringLiteral (s : Str) : Str := '"' :: (writeEscaped s ++ ['"'])

/-- `raw_ostream << unsigned` (llvm/lib/Support/NativeFormatting.cpp, `format_to_buffer`):
digits of `n`, produced from the least significant one and placed in front. -/
def printNat (n : Nat) : Str :=
  if h : n < 10 then [Char.ofNat (48 + n)]
  else printNat (n / 10) ++ [Char.ofNat (48 + n % 10)]
termination_by n
decreasing_by omega

/-- `LiteralValue::print`, src/annotations/literal_value.cpp:142-162. -/
def LiteralValue.print : LiteralValue → Str
  | .string s => '"' :: (writeEscaped s ++ ['"'])
  | .unsigned n => printNat n
  | .boolean b => if b then t%"true" else t%"false"
  | .nothing => t%"nothing"
  | .default => t%"default"

/-- The loop over the arguments in `Annotation::print`,
src/annotations/annotation.cpp:27-35; `comma` is the local variable. -/
def printArgs (comma : Bool) : List LiteralValue → Str
  | [] => []
  | v :: vs => (if comma then [',', ' '] else []) ++ v.print ++ printArgs true vs

/-- `AnnotationKind::print` and `Annotation::print`,
src/annotations/annotation.cpp:23-37 (`none`: the `llvm_unreachable` of `toString`). -/
def Annotation.print (a : Annotation) : Option Str :=
  match a.kind.toString? with
  | none => none
  | some name => some (name ++ ['('] ++ printArgs false a.arguments ++ [')'])

/-- Several annotations as they are written in one `GENPYBIND(...)`: printed and
separated by `", "` (not a function of the code base; used to state C04). -/
def printAnnotations : List Annotation → Option Str
  | [] => some []
  | [a] => a.print
  | a :: as =>
    match a.print, printAnnotations as with
    | some s, some r => some (s ++ [',', ' '] ++ r)
    | _, _ => none

end Verif
