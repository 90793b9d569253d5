import Verif.Model.Printing
/-!
# Identifiers: src/string_utils.cpp and `DiscriminateIdentifiers`
-/
namespace Verif

/-- `isValidIdentifier`, src/string_utils.cpp:12-14, i.e. `clang::isValidAsciiIdentifier`
(clang/Basic/CharInfo.h): non-empty, first character may start and all further
ones may continue an identifier. -/
def isValidIdentifier : Str → Bool
  | [] => false
  | c :: cs => isIdentifierStart c && cs.all isIdentifierContinue

/-- Local variables of `makeValidIdentifier`, src/string_utils.cpp:16-43, while
it runs.  Pointers into the buffer are indices; `end` is the (constant) length. -/
structure MviState where
  buf : Str
  lastValid : Nat
  output : Nat
  input : Nat
  deriving DecidableEq, Repr

/-- `std::find_if(begin() + i, end, pred)` on the buffer.  `none` is an
out-of-bounds read. -/
def findIf (pred : Char → Bool) (buf : Str) (stop i : Nat) : Option Nat :=
  if i < stop then
    match buf[i]? with
    | none => none
    | some c => if pred c then some i else findIf pred buf stop (i + 1)
  else some i
termination_by stop - i

/-- Store `*(begin() + i) = c`; `none` is an out-of-bounds write. -/
def storeAt (buf : Str) (i : Nat) (c : Char) : Option Str :=
  if i < buf.length then some (buf.set i c) else none

/-- What one evaluation of the loop condition and body leads to. -/
inductive MviStep where
  | fault
  | next (s : MviState)
  | done (result : Str)
  deriving DecidableEq, Repr

/-- Initialisation, src/string_utils.cpp:17-30. -/
def mviInit (text : Str) : Option MviState :=
  match findIf isIdentifierStart text text.length 0 with
  | none => none
  | some i => some { buf := text, lastValid := 0, output := 0, input := i }

/-- One round of the loop (or, when `input == end`, the code after the loop),
src/string_utils.cpp:32-42.  `erase(output, end)` needs `output <= end`. -/
def mviStep (s : MviState) : MviStep :=
  if s.input = s.buf.length then
    match (if s.lastValid ≠ s.buf.length
            then (storeAt s.buf s.output '_').map fun b => (b, s.output + 1)
            else some (s.buf, s.output)) with
    | none => .fault
    | some (buf, output) => if output ≤ buf.length then .done (buf.take output) else .fault
  else
    match (if s.input ≠ s.lastValid
            then (storeAt s.buf s.output '_').map fun b => (b, s.output + 1)
            else some (s.buf, s.output)) with
    | none => .fault
    | some (buf, output) =>
      match buf[s.input]? with
      | none => .fault
      | some c =>
        match storeAt buf output c with
        | none => .fault
        | some buf =>
          match findIf isIdentifierContinue buf buf.length (s.input + 1) with
          | none => .fault
          | some i =>
            .next { buf := buf, lastValid := s.input + 1, output := output + 1, input := i }

/-- Run the loop; `fuel` bounds the number of rounds.  `none` is a fault or not
enough fuel (`mviRun_total` in Verif/Lemmas/Identifier.lean: the length of the
text plus one always suffices, so the bound is not part of the behaviour). -/
def mviRun : Nat → MviState → Option Str
  | 0, _ => none
  | n + 1, s =>
    match mviStep s with
    | .fault => none
    | .done r => some r
    | .next s' => mviRun n s'

/-- `makeValidIdentifier`, src/string_utils.cpp:16-43. -/
def makeValidIdentifier (text : Str) : Option Str :=
  match mviInit text with
  | none => none
  | some s => mviRun (text.length + 1) s

/-- `llvm::StringMap<unsigned>` of `DiscriminateIdentifiers`, src/expose.cpp:64-65,
as a function from names to counts. -/
abbrev Discriminators := Str → Nat

/-- `DiscriminateIdentifiers::discriminate`, src/expose.cpp:68-75. -/
def discriminate (st : Discriminators) (name : Str) : Str × Discriminators :=
  let discriminator := st name + 1
  let result := if discriminator ≠ 1 then name ++ '_' :: printNat discriminator else name
  (result, fun n => if n = name then discriminator else st n)

/-- Calling `discriminate` for each name in turn, as the loop at
src/expose.cpp:679-719 does. -/
def discriminateAll (st : Discriminators) : List Str → List Str
  | [] => []
  | n :: ns => (discriminate st n).1 :: discriminateAll (discriminate st n).2 ns

/-- Base name of a context, src/expose.cpp:698-708: `context` followed by the fully
qualified name of a type (which starts with `::`), or by an underscore and the
qualified name of a namespace, or by nothing for the translation unit. -/
inductive ContextLabel where
  | type (fullyQualified : Str)
  | named (qualified : Str)
  | translationUnit
  deriving DecidableEq, Repr

/-- src/expose.cpp:698-709, before `discriminate`. -/
def ContextLabel.baseName : ContextLabel → Option Str
  | .type q => makeValidIdentifier (t%"context" ++ q)
  | .named q => makeValidIdentifier (t%"context" ++ '_' :: q)
  | .translationUnit => makeValidIdentifier t%"context"

end Verif
