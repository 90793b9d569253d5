/-!
# Texts and character classes

Bytes of the C++ code are represented by `Char`s (byte `b` is `Char.ofNat b`,
`b < 256`).  Every theorem that quantifies over all `Str` in particular covers
all byte strings.
-/
namespace Verif

/-- `llvm::StringRef` / `std::string` contents as a list of bytes. -/
abbrev Str := List Char

/-- `t%"abc"` is the explicit character list `['a', 'b', 'c']`. -/
syntax:max "t%" str : term

open Lean in
macro_rules
  | `(t% $s:str) => do
    let cs := s.getString.toList.map (fun c => Syntax.mkCharLit c)
    `(([ $(cs.toArray),* ] : List Char))

/-- `clang::isHorizontalWhitespace` (clang/Basic/CharInfo.h): space, `\t`,
`\v`, `\f`; line breaks are *not* included. -/
def isHorizontalWhitespace (c : Char) : Bool :=
  c = ' ' || c = '\t' || c = '\x0b' || c = '\x0c'

/-- `clang::isDigit` (clang/Basic/CharInfo.h). -/
def isDigit (c : Char) : Bool := '0' ≤ c && c ≤ '9'

/-- `clang::isAsciiIdentifierStart` (clang/Basic/CharInfo.h), without `$`;
wrapped at src/annotations/parser.cpp:21-23 and src/string_utils.cpp:21-23. -/
def isIdentifierStart (c : Char) : Bool :=
  ('a' ≤ c && c ≤ 'z') || ('A' ≤ c && c ≤ 'Z') || c = '_'

/-- `clang::isAsciiIdentifierContinue` (clang/Basic/CharInfo.h), without `$`;
wrapped at src/annotations/parser.cpp:25-27 and src/string_utils.cpp:24-26. -/
def isIdentifierContinue (c : Char) : Bool :=
  isIdentifierStart c || isDigit c

end Verif
