import Verif.Model.Literal
/-!
# Tokenizer of annotation texts (src/annotations/parser.cpp, parser.h)
-/
namespace Verif

/-- `Parser::Token::Kind`, include/genpybind/annotations/parser.h:81-89. -/
inductive TokenKind where
  | eof | identifier | literal | openingParen | closingParen | comma | invalid
  deriving DecidableEq, Repr

/-- `Parser::Token`, include/genpybind/annotations/parser.h:80-94. -/
structure Token where
  kind : TokenKind
  text : Str
  value : LiteralValue := .nothing
  deriving DecidableEq, Repr

/-- One round of the loop of LLVM's `consumeUnsignedInteger` (llvm/lib/Support/StringRef.cpp)
with radix 10: the 64 bit accumulator wraps around, and overflow is detected "by
shifting back and seeing if bits were lost" (`Result / Radix < PrevResult`). -/
def accumulateDigit (acc : Option Nat) (c : Char) : Option Nat :=
  match acc with
  | none => none
  | some prev =>
    let result := (prev * 10 + (c.toNat - '0'.toNat)) % 2 ^ 64
    if result / 10 < prev then none else some result

/-- `StringRef::getAsInteger<unsigned>(10, value)` (llvm/ADT/StringRef.h) on a
text consisting of digits only, as called at src/annotations/parser.cpp:91-92:
fails on the empty text, on 64 bit overflow, and if truncation to 32 bits
changes the value.  `none` is failure (the C++ function returns `true`). -/
def getAsUnsigned32 (ds : Str) : Option Nat :=
  match ds with
  | [] => none
  | _ =>
    match ds.foldl accumulateDigit (some 0) with
    | none => none
    | some v => if v % 2 ^ 32 ≠ v then none else some (v % 2 ^ 32)

/-- `Parser::Tokenizer::tokenizeNumberLiteral`, src/annotations/parser.cpp:83-97.
Precondition (asserted): the text starts with a digit. -/
def tokenizeNumberLiteral (text : Str) : Token × Str :=
  let tokText := text.takeWhile isDigit
  let rest := text.drop tokText.length
  match getAsUnsigned32 tokText with
  | some v => ({ kind := .literal, text := tokText, value := .unsigned v }, rest)
  | none => ({ kind := .invalid, text := tokText }, rest)

/-- The loop of `Parser::Tokenizer::tokenizeStringLiteral`,
src/annotations/parser.cpp:101-114, over the text after the opening quote.
`acc` is the text scanned so far (positions `1 .. pos-1`), so the result is the
`substr(1, pos - 1)` of the code together with what follows the closing quote;
`none` if the loop ends without finding a closing quote. -/
def scanString (escapeNext : Bool) (acc : Str) : Str → Option (Str × Str)
  | [] => none
  | c :: cs =>
    if escapeNext || c = '\\' then scanString (!escapeNext) (acc ++ [c]) cs
    else if c = '"' then some (acc, cs)
    else scanString escapeNext (acc ++ [c]) cs

/-- `Parser::Tokenizer::tokenizeStringLiteral`, src/annotations/parser.cpp:99-118.
Precondition (asserted): the text starts with a double quote; `body` is the text
after it. -/
def tokenizeStringLiteral (body : Str) : Token × Str :=
  match scanString false [] body with
  | some (s, rest) =>
    ({ kind := .literal, text := '"' :: s ++ ['"'], value := .string s }, rest)
  | none => ({ kind := .invalid, text := '"' :: body }, [])

/-- `Parser::Tokenizer::tokenizeIdentifier`, src/annotations/parser.cpp:120-127. -/
def tokenizeIdentifier (text : Str) : Token × Str :=
  let tokText := text.takeWhile isIdentifierContinue
  ({ kind := .identifier, text := tokText }, text.drop tokText.length)

/-- `Parser::Tokenizer::tokenize`, src/annotations/parser.cpp:29-81.  Returns the
token and the remaining text (the member `text` of the C++ class). -/
def tokenize (text : Str) : Token × Str :=
  match text.dropWhile isHorizontalWhitespace with
  | [] => ({ kind := .eof, text := [] }, [])
  | c :: cs =>
    if c = '(' then ({ kind := .openingParen, text := [c] }, cs)
    else if c = ')' then ({ kind := .closingParen, text := [c] }, cs)
    else if c = ',' then ({ kind := .comma, text := [c] }, cs)
    else if isDigit c then tokenizeNumberLiteral (c :: cs)
    else if c = '"' then tokenizeStringLiteral cs
    else if isIdentifierStart c then tokenizeIdentifier (c :: cs)
    else ({ kind := .invalid, text := [c] }, cs)

/-- `Parser::Tokenizer`, include/genpybind/annotations/parser.h:96-116, with the
lookahead token computed eagerly, as in the code. -/
structure EagerTokenizer where
  text : Str
  nextToken : Token
  deriving DecidableEq, Repr

/-- `Tokenizer::Tokenizer`, include/genpybind/annotations/parser.h:101. -/
def EagerTokenizer.init (text : Str) : EagerTokenizer :=
  { text := (tokenize text).2, nextToken := (tokenize text).1 }

/-- `Tokenizer::consumeToken`, include/genpybind/annotations/parser.h:105-109. -/
def EagerTokenizer.consume (t : EagerTokenizer) : Token × EagerTokenizer :=
  (t.nextToken, { text := (tokenize t.text).2, nextToken := (tokenize t.text).1 })

/-- The same tokenizer with the lookahead computed on demand: the state is the
text *before* the lookahead token.  The parser model uses this form because its
recursion then visibly shrinks the text; `EagerTokenizer.consume_sim` and
`EagerTokenizer.init_sim` (Verif/Lemmas/Tokenizer.lean) show that both produce
the same tokens. -/
structure Tokenizer where
  text : Str
  deriving DecidableEq, Repr

/-- `Tokenizer::tokenKind`, include/genpybind/annotations/parser.h:104. -/
def Tokenizer.tokenKind (t : Tokenizer) : TokenKind := (tokenize t.text).1.kind

/-- `Tokenizer::consumeToken`, include/genpybind/annotations/parser.h:105-109. -/
def Tokenizer.consume (t : Tokenizer) : Token × Tokenizer :=
  ((tokenize t.text).1, ⟨(tokenize t.text).2⟩)

end Verif
