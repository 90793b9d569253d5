import Verif.Basic.Text
/-!
# Specification: reading an ordinary C++ string literal

[lex.string], [lex.ccon]: characters other than quote, backslash and new-line
stand for themselves; simple escape sequences; octal escape sequences of one to
three octal digits (longest match); hexadecimal escapes.  Bytes are characters
with code below 256.
-/
namespace Verif.Spec

/-- Octal digit. -/
def octal? (c : Char) : Option Nat :=
  if 48 ≤ c.toNat ∧ c.toNat ≤ 55 then some (c.toNat - 48) else none

/-- Simple escape sequences, [lex.ccon] table. -/
def simpleEscape? (c : Char) : Option Char :=
  if c = '\'' then some '\''
  else if c = '"' then some '"'
  else if c = '?' then some '?'
  else if c = '\\' then some '\\'
  else if c = 'a' then some (Char.ofNat 7)
  else if c = 'b' then some (Char.ofNat 8)
  else if c = 'f' then some (Char.ofNat 12)
  else if c = 'n' then some (Char.ofNat 10)
  else if c = 'r' then some (Char.ofNat 13)
  else if c = 't' then some (Char.ofNat 9)
  else if c = 'v' then some (Char.ofNat 11)
  else none

/-- Value and length of the octal escape at the start of the text (up to three
digits, longest match). -/
def octalEscape : Str → Option (Nat × Nat)
  | a :: rest =>
    match octal? a with
    | none => none
    | some x =>
      match rest with
      | [] => some (x, 1)
      | b :: rest' =>
        match octal? b with
        | none => some (x, 1)
        | some y =>
          match rest' with
          | [] => some (x * 8 + y, 2)
          | c :: _ =>
            match octal? c with
            | none => some (x * 8 + y, 2)
            | some z => some (x * 64 + y * 8 + z, 3)
  | [] => none

/-- `Reads text bytes rest`: after the opening quote, `text` is a literal body
denoting `bytes`, its closing quote, and then `rest`. -/
inductive Reads : Str → Str → Str → Prop where
  | close (rest) : Reads ('"' :: rest) [] rest
  | plain (c t bs rest) : c ≠ '"' → c ≠ '\\' → c ≠ '\n' → Reads t bs rest →
      Reads (c :: t) (c :: bs) rest
  | simple (c x t bs rest) : simpleEscape? c = some x → Reads t bs rest →
      Reads ('\\' :: c :: t) (x :: bs) rest
  | octal (t v k bs rest) : octalEscape t = some (v, k) → v < 256 →
      Reads (t.drop k) bs rest → Reads ('\\' :: t) (Char.ofNat v :: bs) rest

end Verif.Spec
