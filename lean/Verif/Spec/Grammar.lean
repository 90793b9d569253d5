import Verif.Model.Literal
/-!
# Specification: lexical structure and grammar of annotation texts

Independent of the tokenizer and parser model: lexemes are described by their
shape and by longest match, the grammar by inductive relations.  Only the types
of results (`LiteralValue`, `AnnotationKind`, `Annotation`) are shared.
-/
namespace Verif.Spec

/-- Horizontal white space. -/
def HSpace (c : Char) : Prop := c = ' ' ∨ c = '\t' ∨ c.toNat = 11 ∨ c.toNat = 12

/-- Decimal digits. -/
def Digit (c : Char) : Prop := 48 ≤ c.toNat ∧ c.toNat ≤ 57

/-- Characters that may start an identifier. -/
def IdStart (c : Char) : Prop :=
  (97 ≤ c.toNat ∧ c.toNat ≤ 122) ∨ (65 ≤ c.toNat ∧ c.toNat ≤ 90) ∨ c = '_'

/-- Characters that may continue an identifier. -/
def IdCont (c : Char) : Prop := IdStart c ∨ Digit c

/-- Positional decimal value. -/
def decimal : Str → Nat
  | [] => 0
  | d :: ds => (d.toNat - 48) * 10 ^ ds.length + decimal ds

/-- Body of a string literal: plain characters and backslash pairs. -/
inductive StrBody : Str → Prop where
  | nil : StrBody []
  | plain (c : Char) (s : Str) : c ≠ '"' → c ≠ '\\' → StrBody s → StrBody (c :: s)
  | escaped (c : Char) (s : Str) : StrBody s → StrBody ('\\' :: c :: s)

/-- Lexemes.  `bad` is text that is not a valid lexeme. -/
inductive Lexeme where
  | ident (s : Str)
  | str (raw : Str)
  | num (digits : Str)
  | lpar | rpar | comma
  | bad (s : Str)
  deriving DecidableEq

/-- `rest` is empty or begins with a character not satisfying `P`. -/
def NotFollowedBy (P : Char → Prop) (rest : Str) : Prop :=
  ∀ c cs, rest = c :: cs → ¬ P c

/-- `LexemeAt l txt rest`: in `txt ++ rest`, the lexeme `l` is spelled `txt`
(longest match). -/
inductive LexemeAt : Lexeme → Str → Str → Prop where
  | lpar (rest) : LexemeAt .lpar ['('] rest
  | rpar (rest) : LexemeAt .rpar [')'] rest
  | comma (rest) : LexemeAt .comma [','] rest
  | ident (c s rest) : IdStart c → (∀ x ∈ s, IdCont x) → NotFollowedBy IdCont rest →
      LexemeAt (.ident (c :: s)) (c :: s) rest
  | num (ds rest) : ds ≠ [] → (∀ x ∈ ds, Digit x) → NotFollowedBy Digit rest →
      decimal ds < 2 ^ 32 → LexemeAt (.num ds) ds rest
  | tooBig (ds rest) : ds ≠ [] → (∀ x ∈ ds, Digit x) → NotFollowedBy Digit rest →
      2 ^ 32 ≤ decimal ds → LexemeAt (.bad ds) ds rest
  | str (raw rest) : StrBody raw → LexemeAt (.str raw) ('"' :: raw ++ ['"']) rest
  | unterminated (body) : (∀ raw tail, StrBody raw → body ≠ raw ++ '"' :: tail) →
      LexemeAt (.bad ('"' :: body)) ('"' :: body) []
  | other (c rest) : ¬ HSpace c → ¬ IdCont c → c ≠ '(' → c ≠ ')' → c ≠ ',' → c ≠ '"' →
      LexemeAt (.bad [c]) [c] rest

/-- `Lexes text ls`: the text consists of the lexemes `ls`, with arbitrary
horizontal white space before each and at the end. -/
inductive Lexes : Str → List Lexeme → Prop where
  | done (ws : Str) : (∀ c ∈ ws, HSpace c) → Lexes ws []
  | step (ws txt rest : Str) (l : Lexeme) (ls : List Lexeme) :
      (∀ c ∈ ws, HSpace c) → LexemeAt l txt rest → Lexes rest ls →
      Lexes (ws ++ txt ++ rest) (l :: ls)

/-- Source text of a lexeme. -/
def Lexeme.text : Lexeme → Str
  | .ident s => s
  | .str raw => '"' :: raw ++ ['"']
  | .num ds => ds
  | .lpar => ['(']
  | .rpar => [')']
  | .comma => [',']
  | .bad s => s

/-- Documented annotation names (README.md, annotations.def). -/
def kindName : AnnotationKind → Str
  | .exposeAs => t%"expose_as"
  | .hidden => t%"hidden"
  | .visible => t%"visible"
  | .arithmetic => t%"arithmetic"
  | .exportValues => t%"export_values"
  | .getterFor => t%"getter_for"
  | .setterFor => t%"setter_for"
  | .dynamicAttr => t%"dynamic_attr"
  | .hideBase => t%"hide_base"
  | .holderType => t%"holder_type"
  | .inlineBase => t%"inline_base"
  | .implicitConversion => t%"implicit_conversion"
  | .keepAlive => t%"keep_alive"
  | .noconvert => t%"noconvert"
  | .required => t%"required"
  | .returnValuePolicy => t%"return_value_policy"
  | .manual => t%"manual"
  | .postamble => t%"postamble"
  | .module => t%"module"
  | .onlyExposeIn => t%"only_expose_in"
  | .exposeHere => t%"expose_here"
  | .encourage => t%"encourage"
  | .readonly => t%"readonly"

/-- Meaning of a lexeme used as an argument. -/
inductive Value : Lexeme → LiteralValue → Prop where
  | str (raw) : Value (.str raw) (.string raw)
  | num (ds) : Value (.num ds) (.unsigned (decimal ds))
  | tru : Value (.ident t%"true") (.boolean true)
  | fls : Value (.ident t%"false") (.boolean false)
  | dflt : Value (.ident t%"default") .default
  | word (s) : s ≠ t%"true" → s ≠ t%"false" → s ≠ t%"default" → Value (.ident s) (.string s)

/-- Comma separated values, trailing comma allowed. -/
inductive Values : List Lexeme → List LiteralValue → Prop where
  | nil : Values [] []
  | last (l v) : Value l v → Values [l] [v]
  | cons (l v ls vs) : Value l v → Values ls vs → Values (l :: .comma :: ls) (v :: vs)

/-- Optional argument list. -/
inductive Args : List Lexeme → List LiteralValue → Prop where
  | omitted : Args [] []
  | parens (ls vs) : Values ls vs → Args (.lpar :: ls ++ [.rpar]) vs

/-- One annotation. -/
inductive Ann : List Lexeme → Annotation → Prop where
  | mk (k ls vs) : Args ls vs → Ann (.ident (kindName k) :: ls) ⟨k, vs⟩

/-- Comma separated annotations, trailing comma allowed. -/
inductive Anns : List Lexeme → List Annotation → Prop where
  | nil : Anns [] []
  | last (ls a) : Ann ls a → Anns ls [a]
  | cons (ls a ls' as) : Ann ls a → Anns ls' as → Anns (ls ++ .comma :: ls') (a :: as)

end Verif.Spec
