import Verif.Model.Macro
import Verif.Spec.Grammar
import Verif.Spec.CppString
import Verif.Spec.Annotations
/-!
# Specification: what is written in GENPYBIND(...)
-/
namespace Verif.Spec

/-- C++ tokens that mean something in annotations. -/
inductive Meaningful : Str → Lexeme → Prop where
  | lpar : Meaningful ['('] .lpar
  | rpar : Meaningful [')'] .rpar
  | comma : Meaningful [','] .comma
  | ident (c s) : IdStart c → (∀ x ∈ s, IdCont x) → Meaningful (c :: s) (.ident (c :: s))
  | num (ds) : ds ≠ [] → (∀ x ∈ ds, Digit x) → decimal ds < 2 ^ 32 → Meaningful ds (.num ds)
  | str (raw) : StrBody raw → Meaningful ('"' :: raw ++ ['"']) (.str raw)

/-- A character that is not white space, not part of a word, not punctuation
used in annotations. -/
def Odd (c : Char) : Prop := ¬ HSpace c ∧ ¬ IdCont c ∧ c ≠ '(' ∧ c ≠ ')' ∧ c ≠ ','

/-- All other C++ tokens: numbers that are too large; tokens starting with some
other character (operators, character literals, `.5`, non-ASCII identifiers); a
word directly followed by some other character (`u8"x"`, `R"(x)"`, `L'x'`,
identifiers with non-ASCII letters); a number with something else in it (`1.5`,
`1u`, `0x10`, `1'000`); a string literal with a suffix (`"x"s`). -/
inductive Foreign : Str → Prop where
  | tooBig (ds) : ds ≠ [] → (∀ x ∈ ds, Digit x) → 2 ^ 32 ≤ decimal ds → Foreign ds
  | other (c s) : Odd c → c ≠ '"' → Foreign (c :: s)
  | prefixed (c s d r) : IdStart c → (∀ x ∈ s, IdCont x) → Odd d → Foreign (c :: s ++ d :: r)
  | number (ds d r) : ds ≠ [] → (∀ x ∈ ds, Digit x) → Odd d ∨ IdStart d → Foreign (ds ++ d :: r)
  | suffixed (raw c r) : StrBody raw → IdStart c ∨ Odd c ∧ c ≠ '"' →
      Foreign ('"' :: raw ++ '"' :: c :: r)

/-- A token as the preprocessor delivers it: no line breaks, and quotes and
backslashes only in literals. -/
def CppToken (t : PPToken) : Prop :=
  ((∃ l, Meaningful t.spelling l) ∨ Foreign t.spelling) ∧
  (∀ c ∈ t.spelling, c ≠ '\n') ∧
  (t.literal = false → ∀ c ∈ t.spelling, c ≠ '"' ∧ c ≠ '\\')

/-- Two tokens can only be next to each other without white space if they would
not be one token then: a word or number is not followed by a letter or digit. -/
def Apart (a b : Str) : Prop :=
  ∀ p x c r, a = p ++ [x] → b = c :: r → IdCont x → ¬ IdCont c

/-- A sequence of tokens as it can appear between the parentheses. -/
inductive Written : List PPToken → Prop where
  | nil : Written []
  | one (t) : CppToken t → Written [t]
  | cons (t u ts) : CppToken t → (u.spaced = false → Apart t.spelling u.spelling) →
      Written (u :: ts) → Written (t :: u :: ts)

/-- The text as the user sees it, all white space shrunk to single blanks. -/
def asShown : List PPToken → Str
  | [] => []
  | [t] => t.spelling
  | t :: u :: ts => t.spelling ++ (if u.spaced then [' '] else []) ++ asShown (u :: ts)

/-- The text of the `annotate` attribute made by the macro: the marker, then
what the compiler reads in the string literal following it. -/
def AttributeText (ts : List PPToken) (text : Str) : Prop :=
  ∃ body bytes, annotateLiteral ts = '"' :: body ∧ Reads body bytes [] ∧ text = marker ++ bytes

/-- The lexemes written, token by token. -/
inductive Spells : List PPToken → List Lexeme → Prop where
  | nil : Spells [] []
  | cons (t ts l ls) : Meaningful t.spelling l → Spells ts ls → Spells (t :: ts) (l :: ls)

/-- What several uses of the macro on one declaration mean together. -/
inductive UsesMean : List (List PPToken) → List Annotation → Prop where
  | nil : UsesMean [] []
  | cons (ts us ls new as) : Spells ts ls → Anns ls new → UsesMean us as →
      UsesMean (ts :: us) (new ++ as)

/-- The texts of the attributes made by several uses of the macro. -/
inductive AttributeTexts : List (List PPToken) → List Str → Prop where
  | nil : AttributeTexts [] []
  | cons (ts text us texts) : AttributeText ts text → AttributeTexts us texts →
      AttributeTexts (ts :: us) (text :: texts)

/-- The same tokens, laid out in any way. -/
inductive SameTokens : List (List PPToken) → List (List PPToken) → Prop where
  | nil : SameTokens [] []
  | cons (a b as bs) : a.map (·.spelling) = b.map (·.spelling) → SameTokens as bs →
      SameTokens (a :: as) (b :: bs)

end Verif.Spec
