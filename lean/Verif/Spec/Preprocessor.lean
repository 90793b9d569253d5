import Verif.Model.Preprocessor
/-!
# Source code that uses the macros of genpybind.h
-/
namespace Verif.Spec

/-- Source code: tokens that are not macros, code in parentheses and uses of the macros, which can
be nested in any way.  The flags tell where there is white space. -/
inductive Source where
  | nil
  | token (t : PPToken) (rest : Source)
  | group (opening closing : Bool) (inner rest : Source)
  /-- `GENPYBIND(inner)` -/
  | annotate (spaced opening closing : Bool) (inner rest : Source)
  /-- `GENPYBIND_MANUAL(inner)` -/
  | manual (spaced opening closing : Bool) (inner rest : Source)
  /-- `GENPYBIND_PARENT_TYPE` -/
  | parentType (spaced : Bool) (rest : Source)
  deriving DecidableEq, Repr

/-- A token of the source code. -/
def tok (s : Str) (spaced : Bool := false) : PPToken := { spelling := s, spaced }

/-- What has been written. -/
def Source.tokens : Source → List PPToken
  | .nil => []
  | .token t rest => t :: rest.tokens
  | .group a b inner rest => tok ['('] a :: inner.tokens ++ tok [')'] b :: rest.tokens
  | .annotate s a b inner rest =>
    tok t%"GENPYBIND" s :: tok ['('] a :: inner.tokens ++ tok [')'] b :: rest.tokens
  | .manual s a b inner rest =>
    tok t%"GENPYBIND_MANUAL" s :: tok ['('] a :: inner.tokens ++ tok [')'] b :: rest.tokens
  | .parentType s rest => tok t%"GENPYBIND_PARENT_TYPE" s :: rest.tokens

/-- The tokens, other than in parentheses, are no parentheses and no macros. -/
def Source.Plain (macros : Macros) : Source → Prop
  | .nil => True
  | .token t rest => (t.spelling ≠ ['('] ∧ t.spelling ≠ [')'] ∧ macros t.spelling = none) ∧ rest.Plain macros
  | .group _ _ inner rest => inner.Plain macros ∧ rest.Plain macros
  | .annotate _ _ _ inner rest => inner.Plain macros ∧ rest.Plain macros
  | .manual _ _ _ inner rest => inner.Plain macros ∧ rest.Plain macros
  | .parentType _ rest => rest.Plain macros

/-- The source code without any annotations: nothing remains of uses of `GENPYBIND` and
`GENPYBIND_MANUAL`. -/
def Source.stripped : Source → Source
  | .nil => .nil
  | .token t rest => .token t rest.stripped
  | .group a b inner rest => .group a b inner.stripped rest.stripped
  | .annotate _ _ _ _ rest => rest.stripped
  | .manual _ _ _ _ rest => rest.stripped
  | .parentType s rest => .parentType s rest.stripped

/-- White space at the beginning. -/
def startsWith (spaced : Bool) : List PPToken → List PPToken
  | [] => []
  | t :: ts => { t with spaced } :: ts

/-- The attribute for an annotation. -/
def attributeTokens (spaced : Bool) (inner : List PPToken) : List PPToken :=
  [tok t%"__attribute__" spaced, tok ['('], tok ['('], tok t%"annotate", tok ['('],
    { spelling := t%"\"\xe2\x97\x8a\"", literal := true },
    { spelling := annotateLiteral inner, literal := true, spaced := true },
    tok [')'], tok [')'], tok [')']]

/-- The name of the variable for a manual binding. -/
def variableName (k : Nat) : Str := t%"genpybind_" ++ Nat.toDigits 10 k

/-- The variable for a manual binding: a lambda. -/
def variableTokens (spaced : Bool) (k : Nat) (inner : List PPToken) : List PPToken :=
  [tok t%"static" spaced, tok t%"constexpr" true, tok t%"auto" true,
    tok t%"__attribute__" true, tok ['('], tok ['('], tok t%"unused", tok [')'], tok [')']] ++
  attributeTokens true [tok t%"manual"] ++
  [tok (variableName k) true, tok ['='] true, tok ['['] true, tok [']'], tok ['('], tok t%"auto",
    tok ['&'] true, tok t%"parent", tok [')']] ++ startsWith true inner ++ [tok [';']]

/-- The type of the object the binding is for. -/
def parentTypeTokens (spaced : Bool) : List PPToken :=
  [tok t%"typename" spaced, tok t%"std" true, tok t%"::", tok t%"remove_reference_t", tok ['<'], tok t%"decltype",
    tok ['('], tok t%"parent", tok [')'], tok ['>'], tok t%"::", tok t%"type"]

/-- What the compiler is supposed to see when the tool reads the file; variables are numbered
beginning with `k`.  Also gives the next number. -/
def Source.seen (k : Nat) : Source → List PPToken × Nat
  | .nil => ([], k)
  | .token t rest => (t :: (rest.seen k).1, (rest.seen k).2)
  | .group a b inner rest =>
    let i := inner.seen k
    let r := rest.seen i.2
    (tok ['('] a :: i.1 ++ tok [')'] b :: r.1, r.2)
  | .annotate s _ _ inner rest =>
    let i := inner.seen k
    let r := rest.seen i.2
    (attributeTokens s i.1 ++ r.1, r.2)
  | .manual s _ _ inner rest =>
    let i := inner.seen k
    let r := rest.seen (i.2 + 1)
    (variableTokens s i.2 i.1 ++ r.1, r.2)
  | .parentType s rest => (parentTypeTokens s ++ (rest.seen k).1, (rest.seen k).2)

/-- The number of manual bindings. -/
def Source.manuals : Source → Nat
  | .nil => 0
  | .token _ rest => rest.manuals
  | .group _ _ inner rest => inner.manuals + rest.manuals
  | .annotate _ _ _ inner rest => inner.manuals + rest.manuals
  | .manual _ _ _ inner rest => inner.manuals + 1 + rest.manuals
  | .parentType _ rest => rest.manuals

/-- All tokens other than parentheses and the macros. -/
def Source.own : Source → List PPToken
  | .nil => []
  | .token t rest => t :: rest.own
  | .group _ _ inner rest => inner.own ++ rest.own
  | .annotate _ _ _ inner rest => inner.own ++ rest.own
  | .manual _ _ _ inner rest => inner.own ++ rest.own
  | .parentType _ rest => rest.own

/-- The macros are not used. -/
def Source.Unannotated : Source → Prop
  | .nil => True
  | .token _ rest => rest.Unannotated
  | .group _ _ inner rest => inner.Unannotated ∧ rest.Unannotated
  | .annotate .. => False
  | .manual .. => False
  | .parentType .. => False

/-- The expansion of these tokens is `out`, no matter how many steps it takes. -/
def ExpandsTo (macros : Macros) (counter : Nat) (ts : List MacroToken) (out : List PPToken) (next : Nat) : Prop :=
  (∃ n r, expandMacros macros n counter ts = some r) ∧
  ∀ n r, expandMacros macros n counter ts = some r → r.1.map (·.tok) = out ∧ r.2 = next

/-- Tokens read from a file. -/
def fromFile (ts : List PPToken) : List MacroToken := ts.map fun t => { tok := t }

/-- The macros are those of the header, the predefined `__COUNTER__` and others; the words used by the
header are no macros. -/
structure Includes (header : List (Str × Macro)) (macros : Macros) : Prop where
  defined : ∀ p ∈ header, macros p.1 = some p.2
  counter : macros t%"__COUNTER__" = some .counter
  words : ∀ w ∈ [t%"(", t%")", t%",", t%"__attribute__", t%"annotate", t%"static", t%"constexpr", t%"auto",
    t%"unused", t%"manual", t%"genpybind_", t%"=", t%"[", t%"]", t%"&", t%"parent", t%";", t%"typename", t%"std",
    t%"::", t%"remove_reference_t", t%"<", t%"decltype", t%">", t%"type"], macros w = none
  /-- literals are no macros -/
  literals : ∀ s, macros ('"' :: s) = none
  /-- nor are the names of the variables -/
  variables : ∀ k, macros (variableName k) = none

end Verif.Spec
