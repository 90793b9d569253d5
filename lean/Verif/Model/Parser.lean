import Verif.Lemmas.Tokenizer
/-!
# Annotation parser (src/annotations/parser.cpp:129-232)
-/
namespace Verif

/-- `Parser::Error::Kind`, include/genpybind/annotations/parser.h:53-57. -/
inductive ParseErrorKind where
  | invalidToken | missingClosingParen | invalidAnnotation
  deriving DecidableEq, Repr

/-- `Parser::Error`, include/genpybind/annotations/parser.h:51-78. -/
structure ParseError where
  kind : ParseErrorKind
  token : Str
  deriving DecidableEq, Repr

/-- `Parser::parseAnnotationValue`, src/annotations/parser.cpp:209-225. -/
def parseAnnotationValue (t : Tokenizer) : LiteralValue × Tokenizer :=
  if t.tokenKind = .literal then
    (t.consume.1.value, t.consume.2)
  else if t.tokenKind = .identifier then
    let text := t.consume.1.text
    let value : LiteralValue :=
      if text = t%"true" then .boolean true
      else if text = t%"false" then .boolean false
      else if text = t%"default" then .default
      else .string text
    (value, t.consume.2)
  else
    (.nothing, t)

/-- `Parser::skipComma`, src/annotations/parser.cpp:227-232. -/
def skipComma (t : Tokenizer) : Bool × Tokenizer :=
  if t.tokenKind ≠ .comma then (false, t) else (true, t.consume.2)

theorem parseAnnotationValue_le (t : Tokenizer) :
    (parseAnnotationValue t).2.text.length ≤ t.text.length := by
  unfold parseAnnotationValue
  repeat' split
  all_goals simp [Tokenizer.consume, tokenize_le]

theorem skipComma_lt {t : Tokenizer} (h : (skipComma t).1 = true) :
    (skipComma t).2.text.length < t.text.length := by
  unfold skipComma at *
  split at h
  · simp at h
  · rename_i hk
    rw [if_neg hk]
    apply tokenize_lt
    simp only [Tokenizer.tokenKind, ne_eq, Decidable.not_not] at hk
    simp [hk]

/-- The loop of `Parser::parseAnnotationArguments`, src/annotations/parser.cpp:192-197;
`acc` is the vector `arguments`. -/
def parseArgumentsLoop (t : Tokenizer) (acc : List LiteralValue) :
    List LiteralValue × Tokenizer :=
  let r := parseAnnotationValue t
  if r.1.hasValue then
    let acc' := acc ++ [r.1]
    if h : (skipComma r.2).1 = true then
      parseArgumentsLoop (skipComma r.2).2 acc'
    else (acc', r.2)
  else (acc, r.2)
termination_by t.text.length
decreasing_by
  exact Nat.lt_of_lt_of_le (skipComma_lt h) (parseAnnotationValue_le t)

/-- `Parser::parseAnnotationArguments`, src/annotations/parser.cpp:182-207. -/
def parseAnnotationArguments (t : Tokenizer) :
    Except ParseError (List LiteralValue) × Tokenizer :=
  if t.tokenKind ≠ .openingParen then (.ok [], t)
  else
    let r := parseArgumentsLoop t.consume.2 []
    let c := r.2.consume
    if c.1.kind ≠ .closingParen then
      (.error { kind := if c.1.kind = .invalid then .invalidToken else .missingClosingParen
                token := c.1.text }, c.2)
    else (.ok r.1, c.2)

/-- `Parser::parseAnnotationKind`, src/annotations/parser.cpp:169-180.
Precondition (asserted): the next token is an identifier. -/
def parseAnnotationKind (t : Tokenizer) : Except ParseError AnnotationKind × Tokenizer :=
  match AnnotationKind.ofString? t.consume.1.text with
  | some k => (.ok k, t.consume.2)
  | none => (.error { kind := .invalidAnnotation, token := t.consume.1.text }, t.consume.2)

theorem parseArgumentsLoop_le (t : Tokenizer) (acc : List LiteralValue) :
    (parseArgumentsLoop t acc).2.text.length ≤ t.text.length := by
  fun_induction parseArgumentsLoop t acc with
  | case1 t acc r hv acc' h ih =>
    exact Nat.le_trans ih (Nat.le_of_lt (Nat.lt_of_lt_of_le (skipComma_lt h)
      (parseAnnotationValue_le t)))
  | case2 => exact parseAnnotationValue_le _
  | case3 => exact parseAnnotationValue_le _

theorem parseAnnotationArguments_le (t : Tokenizer) :
    (parseAnnotationArguments t).2.text.length ≤ t.text.length := by
  unfold parseAnnotationArguments
  split
  · exact Nat.le_refl _
  · have h1 := parseArgumentsLoop_le t.consume.2 []
    have h2 : t.consume.2.text.length ≤ t.text.length := tokenize_le _
    have h3 := tokenize_le (parseArgumentsLoop t.consume.2 []).2.text
    simp only
    split <;> exact Nat.le_trans h3 (Nat.le_trans h1 h2)

theorem parseAnnotationKind_lt {t : Tokenizer} (h : t.tokenKind = .identifier) :
    (parseAnnotationKind t).2.text.length < t.text.length := by
  have : t.consume.2.text.length < t.text.length :=
    tokenize_lt (by unfold Tokenizer.tokenKind at h; simp [h])
  unfold parseAnnotationKind
  split <;> exact this

/-- `Parser::parseAnnotations(Annotations &)`, src/annotations/parser.cpp:147-167.
`annotations` is the in/out parameter; the result is the error (if any) together
with its final contents. -/
def parseAnnotationsLoop (t : Tokenizer) (annotations : List Annotation) :
    Option ParseError × List Annotation :=
  if h : t.tokenKind = .identifier then
    match hk : parseAnnotationKind t with
    | (.error e, _) => (some e, annotations)
    | (.ok kind, t1) =>
      match ha : parseAnnotationArguments t1 with
      | (.error e, _) => (some e, annotations)
      | (.ok arguments, t2) =>
        let annotations' := annotations ++ [{ kind, arguments }]
        if hc : (skipComma t2).1 = true then
          parseAnnotationsLoop (skipComma t2).2 annotations'
        else if t2.tokenKind ≠ .eof then
          (some { kind := .invalidToken, token := t2.consume.1.text }, annotations')
        else (none, annotations')
  else if t.tokenKind ≠ .eof then
    (some { kind := .invalidToken, token := t.consume.1.text }, annotations)
  else (none, annotations)
termination_by t.text.length
decreasing_by
  have h1 := parseAnnotationKind_lt h
  have h2 := parseAnnotationArguments_le t1
  have h3 := skipComma_lt hc
  rw [hk] at h1
  rw [ha] at h2
  exact Nat.lt_trans h3 (Nat.lt_of_le_of_lt h2 h1)

/-- `Parser::parseAnnotations(text, annotations)`, src/annotations/parser.cpp:137-141. -/
def parseAnnotationsInto (text : Str) (annotations : List Annotation) :
    Option ParseError × List Annotation :=
  parseAnnotationsLoop ⟨text⟩ annotations

/-- `Parser::parseAnnotations(text)`, src/annotations/parser.cpp:129-135. -/
def parseAnnotations (text : Str) : Except ParseError (List Annotation) :=
  match parseAnnotationsInto text [] with
  | (some e, _) => .error e
  | (none, annotations) => .ok annotations

end Verif
