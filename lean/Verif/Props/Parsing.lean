import Verif.Lemmas.Grammar
/-!
# C01, C02, C03, C05: tokenizing and parsing annotation texts
-/
namespace Verif
open Spec

/-! ### C01 -/

/-- Tokens of a text with the white space skipped before each of them, obtained
by calling `consume` on the (eager, as in the code) tokenizer `n` times. -/
def pull : Nat → EagerTokenizer → List Token × EagerTokenizer
  | 0, t => ([], t)
  | n + 1, t => let r := pull n t.consume.2; (t.consume.1 :: r.1, r.2)

/-- C01: every text splits into exactly one sequence of lexemes separated by
horizontal white space (in particular tokenizing terminates and loses nothing:
`Lexes` reconstructs the text byte for byte), and every lexeme is non-empty. -/
theorem C01_lexes_existsUnique (text : Str) :
    (∃ ls, Lexes text ls ∧ (∀ l ∈ ls, l.text ≠ []) ∧ ls.length ≤ text.length) ∧
    (∀ ls ls', Lexes text ls → Lexes text ls' → ls = ls') := by
  refine ⟨⟨lexAll text, lexes_lexAll text, ?_, ?_⟩, ?_⟩
  · have h := lexes_lexAll text
    generalize lexAll text = ls at h
    induction h with
    | done => simp
    | step ws txt rest l ls _ hl _ ih =>
      intro l' hl'
      simp at hl'
      rcases hl' with rfl | hl'
      · rw [← hl.text_eq]; exact hl.ne_nil
      · exact ih l' hl'
  · have h := lexes_lexAll text
    generalize lexAll text = ls at h
    induction h with
    | done => simp
    | step ws txt rest l ls _ hl _ ih =>
      have := List.length_pos_iff.mpr hl.ne_nil
      simp; omega
  · intro ls ls' h h'
    rw [← lexAll_of_lexes h, ← lexAll_of_lexes h']

theorem pull_of_lexes {text : Str} {ls : List Lexeme} (h : Lexes text ls) (k : Nat) :
    (pull (ls.length + k) (.init text)).1.map (fun t => (t.kind, t.text)) =
      ls.map (fun l => ((tokenOf l).kind, l.text)) ++ List.replicate k (.eof, []) := by
  induction h generalizing k with
  | done ws hws =>
    have heof : ∀ ws : Str, (∀ c ∈ ws, HSpace c) →
        tokenize ws = ({ kind := .eof, text := [] }, []) := by
      intro ws hws
      have : ws.dropWhile isHorizontalWhitespace = [] := by
        simpa using dropWhile_spec isHSpace_iff ws [] hws (by intro c cs h; simp at h)
      unfold tokenize
      rw [this]
    have key : ∀ k, ∀ t : EagerTokenizer, t.nextToken = { kind := .eof, text := [] } → t.text = [] →
        (pull k t).1.map (fun t => (t.kind, t.text)) = List.replicate k (.eof, []) := by
      intro k
      induction k with
      | zero => intro t _ _; rfl
      | succ k ih =>
        intro t h1 h2
        have := heof [] (by simp)
        simp only [pull, EagerTokenizer.consume, List.map_cons, h1, List.replicate_succ]
        congr 1
        apply ih <;> simp [h2, this]
    have := heof ws hws
    simpa using key k (.init ws) (by simp [EagerTokenizer.init, this])
      (by simp [EagerTokenizer.init, this])
  | step ws txt rest l ls hws hl _ ih =>
    have ht := tokenize_of_lexemeAt hws hl
    have e : (EagerTokenizer.init (ws ++ txt ++ rest)).consume = (tokenOf l, .init rest) := by
      simp only [EagerTokenizer.init, EagerTokenizer.consume, ht]
    have : (l :: ls).length + k = (ls.length + k) + 1 := by simp; omega
    rw [this]
    simp only [pull, e, List.map_cons, ih k, tokenOf_text, List.cons_append]

/-- C01: calling the tokenizer repeatedly yields exactly the lexemes of the text
(one token each, with its text), then end markers forever. -/
theorem C01_tokens (text : Str) (ls : List Lexeme) (h : Lexes text ls) (k : Nat) :
    (pull (ls.length + k) (.init text)).1.map (fun t => (t.kind, t.text)) =
      ls.map (fun l => (match l with
        | .ident _ => .identifier | .str _ => .literal | .num _ => .literal
        | .lpar => .openingParen | .rpar => .closingParen | .comma => .comma
        | .bad _ => .invalid, l.text)) ++ List.replicate k (TokenKind.eof, []) := by
  rw [pull_of_lexes h k]
  congr 1
  apply List.map_congr_left
  intro l _
  cases l <;> rfl

example : Lexes t%" a(1)" [.ident t%"a", .lpar, .num t%"1", .rpar] := by
  have := lexes_lexAll t%" a(1)"
  have e : lexAll t%" a(1)" = [.ident t%"a", .lpar, .num t%"1", .rpar] := by
    decide +kernel
  rwa [e] at this

/-! ### C02 -/

/-- C02: parsing succeeds with `as` iff the text lexes to a derivation of `as`. -/
theorem C02_parse_iff_grammar (text : Str) (as : List Annotation) :
    parseAnnotations text = .ok as ↔ ∃ ls, Lexes text ls ∧ Anns ls as := by
  unfold parseAnnotations
  rw [parseAnnotationsInto_eq]
  simp only [List.nil_append]
  constructor
  · intro h
    refine ⟨lexAll text, lexes_lexAll text, ?_⟩
    rw [← pAnns_none_iff]
    split at h
    · cases h
    · rename_i he
      simp only [Except.ok.injEq] at h
      subst h
      exact he
  · rintro ⟨ls, h1, h2⟩
    rw [lexAll_of_lexes h1, pAnns_ok h2]

example : Anns [.ident t%"visible", .comma, .ident t%"expose_as", .lpar, .str t%"x", .comma, .rpar]
    [⟨.visible, []⟩, ⟨.exposeAs, [.string t%"x"]⟩] :=
  .cons [.ident t%"visible"] ⟨.visible, []⟩ _ _ (.mk .visible _ _ .omitted)
    (.last _ _ (.mk .exposeAs _ _ (.parens [.str t%"x", .comma] _
      (.cons _ _ _ _ (.str _) .nil))))

/-! ### C03 -/

/-- C03: what was in the list before stays in front; on success the new part is
the derived one; on failure the appended annotations are derived from a prefix
of the lexemes, the reported token lies after that prefix (or is empty: end of
text), and no annotation completed before that point is lost. -/
theorem C03_prior_kept (text : Str) (prior : List Annotation) (ls : List Lexeme)
    (hl : Lexes text ls) :
    ∃ new, (parseAnnotationsInto text prior).2 = prior ++ new ∧
      (∃ done rest, ls = done ++ rest ∧ Anns done new ∧
        match (parseAnnotationsInto text prior).1 with
        | none => rest = []
        | some e => (e.token = [] ∨ ∃ l ∈ rest, e.token = l.text) ∧ ¬ ∃ as, Anns ls as) ∧
      (∀ done rest as, ls = done ++ rest → Anns done as → (∀ r, rest ≠ .lpar :: r) →
        as <+: new) := by
  rw [parseAnnotationsInto_eq, lexAll_of_lexes hl]
  refine ⟨(pAnns ls).2, rfl, ?_, ?_⟩
  · obtain ⟨pre, rest, h1, h2, h3⟩ := pAnns_sound ls
    refine ⟨pre, rest, h1, h2, ?_⟩
    simp only
    split at h3
    · rename_i h; rw [h]; exact h3
    · rename_i e h
      rw [h]
      refine ⟨h3, ?_⟩
      rintro ⟨as, has⟩
      rw [pAnns_ok has] at h
      cases h
  · intro done rest as h1 h2 h3
    rw [h1]
    exact pAnns_maximal h2 rest h3

example : ∃ ls, Lexes t%"visible, hidden(" ls ∧
    (parseAnnotationsInto t%"visible, hidden(" []).1 = some ⟨.missingClosingParen, []⟩ ∧
    (parseAnnotationsInto t%"visible, hidden(" []).2 = [⟨.visible, []⟩] :=
  ⟨_, lexes_lexAll _, by decide +kernel, by decide +kernel⟩

/-! ### C05 -/

/-- C05: a maximal digit sequence yields exactly its decimal value if that is
below 2^32, and an invalid token otherwise; in both cases the rest of the text
is left untouched. -/
theorem C05_integers_exact (ws ds rest : Str) (hws : ∀ c ∈ ws, HSpace c) (hne : ds ≠ [])
    (hd : ∀ c ∈ ds, Digit c) (hr : NotFollowedBy Digit rest) :
    tokenize (ws ++ ds ++ rest) =
      (if decimal ds < 2 ^ 32
        then { kind := .literal, text := ds, value := .unsigned (decimal ds) }
        else { kind := .invalid, text := ds }, rest) := by
  split
  · rename_i h
    exact tokenize_of_lexemeAt hws (.num ds rest hne hd hr h)
  · rename_i h
    exact tokenize_of_lexemeAt hws (.tooBig ds rest hne hd hr (by omega))

/-- C05: every unsigned argument of a successfully parsed text is the decimal
value of a digit sequence of that text, and fits 32 bits. -/
theorem C05_arguments_exact (text : Str) (as : List Annotation) (ls : List Lexeme)
    (hl : Lexes text ls) (h : parseAnnotations text = .ok as) (a : Annotation) (ha : a ∈ as)
    (n : Nat) (hn : .unsigned n ∈ a.arguments) :
    n < 2 ^ 32 ∧ ∃ ds, Lexeme.num ds ∈ ls ∧ n = decimal ds := by
  have hlt : ∀ ds, Lexeme.num ds ∈ ls → decimal ds < 2 ^ 32 := by
    clear h
    induction hl with
    | done => intro ds h; simp at h
    | step ws txt rest l ls _ hl' _ ih =>
      intro ds h
      simp at h
      rcases h with h | h
      · subst h; cases hl'; assumption
      · exact ih ds h
  have hv : ∀ ls vs, Values ls vs → .unsigned n ∈ vs →
      ∃ ds, Lexeme.num ds ∈ ls ∧ n = decimal ds := by
    intro ls vs h
    induction h with
    | nil => simp
    | last l v h => intro hm; simp at hm; subst hm; cases h; exact ⟨_, by simp, rfl⟩
    | cons l v ls vs h _ ih =>
      intro hm
      simp at hm
      rcases hm with hm | hm
      · subst hm; cases h; exact ⟨_, by simp, rfl⟩
      · obtain ⟨ds, h1, h2⟩ := ih hm
        exact ⟨ds, by simp [h1], h2⟩
  have hann : ∀ ls (a : Annotation), Ann ls a → .unsigned n ∈ a.arguments →
      ∃ ds, Lexeme.num ds ∈ ls ∧ n = decimal ds := by
    intro ls a h hm
    obtain ⟨k, ls, vs, h⟩ := h
    cases h with
    | omitted => simp at hm
    | parens ls vs h =>
      obtain ⟨ds, h1, h2⟩ := hv _ _ h hm
      exact ⟨ds, by simp [h1], h2⟩
  have hex : ∃ ds, Lexeme.num ds ∈ ls ∧ n = decimal ds := by
    rw [C02_parse_iff_grammar] at h
    obtain ⟨ls', hl', h⟩ := h
    have := (C01_lexes_existsUnique text).2 ls ls' hl hl'
    subst this
    clear hl hl' hlt
    induction h with
    | nil => simp at ha
    | last ls a' h => simp at ha; subst ha; exact hann _ _ h hn
    | cons ls a' ls' as h _ ih =>
      simp at ha
      rcases ha with rfl | ha
      · obtain ⟨ds, h1, h2⟩ := hann _ _ h hn
        exact ⟨ds, by simp [h1], h2⟩
      · obtain ⟨ds, h1, h2⟩ := ih ha
        exact ⟨ds, by simp [h1], h2⟩
  obtain ⟨ds, h1, rfl⟩ := hex
  exact ⟨hlt ds h1, ds, h1, rfl⟩

example : NotFollowedBy Digit t%", 5" ∧ decimal t%"4294967295" < 2 ^ 32 ∧
    ¬ decimal t%"4294967296" < 2 ^ 32 := by
  refine ⟨?_, by decide +kernel, by decide +kernel⟩
  intro c cs h
  cases h
  simp [Digit]

end Verif
