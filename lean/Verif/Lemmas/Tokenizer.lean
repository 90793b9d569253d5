import Verif.Model.Tokenizer
/-! Helper lemmas about the tokenizer. -/
namespace Verif

theorem takeWhile_append_drop (p : Char → Bool) (l : Str) :
    l.takeWhile p ++ l.drop (l.takeWhile p).length = l := by
  induction l with
  | nil => simp
  | cons c cs ih => by_cases h : p c <;> simp [h, ih]

theorem takeWhile_append_dropWhile (p : Char → Bool) (l : Str) :
    l.takeWhile p ++ l.dropWhile p = l := List.takeWhile_append_dropWhile

theorem scanString_some {esc : Bool} {acc body s rest : Str} :
    scanString esc acc body = some (s, rest) →
      ∃ mid, s = acc ++ mid ∧ body = mid ++ '"' :: rest := by
  induction body generalizing esc acc with
  | nil => simp [scanString]
  | cons c cs ih =>
    unfold scanString
    split
    · intro h
      obtain ⟨mid, h1, h2⟩ := ih h
      exact ⟨c :: mid, by simp [h1], by simp [h2]⟩
    · split
      · rename_i hq
        intro h
        simp only [Option.some.injEq, Prod.mk.injEq] at h
        exact ⟨[], by simp [h.1], by simp [hq, h.2]⟩
      · intro h
        obtain ⟨mid, h1, h2⟩ := ih h
        exact ⟨c :: mid, by simp [h1], by simp [h2]⟩

/-- Skipped whitespace, token text and remaining text make up the input. -/
theorem tokenize_split (text : Str) :
    text = text.takeWhile isHorizontalWhitespace
      ++ (tokenize text).1.text ++ (tokenize text).2 := by
  conv => lhs; rw [← takeWhile_append_dropWhile isHorizontalWhitespace text]
  rw [List.append_assoc]
  congr 1
  unfold tokenize
  split
  · rename_i h; simp [h]
  · rename_i c cs h
    rw [h]
    repeat' split
    all_goals try simp
    · unfold tokenizeNumberLiteral
      simp only
      split <;> simp only [takeWhile_append_drop]
    · subst_vars
      unfold tokenizeStringLiteral
      split
      · rename_i h'
        obtain ⟨mid, h1, h2⟩ := scanString_some h'
        simp at h1
        simp [h1, h2]
      · simp
    · simp only [tokenizeIdentifier, takeWhile_append_drop]

theorem tokenize_text_ne_nil {text : Str} (h : (tokenize text).1.kind ≠ .eof) :
    (tokenize text).1.text ≠ [] := by
  revert h
  unfold tokenize
  split
  · simp
  · rename_i c cs h
    repeat' split
    all_goals try simp
    · unfold tokenizeNumberLiteral
      simp only
      split <;> simp [*]
    · unfold tokenizeStringLiteral
      split <;> simp
    · simp [tokenizeIdentifier, isIdentifierContinue, *]

/-- A token other than the end marker consumes input. -/
theorem tokenize_lt {text : Str} (h : (tokenize text).1.kind ≠ .eof) :
    (tokenize text).2.length < text.length := by
  have h1 := tokenize_text_ne_nil h
  have h2 := congrArg List.length (tokenize_split text)
  simp only [List.length_append] at h2
  have h3 : 0 < (tokenize text).1.text.length := List.length_pos_iff.mpr h1
  omega

theorem tokenize_le (text : Str) : (tokenize text).2.length ≤ text.length := by
  have h2 := congrArg List.length (tokenize_split text)
  simp only [List.length_append] at h2
  omega

theorem tokenize_eof_iff (text : Str) :
    (tokenize text).1.kind = .eof ↔ text.dropWhile isHorizontalWhitespace = [] := by
  unfold tokenize
  split
  · simp [*]
  · rename_i c cs h
    simp only [h, reduceCtorEq, iff_false]
    repeat' split
    all_goals try simp
    · unfold tokenizeNumberLiteral
      simp only
      split <;> simp
    · unfold tokenizeStringLiteral
      split <;> simp
    · simp [tokenizeIdentifier]

/-- The end marker consumes the whole remaining text. -/
theorem tokenize_eof_rest {text : Str} (h : (tokenize text).1.kind = .eof) :
    (tokenize text).1 = { kind := .eof, text := [] } ∧ (tokenize text).2 = [] := by
  rw [tokenize_eof_iff] at h
  unfold tokenize
  simp [h]

/-- Simulation between the eager tokenizer of the code and the on-demand one. -/
def EagerTokenizer.Sim (e : EagerTokenizer) (t : Tokenizer) : Prop :=
  e.nextToken = (tokenize t.text).1 ∧ e.text = (tokenize t.text).2

theorem EagerTokenizer.init_sim (text : Str) :
    EagerTokenizer.Sim (EagerTokenizer.init text) ⟨text⟩ := ⟨rfl, rfl⟩

theorem EagerTokenizer.consume_sim {e : EagerTokenizer} {t : Tokenizer} (h : e.Sim t) :
    e.consume.1 = t.consume.1 ∧ e.consume.2.Sim t.consume.2 := by
  obtain ⟨h1, h2⟩ := h
  refine ⟨h1, ?_, ?_⟩ <;> simp [consume, Tokenizer.consume, h2]

end Verif
