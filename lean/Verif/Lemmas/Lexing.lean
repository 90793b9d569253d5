import Verif.Lemmas.Tokenizer
import Verif.Spec.Grammar
/-! The tokenizer model agrees with the lexical specification. -/
namespace Verif
open Spec

theorem char_le_iff (a b : Char) : (a ≤ b) ↔ a.toNat ≤ b.toNat := Iff.rfl

theorem char_eq_iff (a b : Char) : a = b ↔ a.toNat = b.toNat :=
  ⟨fun h => h ▸ rfl, fun h => Char.toNat_inj.mp h⟩

theorem isDigit_iff (c : Char) : isDigit c = true ↔ Digit c := by
  simp [isDigit, Digit, char_le_iff]

theorem isHSpace_iff (c : Char) : isHorizontalWhitespace c = true ↔ HSpace c := by
  simp only [isHorizontalWhitespace, HSpace, Bool.or_eq_true, decide_eq_true_eq, char_eq_iff]
  simp only [Char.reduceToNat]
  omega

theorem isIdStart_iff (c : Char) : isIdentifierStart c = true ↔ IdStart c := by
  simp [isIdentifierStart, IdStart, char_le_iff, or_assoc]

theorem isIdCont_iff (c : Char) : isIdentifierContinue c = true ↔ IdCont c := by
  simp [isIdentifierContinue, IdCont, isDigit_iff, isIdStart_iff]

theorem takeWhile_spec {p : Char → Bool} {P : Char → Prop} (hp : ∀ c, p c = true ↔ P c)
    (txt rest : Str) (h1 : ∀ c ∈ txt, P c) (h2 : NotFollowedBy P rest) :
    (txt ++ rest).takeWhile p = txt := by
  induction txt with
  | nil =>
    cases rest with
    | nil => rfl
    | cons c cs =>
      have : ¬ P c := h2 c cs rfl
      simp [Bool.eq_false_iff.mpr (fun h => this ((hp c).1 h))]
  | cons c cs ih =>
    have : p c = true := (hp c).2 (h1 c (by simp))
    simp [this, ih (fun x hx => h1 x (by simp [hx]))]

theorem dropWhile_spec {p : Char → Bool} {P : Char → Prop} (hp : ∀ c, p c = true ↔ P c)
    (txt rest : Str) (h1 : ∀ c ∈ txt, P c) (h2 : NotFollowedBy P rest) :
    (txt ++ rest).dropWhile p = rest := by
  induction txt with
  | nil =>
    cases rest with
    | nil => rfl
    | cons c cs =>
      have : ¬ P c := h2 c cs rfl
      simp [Bool.eq_false_iff.mpr (fun h => this ((hp c).1 h))]
  | cons c cs ih =>
    have : p c = true := (hp c).2 (h1 c (by simp))
    simp [this, ih (fun x hx => h1 x (by simp [hx]))]

theorem takeWhile_all {p : Char → Bool} {P : Char → Prop} (hp : ∀ c, p c = true ↔ P c)
    (l : Str) : ∀ c ∈ l.takeWhile p, P c := by
  intro c hc
  induction l with
  | nil => simp at hc
  | cons x xs ih =>
    by_cases h : p x
    · simp only [h, List.takeWhile_cons_of_pos, List.mem_cons] at hc
      rcases hc with rfl | hc
      · exact (hp _).1 h
      · exact ih hc
    · simp [h] at hc

theorem drop_takeWhile_notFollowed {p : Char → Bool} {P : Char → Prop}
    (hp : ∀ c, p c = true ↔ P c) (l : Str) :
    NotFollowedBy P (l.drop (l.takeWhile p).length) := by
  induction l with
  | nil => intro c cs h; simp at h
  | cons x xs ih =>
    by_cases h : p x
    · simpa [h] using ih
    · intro c cs hc
      simp [h] at hc
      obtain ⟨rfl, -⟩ := hc
      exact fun hP => h ((hp _).2 hP)

/-! ### Numbers -/

theorem foldl_accumulateDigit_none (ds : Str) : ds.foldl accumulateDigit none = none := by
  induction ds with
  | nil => rfl
  | cons d ds ih => simpa [accumulateDigit] using ih

theorem accumulateDigit_some {prev : Nat} (h : prev < 2 ^ 64) {c : Char} (hc : Digit c) :
    accumulateDigit (some prev) c =
      if prev * 10 + (c.toNat - 48) < 2 ^ 64 then some (prev * 10 + (c.toNat - 48)) else none := by
  obtain ⟨h1, h2⟩ := hc
  have : '0'.toNat = 48 := rfl
  simp only [accumulateDigit, this]
  split <;> split
  · exfalso; omega
  · rfl
  · congr 1; omega
  · exfalso; omega

theorem foldl_accumulateDigit {ds : Str} (hd : ∀ x ∈ ds, Digit x) {v : Nat} (hv : v < 2 ^ 64) :
    ds.foldl accumulateDigit (some v) =
      if v * 10 ^ ds.length + decimal ds < 2 ^ 64 then some (v * 10 ^ ds.length + decimal ds)
      else none := by
  induction ds generalizing v with
  | nil => simp [decimal, hv]
  | cons d ds ih =>
    have hd' : Digit d := hd d (by simp)
    have ihd := ih (fun x hx => hd x (by simp [hx])) (v := v * 10 + (d.toNat - 48))
    rw [List.foldl_cons, accumulateDigit_some hv hd']
    have e : v * 10 ^ (d :: ds).length + decimal (d :: ds)
        = (v * 10 + (d.toNat - 48)) * 10 ^ ds.length + decimal ds := by
      simp only [List.length_cons, decimal, Nat.pow_succ, Nat.add_mul]
      rw [Nat.mul_assoc v 10, Nat.mul_comm 10]
      omega
    split
    · rename_i hlt
      rw [ihd hlt, e]
    · rename_i hge
      rw [foldl_accumulateDigit_none, if_neg]
      rw [e]
      have : (v * 10 + (d.toNat - 48)) ≤ (v * 10 + (d.toNat - 48)) * 10 ^ ds.length :=
        Nat.le_mul_of_pos_right _ (Nat.pow_pos (by omega))
      omega

theorem getAsUnsigned32_spec {ds : Str} (hne : ds ≠ []) (hd : ∀ x ∈ ds, Digit x) :
    getAsUnsigned32 ds = if decimal ds < 2 ^ 32 then some (decimal ds) else none := by
  have h := foldl_accumulateDigit hd (v := 0) (by omega)
  simp only [Nat.zero_mul, Nat.zero_add] at h
  unfold getAsUnsigned32
  split
  · exact absurd rfl hne
  · rw [h]
    split
    · rename_i h'
      split at h'
      · simp at h'
      · rw [if_neg]; omega
    · rename_i v h'
      split at h'
      · simp only [Option.some.injEq] at h'
        subst h'
        split <;> split
        · omega
        · rfl
        · congr 1; omega
        · omega
      · simp at h'

/-! ### Strings -/

theorem scanString_body {raw : Str} (h : StrBody raw) (acc rest : Str) :
    scanString false acc (raw ++ '"' :: rest) = some (acc ++ raw, rest) := by
  induction h generalizing acc with
  | nil => simp [scanString]
  | plain c s h1 h2 _ ih => simp [scanString, h1, h2, ih]
  | escaped c s _ ih => simp [scanString, ih]

theorem scanString_sound {body s rest acc : Str} :
    scanString false acc body = some (s, rest) →
      ∃ raw, StrBody raw ∧ s = acc ++ raw ∧ body = raw ++ '"' :: rest := by
  generalize hn : body.length = n
  induction n using Nat.strongRecOn generalizing body acc with
  | ind n ih =>
    cases body with
    | nil => simp [scanString]
    | cons c cs =>
      unfold scanString
      simp only [Bool.false_or, decide_eq_true_eq, Bool.not_false]
      split
      · rename_i hc
        subst hc
        cases cs with
        | nil => simp [scanString]
        | cons d ds =>
          unfold scanString
          simp only [Bool.true_or, ↓reduceIte, Bool.not_true]
          intro h
          obtain ⟨raw, h1, h2, h3⟩ := ih ds.length (by simp at hn; omega) rfl h
          exact ⟨'\\' :: d :: raw, .escaped _ _ h1, by simp [h2], by simp [h3]⟩
      · split
        · rename_i hq
          intro h
          simp only [Option.some.injEq, Prod.mk.injEq] at h
          exact ⟨[], .nil, by simp [h.1], by simp [hq, h.2]⟩
        · rename_i h1 h2
          intro h
          obtain ⟨raw, g1, g2, g3⟩ := ih cs.length (by simp at hn; omega) rfl h
          exact ⟨c :: raw, .plain _ _ h2 h1 g1, by simp [g2], by simp [g3]⟩

theorem scanString_none_iff (body : Str) :
    scanString false [] body = none ↔ ∀ raw tail, StrBody raw → body ≠ raw ++ '"' :: tail := by
  constructor
  · intro h raw tail hr hb
    rw [hb, scanString_body hr] at h
    simp at h
  · intro h
    cases hs : scanString false [] body with
    | none => rfl
    | some p =>
      obtain ⟨s, rest⟩ := p
      obtain ⟨raw, h1, -, h3⟩ := scanString_sound hs
      exact absurd h3 (h raw rest h1)

/-! ### Tokens and lexemes -/

/-- The token the tokenizer produces for a lexeme. -/
def tokenOf : Lexeme → Token
  | .ident s => { kind := .identifier, text := s }
  | .str raw => { kind := .literal, text := '"' :: raw ++ ['"'], value := .string raw }
  | .num ds => { kind := .literal, text := ds, value := .unsigned (decimal ds) }
  | .lpar => { kind := .openingParen, text := ['('] }
  | .rpar => { kind := .closingParen, text := [')'] }
  | .comma => { kind := .comma, text := [','] }
  | .bad s => { kind := .invalid, text := s }

theorem tokenOf_kind_ne_eof (l : Lexeme) : (tokenOf l).kind ≠ .eof := by
  cases l <;> simp [tokenOf]

theorem tokenOf_text (l : Lexeme) : (tokenOf l).text = l.text := by
  cases l <;> simp [tokenOf, Lexeme.text]

theorem Spec.LexemeAt.ne_nil {l txt rest} (h : LexemeAt l txt rest) : txt ≠ [] := by
  cases h <;> simp_all

theorem Spec.LexemeAt.text_eq {l txt rest} (h : LexemeAt l txt rest) : txt = l.text := by
  cases h <;> simp [Lexeme.text]

theorem Spec.LexemeAt.head_not_space {l txt rest} (h : LexemeAt l txt rest) :
    ∀ c cs, txt = c :: cs → ¬ HSpace c := by
  intro c cs e
  have key : ∀ c : Char, HSpace c → c.toNat = 32 ∨ c.toNat = 9 ∨ c.toNat = 11 ∨ c.toNat = 12 := by
    intro c hc; simp only [HSpace, char_eq_iff, Char.reduceToNat] at hc; exact hc
  intro hs
  have hs := key _ hs
  cases h with
  | lpar | rpar | comma => simp at e; obtain ⟨rfl, -⟩ := e; simp at hs
  | ident c' s _ h1 =>
    simp at e; obtain ⟨rfl, -⟩ := e
    simp only [IdStart, char_eq_iff, Char.reduceToNat] at h1; omega
  | num _ _ h0 h1 | tooBig _ _ h0 h1 =>
    have := h1 c (by simp [e])
    simp only [Digit] at this; omega
  | str | unterminated => simp at e; obtain ⟨rfl, -⟩ := e; simp at hs
  | other c' _ h1 =>
    simp at e; obtain ⟨rfl, -⟩ := e
    apply h1
    simp only [HSpace, char_eq_iff, Char.reduceToNat]; exact hs

theorem digit_facts {c : Char} (h : Digit c) : c ≠ '(' ∧ c ≠ ')' ∧ c ≠ ',' := by
  simp only [Digit] at h
  refine ⟨?_, ?_, ?_⟩ <;> (rintro rfl; simp at h)

theorem idStart_facts {c : Char} (h : IdStart c) :
    c ≠ '(' ∧ c ≠ ')' ∧ c ≠ ',' ∧ c ≠ '"' ∧ ¬ Digit c := by
  simp only [IdStart, Digit, ne_eq, char_eq_iff, Char.reduceToNat] at *
  refine ⟨?_, ?_, ?_, ?_, ?_⟩ <;> omega

/-- Completeness: a text starting (after white space) with the lexeme `l` is
tokenized to `l`. -/
theorem tokenize_of_lexemeAt {ws txt rest : Str} {l : Lexeme} (hws : ∀ c ∈ ws, HSpace c)
    (h : LexemeAt l txt rest) : tokenize (ws ++ txt ++ rest) = (tokenOf l, rest) := by
  have hne := h.ne_nil
  have hh := h.head_not_space
  cases htxt : txt with
  | nil => exact absurd htxt hne
  | cons c cs =>
    have hd : (ws ++ txt ++ rest).dropWhile isHorizontalWhitespace = txt ++ rest := by
      rw [List.append_assoc]
      apply dropWhile_spec isHSpace_iff _ _ hws
      intro c' cs' e
      rw [htxt] at e
      simp at e
      exact e.1 ▸ hh c cs htxt
    rw [← htxt]
    unfold tokenize
    rw [hd]
    cases h with
    | lpar | rpar | comma => simp [tokenOf]
    | ident c' s _ h1 h2 h3 =>
      obtain ⟨g1, g2, g3, g4, g5⟩ := idStart_facts h1
      have g5' : isDigit c' = false := by
        rw [Bool.eq_false_iff]; exact fun h => g5 ((isDigit_iff _).1 h)
      have tw : (c' :: s ++ rest).takeWhile isIdentifierContinue = c' :: s := by
        apply takeWhile_spec isIdCont_iff _ _ _ h3
        intro x hx
        simp at hx
        rcases hx with rfl | hx
        · exact .inl h1
        · exact h2 _ hx
      simp only [List.cons_append, g1, g2, g3, g4, g5', ↓reduceIte, Bool.false_eq_true,
        (isIdStart_iff c').2 h1]
      unfold tokenizeIdentifier
      rw [← List.cons_append, tw]
      simp [tokenOf]
    | num ds _ h1 h2 h3 h4 =>
      have tw := takeWhile_spec isDigit_iff _ _ h2 h3
      clear htxt hd
      cases txt with
      | nil => simp at h1
      | cons d ds =>
        have hd := h2 d (by simp)
        obtain ⟨g1, g2, g3⟩ := digit_facts hd
        simp only [List.cons_append, g1, g2, g3, ↓reduceIte, (isDigit_iff d).2 hd]
        unfold tokenizeNumberLiteral
        rw [← List.cons_append, tw]
        have hg := getAsUnsigned32_spec (by simp) h2
        rw [if_pos h4] at hg
        simp [hg, tokenOf]
    | tooBig ds _ h1 h2 h3 h4 =>
      have tw := takeWhile_spec isDigit_iff _ _ h2 h3
      clear htxt hd
      cases txt with
      | nil => simp at h1
      | cons d ds =>
        have hd := h2 d (by simp)
        obtain ⟨g1, g2, g3⟩ := digit_facts hd
        simp only [List.cons_append, g1, g2, g3, ↓reduceIte, (isDigit_iff d).2 hd]
        unfold tokenizeNumberLiteral
        rw [← List.cons_append, tw]
        have hg := getAsUnsigned32_spec (by simp) h2
        rw [if_neg (by omega)] at hg
        simp [hg, tokenOf]
    | str raw _ h1 =>
      simp [tokenizeStringLiteral, scanString_body h1, tokenOf, isDigit]
    | unterminated body h1 =>
      simp [tokenizeStringLiteral, (scanString_none_iff body).2 h1, tokenOf, isDigit]
    | other c' _ h1 h2 h3 h4 h5 h6 =>
      have e1 : isDigit c' = false := by
        rw [Bool.eq_false_iff]; exact fun h => h2 (.inr ((isDigit_iff _).1 h))
      have e2 : isIdentifierStart c' = false := by
        rw [Bool.eq_false_iff]; exact fun h => h2 (.inl ((isIdStart_iff _).1 h))
      simp [h3, h4, h5, h6, e1, e2, tokenOf]

/-- Soundness: what the tokenizer produces (before the end marker) is a lexeme
in the sense of the specification. -/
theorem lexemeAt_of_tokenize {text : Str} (h : (tokenize text).1.kind ≠ .eof) :
    ∃ l, (tokenize text).1 = tokenOf l ∧
      LexemeAt l (tokenize text).1.text (tokenize text).2 := by
  revert h
  unfold tokenize
  split
  · simp
  · rename_i c cs hd
    have hsp : ¬ HSpace c := by
      intro hs
      have := List.head?_dropWhile_not isHorizontalWhitespace text
      rw [hd] at this
      simp at this
      rw [(isHSpace_iff c).2 hs] at this
      simp at this
    intro _
    split
    · subst_vars; exact ⟨.lpar, rfl, .lpar _⟩
    split
    · subst_vars; exact ⟨.rpar, rfl, .rpar _⟩
    split
    · subst_vars; exact ⟨.comma, rfl, .comma _⟩
    split
    · rename_i hdig
      have hne : (c :: cs).takeWhile isDigit ≠ [] := by simp [hdig]
      have hall := takeWhile_all isDigit_iff (c :: cs)
      have hnf := drop_takeWhile_notFollowed isDigit_iff (c :: cs)
      have hv := getAsUnsigned32_spec hne hall
      unfold tokenizeNumberLiteral
      simp only [hv]
      by_cases hlt : decimal ((c :: cs).takeWhile isDigit) < 2 ^ 32
      · simp only [hlt, ↓reduceIte]
        exact ⟨.num _, rfl, .num _ _ hne hall hnf hlt⟩
      · simp only [hlt, ↓reduceIte]
        exact ⟨.bad _, rfl, .tooBig _ _ hne hall hnf (by omega)⟩
    split
    · unfold tokenizeStringLiteral
      split
      · rename_i s rest hs
        obtain ⟨raw, h1, h2, h3⟩ := scanString_sound hs
        simp at h2
        subst h2
        exact ⟨.str s, rfl, .str _ _ h1⟩
      · rename_i hs
        exact ⟨.bad _, rfl, .unterminated _ ((scanString_none_iff cs).1 hs)⟩
    split
    · rename_i his
      have his' := (isIdStart_iff c).1 his
      unfold tokenizeIdentifier
      have hall := takeWhile_all isIdCont_iff (c :: cs)
      have hnf := drop_takeWhile_notFollowed isIdCont_iff (c :: cs)
      have hc : isIdentifierContinue c = true := (isIdCont_iff c).2 (.inl his')
      refine ⟨.ident ((c :: cs).takeWhile isIdentifierContinue), rfl, ?_⟩
      simp only [List.takeWhile_cons_of_pos hc] at hnf hall ⊢
      exact .ident _ _ _ his' (fun x hx => hall x (by simp [hx])) hnf
    · rename_i n1 n2 n3 n4 n5 n6
      refine ⟨.bad [c], rfl, .other _ _ hsp ?_ n1 n2 n3 n5⟩
      rintro (h | h)
      · exact n6 ((isIdStart_iff c).2 h)
      · exact n4 ((isDigit_iff c).2 h)

/-- The lexeme a token stands for (inverse of `tokenOf` on produced tokens). -/
def lexemeOf (t : Token) : Lexeme :=
  match t.kind with
  | .identifier => .ident t.text
  | .literal =>
    match t.value with
    | .string raw => .str raw
    | _ => .num t.text
  | .openingParen => .lpar
  | .closingParen => .rpar
  | .comma => .comma
  | .invalid => .bad t.text
  | .eof => .bad t.text

theorem lexemeOf_tokenOf (l : Lexeme) : lexemeOf (tokenOf l) = l := by
  cases l <;> simp [lexemeOf, tokenOf]

/-- All lexemes up to the end marker. -/
def lexAll (text : Str) : List Lexeme :=
  if h : (tokenize text).1.kind = .eof then []
  else lexemeOf (tokenize text).1 :: lexAll (tokenize text).2
termination_by text.length
decreasing_by exact tokenize_lt h

theorem lexes_lexAll (text : Str) : Lexes text (lexAll text) := by
  fun_induction lexAll text with
  | case1 text h =>
    rw [tokenize_eof_iff] at h
    apply Lexes.done
    intro c hc
    have : text.takeWhile isHorizontalWhitespace = text := by
      have := takeWhile_append_dropWhile isHorizontalWhitespace text
      rw [h] at this; simpa using this
    rw [← this] at hc
    exact takeWhile_all isHSpace_iff _ c hc
  | case2 text h ih =>
    obtain ⟨l, h1, h2⟩ := lexemeAt_of_tokenize h
    have hs := tokenize_split text
    rw [h1, lexemeOf_tokenOf]
    rw [h1] at hs h2
    conv => lhs; rw [hs]
    exact .step _ _ _ _ _ (takeWhile_all isHSpace_iff _) h2 ih

theorem lexAll_of_lexes {text : Str} {ls : List Lexeme} (h : Lexes text ls) :
    lexAll text = ls := by
  induction h with
  | done ws hws =>
    unfold lexAll
    have : (tokenize ws).1.kind = .eof := by
      rw [tokenize_eof_iff]
      simpa using dropWhile_spec isHSpace_iff ws [] hws (by intro c cs h; simp at h)
    simp [this]
  | step ws txt rest l ls hws hl _ ih =>
    unfold lexAll
    rw [tokenize_of_lexemeAt hws hl]
    simp [tokenOf_kind_ne_eof, lexemeOf_tokenOf, ih]

end Verif
