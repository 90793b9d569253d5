import Verif.Model.Printing
import Verif.Spec.CppString
import Verif.Lemmas.Grammar
/-! Printing: escapes, numbers, and what printed annotations lex to. -/
namespace Verif
open Spec

theorem toNat_ofNat_small {n : Nat} (h : n < 256) : (Char.ofNat n).toNat = n := by
  have key : ∀ m : Fin 256, (Char.ofNat m.val).toNat = m.val := by decide +kernel
  exact key ⟨n, h⟩

/-! ### Numbers -/

theorem decimal_append (a b : Str) : decimal (a ++ b) = decimal a * 10 ^ b.length + decimal b := by
  induction a with
  | nil => simp [decimal]
  | cons c cs ih =>
    simp only [List.cons_append, decimal, ih, List.length_append, Nat.pow_add, Nat.add_mul]
    rw [Nat.mul_assoc, Nat.add_assoc]

theorem printNat_spec (n : Nat) :
    printNat n ≠ [] ∧ (∀ c ∈ printNat n, Digit c) ∧ decimal (printNat n) = n := by
  have dig : ∀ k, k < 10 → (Char.ofNat (48 + k)).toNat = 48 + k :=
    fun k hk => toNat_ofNat_small (by omega)
  fun_induction printNat n with
  | case1 n h =>
    refine ⟨by simp, ?_, ?_⟩
    · intro c hc; simp at hc; subst hc; unfold Digit; rw [dig n h]; omega
    · simp only [decimal, dig n h, List.length_nil]; omega
  | case2 n h ih =>
    obtain ⟨h1, h2, h3⟩ := ih
    refine ⟨by simp, ?_, ?_⟩
    · intro c hc
      simp at hc
      rcases hc with hc | rfl
      · exact h2 c hc
      · unfold Digit; rw [dig _ (by omega)]; omega
    · rw [decimal_append, h3]
      simp only [decimal, dig (n % 10) (by omega), List.length_cons, List.length_nil]
      omega

/-! ### Escapes -/

theorem escapeChar_strBody (c : Char) (rest : Str) (h : StrBody rest) :
    StrBody (escapeChar c ++ rest) := by
  have oct : ∀ k, k < 8 → (Char.ofNat (48 + k)).toNat = 48 + k :=
    fun k hk => toNat_ofNat_small (by omega)
  have od : ∀ k, k < 8 → Char.ofNat (48 + k) ≠ '"' ∧ Char.ofNat (48 + k) ≠ '\\' := by
    intro k hk
    simp only [ne_eq, char_eq_iff, oct k hk, Char.reduceToNat]
    omega
  unfold escapeChar
  repeat' split
  · exact .escaped _ _ h
  · exact .escaped _ _ h
  · exact .escaped _ _ h
  · exact .escaped _ _ h
  · exact .plain _ _ (by assumption) (by assumption) h
  · obtain ⟨a1, a2⟩ := od (c.toNat / 8 % 8) (by omega)
    obtain ⟨b1, b2⟩ := od (c.toNat % 8) (by omega)
    exact .escaped _ _ (.plain _ _ a1 a2 (.plain _ _ b1 b2 h))

theorem writeEscaped_strBody (s : Str) : StrBody (writeEscaped s) := by
  induction s with
  | nil => exact .nil
  | cons c s ih =>
    unfold writeEscaped at *
    rw [List.flatMap_cons]
    exact escapeChar_strBody c _ ih

theorem escapeChar_reads {c : Char} (hc : c.toNat < 256) {t bs rest : Str}
    (h : Reads t bs rest) : Reads (escapeChar c ++ t) (c :: bs) rest := by
  have oct : ∀ k, k < 8 → (Char.ofNat (48 + k)).toNat = 48 + k :=
    fun k hk => toNat_ofNat_small (by omega)
  have od : ∀ k, k < 8 → octal? (Char.ofNat (48 + k)) = some k := by
    intro k hk
    unfold octal?
    rw [oct k hk, if_pos (by omega)]
    congr 1; omega
  unfold escapeChar
  split
  · subst_vars; exact .simple '\\' _ _ _ _ rfl h
  split
  · subst_vars; exact .simple 't' _ _ _ _ rfl h
  split
  · subst_vars; exact .simple 'n' _ _ _ _ rfl h
  split
  · subst_vars; exact .simple '"' _ _ _ _ rfl h
  split
  · exact .plain _ _ _ _ (by assumption) (by assumption) (by assumption) h
  · have e : c = Char.ofNat (c.toNat / 64 % 8 * 64 + c.toNat / 8 % 8 * 8 + c.toNat % 8) := by
      have : c.toNat / 64 % 8 * 64 + c.toNat / 8 % 8 * 8 + c.toNat % 8 = c.toNat := by omega
      rw [this, Char.ofNat_toNat]
    suffices e' : Reads (['\\', Char.ofNat (48 + c.toNat / 64 % 8), Char.ofNat (48 + c.toNat / 8 % 8),
        Char.ofNat (48 + c.toNat % 8)] ++ t)
        (Char.ofNat (c.toNat / 64 % 8 * 64 + c.toNat / 8 % 8 * 8 + c.toNat % 8) :: bs) rest by
      rwa [← e] at e'
    refine .octal _ _ 3 _ _ ?_ (by omega) (by simpa using h)
    show octalEscape (_ :: _ :: _ :: t) = _
    simp only [octalEscape, od _ (Nat.mod_lt _ (by omega : 0 < 8))]

theorem writeEscaped_reads {s : Str} (hs : ∀ c ∈ s, c.toNat < 256) (rest : Str) :
    Reads (writeEscaped s ++ '"' :: rest) s rest := by
  induction s with
  | nil => exact .close rest
  | cons c s ih =>
    unfold writeEscaped at *
    rw [List.flatMap_cons, List.append_assoc]
    exact escapeChar_reads (hs c (by simp)) (ih (fun x hx => hs x (by simp [hx])))

theorem escapeChar_printable (c : Char) : ∀ x ∈ escapeChar c, 0x20 ≤ x.toNat ∧ x.toNat ≤ 0x7e := by
  have oct : ∀ k, k < 8 → (Char.ofNat (48 + k)).toNat = 48 + k :=
    fun k hk => toNat_ofNat_small (by omega)
  intro x hx
  unfold escapeChar at hx
  repeat' split at hx
  all_goals simp at hx
  · subst hx; simp
  · rcases hx with rfl | rfl <;> simp
  · rcases hx with rfl | rfl <;> simp
  · rcases hx with rfl | rfl <;> simp
  · subst hx; assumption
  · rcases hx with rfl | rfl | rfl | rfl
    · simp
    all_goals rw [oct _ (by omega)]; omega

/-! ### What printed annotations lex to -/

/-- The value read back for a printed value. -/
def reread : LiteralValue → LiteralValue
  | .string s => .string (writeEscaped s)
  | .nothing => .string t%"nothing"
  | v => v

/-- Lexeme of a printed value. -/
def lexemeOfValue : LiteralValue → Lexeme
  | .string s => .str (writeEscaped s)
  | .unsigned n => .num (printNat n)
  | .boolean b => .ident (if b then t%"true" else t%"false")
  | .nothing => .ident t%"nothing"
  | .default => .ident t%"default"

theorem idWord {s : Str} (c : Char) (cs : Str) (e : s = c :: cs) (hc : isIdentifierStart c = true)
    (hcs : cs.all isIdentifierContinue = true) (rest : Str) (hr : NotFollowedBy IdCont rest) :
    LexemeAt (.ident s) s rest := by
  subst e
  refine .ident _ _ _ ((isIdStart_iff c).1 hc) ?_ hr
  intro x hx
  rw [List.all_eq_true] at hcs
  exact (isIdCont_iff x).1 (hcs x hx)

theorem printed_value_lexes (v : LiteralValue) (hb : ∀ n, v = .unsigned n → n < 2 ^ 32)
    (rest : Str) (hr : NotFollowedBy IdCont rest) :
    LexemeAt (lexemeOfValue v) v.print rest := by
  cases v with
  | nothing => exact idWord 'n' t%"othing" rfl rfl rfl rest hr
  | string s => exact .str _ _ (writeEscaped_strBody s)
  | unsigned n =>
    obtain ⟨h1, h2, h3⟩ := printNat_spec n
    refine .num _ _ h1 h2 (fun c cs e hd => hr c cs e (.inr hd)) ?_
    rw [h3]; exact hb n rfl
  | boolean b =>
    cases b
    · exact idWord 'f' t%"alse" rfl rfl rfl rest hr
    · exact idWord 't' t%"rue" rfl rfl rfl rest hr
  | default => exact idWord 'd' t%"efault" rfl rfl rfl rest hr

theorem value_lexemeOfValue (v : LiteralValue) : Value (lexemeOfValue v) (reread v) := by
  cases v with
  | nothing => exact .word _ (by decide) (by decide) (by decide)
  | string s => exact .str _
  | unsigned n =>
    have := Value.num (printNat n)
    rw [(printNat_spec n).2.2] at this
    exact this
  | boolean b => cases b <;> first | exact .fls | exact .tru
  | default => exact .dflt

/-- Lexemes of a printed argument list, after the first argument if `comma`. -/
def lexemesOfArgs (comma : Bool) : List LiteralValue → List Lexeme
  | [] => []
  | v :: vs => (if comma then [.comma] else []) ++ lexemeOfValue v :: lexemesOfArgs true vs

/-- Sufficient condition on values: unsigned ones fit 32 bits. -/
def Fits (v : LiteralValue) : Prop := ∀ n, v = .unsigned n → n < 2 ^ 32

theorem nfb_punct (c : Char) (rest : Str) (h : isIdentifierContinue c = false) :
    NotFollowedBy IdCont (c :: rest) := by
  intro x xs e hx
  cases e
  rw [(isIdCont_iff c).2 hx] at h
  cases h

theorem step_now {txt rest : Str} {l ls} (h : LexemeAt l txt rest) (hr : Lexes rest ls) :
    Lexes (txt ++ rest) (l :: ls) := by
  simpa using Lexes.step [] txt rest l ls (by simp) h hr

theorem step_space {txt rest : Str} {l ls} (h : LexemeAt l txt rest) (hr : Lexes rest ls) :
    Lexes (' ' :: (txt ++ rest)) (l :: ls) := by
  have := Lexes.step [' '] txt rest l ls (by simp [HSpace]) h hr
  simpa using this

theorem printArgs_head (vs : List LiteralValue) (rest : Str) :
    ∃ c t, printArgs true vs ++ ')' :: rest = c :: t ∧ isIdentifierContinue c = false := by
  cases vs with
  | nil => exact ⟨')', rest, rfl, rfl⟩
  | cons v vs => exact ⟨',', _, rfl, rfl⟩

theorem lexes_printArgs (vs : List LiteralValue) (hf : ∀ v ∈ vs, Fits v) (comma : Bool)
    (rest : Str) (ls : List Lexeme) (hr : Lexes rest ls) :
    Lexes (printArgs comma vs ++ ')' :: rest) (lexemesOfArgs comma vs ++ .rpar :: ls) := by
  induction vs generalizing comma with
  | nil => exact step_now (txt := [')']) (.rpar rest) hr
  | cons v vs ih =>
    have ih := ih (fun x hx => hf x (by simp [hx])) true
    obtain ⟨c, t, e, hc⟩ := printArgs_head vs rest
    have hv := printed_value_lexes v (hf v (by simp)) (printArgs true vs ++ ')' :: rest)
      (e ▸ nfb_punct c t hc)
    cases comma with
    | false =>
      simp only [printArgs, lexemesOfArgs, Bool.false_eq_true, ↓reduceIte, List.nil_append,
        List.append_assoc, List.cons_append]
      exact step_now hv ih
    | true =>
      simp only [printArgs, lexemesOfArgs, ↓reduceIte, List.cons_append, List.nil_append,
        List.append_assoc]
      exact step_now (.comma _) (step_space hv ih)

theorem values_lexemesOfArgs (vs : List LiteralValue) :
    Values (lexemesOfArgs false vs) (vs.map reread) := by
  induction vs with
  | nil => exact .nil
  | cons v vs ih =>
    cases vs with
    | nil => exact .last _ _ (value_lexemeOfValue v)
    | cons w ws =>
      simp only [lexemesOfArgs, Bool.false_eq_true, ↓reduceIte, List.nil_append,
        List.map_cons, List.cons_append] at ih ⊢
      exact .cons _ _ _ _ (value_lexemeOfValue v) ih

/-- Lexemes of a printed annotation. -/
def lexemesOfAnn (a : Annotation) : List Lexeme :=
  .ident (kindName a.kind) :: .lpar :: lexemesOfArgs false a.arguments ++ [.rpar]

/-- Lexemes of a printed annotation list. -/
def lexemesOfAnns : List Annotation → List Lexeme
  | [] => []
  | [a] => lexemesOfAnn a
  | a :: as => lexemesOfAnn a ++ .comma :: lexemesOfAnns as

/-- The annotation read back for a printed one. -/
def rereadAnn (a : Annotation) : Annotation := ⟨a.kind, a.arguments.map reread⟩

theorem anns_lexemesOfAnns (as : List Annotation) :
    Anns (lexemesOfAnns as) (as.map rereadAnn) := by
  have hann : ∀ a, Ann (lexemesOfAnn a) (rereadAnn a) := by
    intro a
    exact .mk _ _ _ (.parens _ _ (values_lexemesOfArgs a.arguments))
  induction as with
  | nil => exact .nil
  | cons a as ih =>
    cases as with
    | nil => exact .last _ _ (hann a)
    | cons b bs => exact .cons _ _ _ _ (hann a) ih

theorem kindName_ident (k : AnnotationKind) (rest : Str) :
    LexemeAt (.ident (kindName k)) (kindName k) ('(' :: rest) := by
  have : ∃ c cs, kindName k = c :: cs ∧ isIdentifierStart c = true ∧
      cs.all isIdentifierContinue = true := by
    cases k <;> exact ⟨_, _, rfl, rfl, rfl⟩
  obtain ⟨c, cs, e, h1, h2⟩ := this
  exact idWord c cs e h1 h2 _ (nfb_punct _ _ rfl)

theorem lexes_ann (a : Annotation) (hf : ∀ v ∈ a.arguments, Fits v) (rest : Str)
    (ls : List Lexeme) (hr : Lexes rest ls) (s : Str) (hs : a.print = some s) :
    Lexes (s ++ rest) (lexemesOfAnn a ++ ls) ∧ Lexes (' ' :: (s ++ rest)) (lexemesOfAnn a ++ ls) := by
  unfold Annotation.print at hs
  rw [toString?_kindName] at hs
  simp only [Option.some.injEq] at hs
  subst hs
  have h1 := lexes_printArgs a.arguments hf false rest ls hr
  have h2 := step_now (.lpar _) h1
  have e1 : kindName a.kind ++ ['('] ++ printArgs false a.arguments ++ [')'] ++ rest
      = kindName a.kind ++ ('(' :: (printArgs false a.arguments ++ ')' :: rest)) := by simp
  have e2 : lexemesOfAnn a ++ ls = .ident (kindName a.kind) ::
      ([.lpar] ++ (lexemesOfArgs false a.arguments ++ .rpar :: ls)) := by simp [lexemesOfAnn]
  rw [e1, e2]
  exact ⟨step_now (kindName_ident _ _) h2, step_space (kindName_ident _ _) h2⟩

theorem lexes_anns (as : List Annotation) (hf : ∀ a ∈ as, ∀ v ∈ a.arguments, Fits v) :
    ∃ s, printAnnotations as = some s ∧ Lexes s (lexemesOfAnns as) ∧
      Lexes (' ' :: s) (lexemesOfAnns as) := by
  have hp : ∀ a : Annotation, ∃ s, a.print = some s := by
    intro a; unfold Annotation.print; rw [toString?_kindName]; exact ⟨_, rfl⟩
  induction as with
  | nil => exact ⟨[], rfl, .done _ (by simp), .done _ (by simp [HSpace])⟩
  | cons a as ih =>
    obtain ⟨s, hs⟩ := hp a
    have hfa := hf a (by simp)
    cases as with
    | nil =>
      obtain ⟨h1, h2⟩ := lexes_ann a hfa [] [] (.done _ (by simp)) s hs
      simp only [List.append_nil] at h1 h2
      exact ⟨s, hs, h1, h2⟩
    | cons b bs =>
      obtain ⟨r, hr, -, hl⟩ := ih (fun x hx => hf x (by simp [hx]))
      have hc := step_now (.comma (' ' :: r)) hl
      obtain ⟨h1, h2⟩ := lexes_ann a hfa _ _ hc s hs
      refine ⟨s ++ [',', ' '] ++ r, ?_, ?_, ?_⟩
      · simp only [printAnnotations, hs, hr]
      · simpa [lexemesOfAnns] using h1
      · simpa [lexemesOfAnns] using h2

end Verif
