import Verif.Spec.Macro
import Verif.Lemmas.Grammar
import Verif.Props.Parsing
import Verif.Props.Printing
import Verif.Props.Annotations
/-!
# C70: what the macro makes of its argument
-/
namespace Verif
open Spec

/-! ### The text -/

theorem reads_escaped (s : Str) (hn : ∀ c ∈ s, c ≠ '\n') (t bs rest : Str)
    (h : Reads t bs rest) :
    Reads ((s.flatMap fun c => if c = '"' ∨ c = '\\' then ['\\', c] else [c]) ++ t)
      (s ++ bs) rest := by
  induction s with
  | nil => exact h
  | cons c s ih =>
    have ih := ih (fun x hx => hn x (List.mem_cons_of_mem _ hx))
    simp only [List.flatMap_cons, List.append_assoc, List.cons_append]
    split
    · rename_i hc
      refine .simple c c _ _ _ ?_ ih
      rcases hc with rfl | rfl <;> rfl
    · rename_i hc
      exact .plain c _ _ _ (fun e => hc (.inl e)) (fun e => hc (.inr e))
        (hn c (List.mem_cons_self ..)) ih

theorem reads_plain (s : Str) (hn : ∀ c ∈ s, c ≠ '\n') (hq : ∀ c ∈ s, c ≠ '"' ∧ c ≠ '\\')
    (t bs rest : Str) (h : Reads t bs rest) : Reads (s ++ t) (s ++ bs) rest := by
  induction s with
  | nil => exact h
  | cons c s ih =>
    have hc := hq c (List.mem_cons_self ..)
    exact .plain c _ _ _ hc.1 hc.2 (hn c (List.mem_cons_self ..))
      (ih (fun x hx => hn x (List.mem_cons_of_mem _ hx))
        (fun x hx => hq x (List.mem_cons_of_mem _ hx)))

theorem reads_token (t : PPToken) (ht : CppToken t) (r bs rest : Str) (h : Reads r bs rest) :
    Reads (stringizeToken t ++ r) (t.spelling ++ bs) rest := by
  unfold stringizeToken
  cases hl : t.literal with
  | true => exact reads_escaped _ ht.2.1 _ _ _ h
  | false => exact reads_plain _ ht.2.1 (ht.2.2 hl) _ _ _ h

theorem Spec.Written.token {ts} (h : Written ts) : ∀ t ∈ ts, CppToken t := by
  induction h with
  | nil => simp
  | one t ht => simpa using ht
  | cons t u ts ht _ _ ih =>
    intro x hx
    rcases List.mem_cons.1 hx with rfl | hx
    · exact ht
    · exact ih x hx

theorem Spec.Written.tail {t ts} (h : Written (t :: ts)) : Written ts := by
  cases h with
  | one => exact .nil
  | cons _ _ _ _ _ h => exact h

theorem reads_tokens (t : PPToken) (ts : List PPToken) (h : Written (t :: ts)) :
    Reads (stringizeToken t ++ stringizeRest ts ++ ['"']) (asShown (t :: ts)) [] := by
  induction ts generalizing t with
  | nil =>
    have := reads_token t (h.token t (List.mem_cons_self ..)) _ _ _ (Reads.close [])
    simpa [stringizeRest, asShown] using this
  | cons u ts ih =>
    have ih := ih u h.tail
    have ht := h.token t (List.mem_cons_self ..)
    simp only [asShown, stringizeRest, List.flatMap_cons, List.append_assoc] at ih ⊢
    apply reads_token t ht
    cases u.spaced with
    | false => exact ih
    | true => exact .plain ' ' _ _ _ (by decide) (by decide) (by decide) ih

theorem reads_stringize (ts : List PPToken) (h : Written ts) :
    Reads (stringize ts ++ ['"']) (asShown ts) [] := by
  cases ts with
  | nil => exact .close []
  | cons t ts => exact reads_tokens t ts h

/-- C70 (text): for every sequence of tokens, the attribute created by
`GENPYBIND(...)` has a text, and only one: the marker followed by the tokens
exactly as spelled in the source (string literals with their quotes and
backslashes), white space between them shrunk to single blanks. -/
theorem C70_text (ts : List PPToken) (h : Written ts) (text : Str) :
    AttributeText ts text ↔ text = marker ++ asShown ts := by
  constructor
  · rintro ⟨body, bytes, he, hr, rfl⟩
    simp only [annotateLiteral, List.cons_append, List.cons.injEq, true_and] at he
    subst he
    rw [(C06_reading_deterministic hr (reads_stringize ts h)).1]
  · rintro rfl
    exact ⟨_, _, rfl, reads_stringize ts h, rfl⟩

/-! ### Sequences of lexemes that can be annotations -/

/-- Lexemes that are not punctuation. -/
def isWord : Lexeme → Bool
  | .ident _ => true | .str _ => true | .num _ => true | .bad _ => true
  | _ => false

/-- No invalid lexemes, and words are separated by punctuation. -/
def WordsApart : List Lexeme → Prop
  | [] => True
  | [l] => ∀ s, l ≠ .bad s
  | a :: b :: r => (∀ s, a ≠ .bad s) ∧ ¬ (isWord a = true ∧ isWord b = true) ∧ WordsApart (b :: r)

theorem WordsApart.tail {a ls} (h : WordsApart (a :: ls)) : WordsApart ls := by
  cases ls with
  | nil => trivial
  | cons => exact h.2.2

theorem WordsApart.head {a ls} (h : WordsApart (a :: ls)) (s : Str) : a ≠ .bad s := by
  cases ls with
  | nil => exact h s
  | cons => exact h.1 s

theorem WordsApart.cons_sep {x : Lexeme} (hx : isWord x = false) {ls} (h : WordsApart ls) :
    WordsApart (x :: ls) := by
  cases ls with
  | nil =>
    intro s e
    rw [e] at hx
    cases hx
  | cons b r =>
    refine ⟨fun s e => ?_, by simp [hx], h⟩
    rw [e] at hx
    cases hx

theorem WordsApart.append_sep {x : Lexeme} (hx : isWord x = false) {as bs} (ha : WordsApart as)
    (hb : WordsApart bs) : WordsApart (as ++ x :: bs) := by
  induction as with
  | nil => exact WordsApart.cons_sep hx hb
  | cons a as ih =>
    have ih := ih ha.tail
    cases as with
    | nil => exact ⟨ha, by simp [hx], ih⟩
    | cons b r => exact ⟨ha.1, ha.2.1, ih⟩

theorem value_clean {l v} (h : Value l v) : WordsApart [l] := by
  intro s
  cases h <;> simp

theorem values_clean {ls vs} (h : Values ls vs) : WordsApart ls := by
  induction h with
  | nil => trivial
  | last l v h => exact value_clean h
  | cons l v ls vs h _ ih => exact WordsApart.append_sep (as := [l]) rfl (value_clean h) ih

theorem ann_clean {ls a} (h : Ann ls a) : WordsApart ls := by
  cases h with
  | mk k ls vs h =>
    cases h with
    | omitted => intro s; simp
    | parens ls vs h =>
      refine WordsApart.append_sep (as := [_]) rfl (by intro s; simp) ?_
      exact WordsApart.append_sep (as := ls) (bs := []) rfl (values_clean h) trivial

theorem anns_clean {ls as} (h : Anns ls as) : WordsApart ls := by
  induction h with
  | nil => trivial
  | last ls a h => exact ann_clean h
  | cons ls a ls' as h _ ih => exact WordsApart.append_sep rfl (ann_clean h) ih

/-! ### Lexemes and tokens -/

theorem lexes_any (text : Str) : ∃ ls, Lexes text ls := ⟨_, lexes_lexAll text⟩

theorem lexes_unique {text ls ls'} (h : Lexes text ls) (h' : Lexes text ls') : ls = ls' :=
  (C01_lexes_existsUnique text).2 ls ls' h h'

/-- One lexeme split off. -/
theorem lexes_split {ws txt rest l ls} (hws : ∀ c ∈ ws, HSpace c) (hl : LexemeAt l txt rest)
    (h : Lexes (ws ++ txt ++ rest) ls) : ∃ ls', ls = l :: ls' ∧ Lexes rest ls' := by
  obtain ⟨ls', h'⟩ := lexes_any rest
  exact ⟨ls', lexes_unique h (.step _ _ _ _ _ hws hl h'), h'⟩

/-- What a meaningful token does not run into. -/
def FitsBefore (a rest : Str) : Prop :=
  ∀ p x c r, a = p ++ [x] → rest = c :: r → (IdCont x → ¬ IdCont c)

theorem digit_cont {c} (h : Digit c) : IdCont c := .inr h
theorem last_of {P : Char → Prop} {s : Str} (hne : s ≠ []) (h : ∀ x ∈ s, P x) :
    ∃ p x, s = p ++ [x] ∧ P x :=
  ⟨s.dropLast, s.getLast hne, (List.dropLast_concat_getLast hne).symm,
    h _ (List.getLast_mem hne)⟩

theorem meaningful_at {s l rest} (h : Meaningful s l) (hf : FitsBefore s rest) : LexemeAt l s rest := by
  cases h with
  | lpar => exact .lpar _
  | rpar => exact .rpar _
  | comma => exact .comma _
  | ident c s hc hs =>
    refine .ident c s rest hc hs ?_
    intro d r hd
    obtain ⟨p, x, hp, hx⟩ := last_of (P := IdCont) (s := c :: s) (by simp) (by
      intro y hy
      rcases List.mem_cons.1 hy with rfl | hy
      · exact .inl hc
      · exact hs y hy)
    exact hf p x d r hp hd hx
  | num ds h1 h2 h3 =>
    refine .num _ rest h1 h2 ?_ h3
    intro d r hd hdd
    obtain ⟨p, x, hp, hx⟩ := last_of h1 h2
    exact hf p x d r hp hd (digit_cont hx) (digit_cont hdd)
  | str raw h => exact .str raw rest h

theorem idStart_not_digit {c} (h : IdStart c) : ¬ Digit c := by
  intro hd
  rcases h with h | h | h
  · exact absurd hd.2 (by omega)
  · exact absurd hd.2 (by omega)
  · subst h
    have := hd.2
    revert this
    decide

/-- Text starting with a character that does not belong in annotations starts
with a word (possibly an invalid one). -/
theorem odd_word {c r ls} (hc : Odd c) (h : Lexes (c :: r) ls) :
    ∃ l ls', ls = l :: ls' ∧ isWord l = true ∧ (c ≠ '"' → ∃ s, l = .bad s) := by
  by_cases hq : c = '"'
  · subst hq
    by_cases hb : ∃ raw tail, StrBody raw ∧ r = raw ++ '"' :: tail
    · obtain ⟨raw, tail, hb, rfl⟩ := hb
      obtain ⟨ls', rfl, -⟩ := lexes_split (ws := []) (by simp) (.str raw tail hb)
        (by simpa using h)
      exact ⟨_, ls', rfl, rfl, fun e => absurd rfl e⟩
    · obtain ⟨ls', rfl, -⟩ := lexes_split (ws := []) (by simp)
        (.unterminated r (fun raw tail h e => hb ⟨raw, tail, h, e⟩)) (by simpa using h)
      exact ⟨_, ls', rfl, rfl, fun e => absurd rfl e⟩
  · obtain ⟨ls', rfl, -⟩ := lexes_split (ws := []) (txt := [c]) (rest := r) (by simp)
      (.other c r hc.1 hc.2.1 hc.2.2.1 hc.2.2.2.1 hc.2.2.2.2 hq) (by simpa using h)
    exact ⟨_, ls', rfl, rfl, fun _ => ⟨_, rfl⟩⟩

theorem start_word {c r ls} (hc : IdStart c) (h : Lexes (c :: r) ls) :
    ∃ l ls', ls = l :: ls' ∧ isWord l = true := by
  have hall := takeWhile_all isIdCont_iff r
  have hnot := drop_takeWhile_notFollowed isIdCont_iff r
  have hr : r.takeWhile isIdentifierContinue ++ r.drop (r.takeWhile isIdentifierContinue).length
      = r := by
    conv => rhs; rw [← List.take_append_drop (r.takeWhile isIdentifierContinue).length r]
    congr 1
    rw [List.takeWhile_eq_take_findIdx_not]
    simp
  obtain ⟨ls', rfl, -⟩ := lexes_split (ws := []) (txt := c :: r.takeWhile isIdentifierContinue)
    (rest := r.drop (r.takeWhile isIdentifierContinue).length) (by simp)
    (.ident c _ _ hc hall hnot) (by simpa [hr] using h)
  exact ⟨_, ls', rfl, rfl⟩

/-- A text with a foreign token in it is no annotation. -/
theorem foreign_unclean {ws s rest ls} (hws : ∀ c ∈ ws, HSpace c) (hs : Foreign s)
    (hf : FitsBefore s rest) (h : Lexes (ws ++ s ++ rest) ls) : ¬ WordsApart ls := by
  intro hc
  cases hs with
  | tooBig ds h1 h2 h3 =>
    obtain ⟨ls', rfl, -⟩ := lexes_split hws (.tooBig s rest h1 h2 (by
      intro d r hd hdd
      obtain ⟨p, x, hp, hx⟩ := last_of h1 h2
      exact hf p x d r hp hd (digit_cont hx) (digit_cont hdd)) h3) h
    exact hc.head _ rfl
  | other c s ho hq =>
    obtain ⟨ls', rfl, -⟩ := lexes_split (txt := [c]) (rest := s ++ rest) hws
      (.other c _ ho.1 ho.2.1 ho.2.2.1 ho.2.2.2.1 ho.2.2.2.2 hq) (by simpa using h)
    exact hc.head _ rfl
  | prefixed c s d r h1 h2 ho =>
    obtain ⟨ls', rfl, hl'⟩ := lexes_split (txt := c :: s) (rest := d :: r ++ rest) hws
      (.ident c s _ h1 h2 (by
        intro e es he
        simp only [List.cons_append, List.cons.injEq] at he
        rw [← he.1]; exact ho.2.1)) (by simpa using h)
    obtain ⟨l, ls'', rfl, hw, -⟩ := odd_word (r := r ++ rest) ho (by simpa using hl')
    exact hc.2.1 ⟨rfl, hw⟩
  | number ds d r h1 h2 ho =>
    have hnd : ¬ Digit d := by
      rcases ho with ho | ho
      · exact fun e => ho.2.1 (.inr e)
      · exact idStart_not_digit ho
    have hn : NotFollowedBy Digit (d :: r ++ rest) := by
      intro e es he
      simp only [List.cons_append, List.cons.injEq] at he
      rw [← he.1]; exact hnd
    obtain ⟨l, hla, hwl⟩ : ∃ l, LexemeAt l ds (d :: r ++ rest) ∧ isWord l = true := by
      by_cases hb : decimal ds < 2 ^ 32
      · exact ⟨_, .num ds _ h1 h2 hn hb, rfl⟩
      · exact ⟨_, .tooBig ds _ h1 h2 hn (Nat.le_of_not_lt hb), rfl⟩
    obtain ⟨ls', rfl, hl'⟩ := lexes_split (txt := ds) hws hla (by simpa using h)
    obtain ⟨l', ls'', rfl, hw⟩ : ∃ l' ls'', ls' = l' :: ls'' ∧ isWord l' = true := by
      rcases ho with ho | ho
      · obtain ⟨a, b, c, d, -⟩ := odd_word (r := r ++ rest) ho (by simpa using hl')
        exact ⟨a, b, c, d⟩
      · exact start_word (r := r ++ rest) ho (by simpa using hl')
    exact hc.2.1 ⟨hwl, hw⟩
  | suffixed raw c r h1 ho =>
    obtain ⟨ls', rfl, hl'⟩ := lexes_split (txt := '"' :: raw ++ ['"'])
      (rest := c :: r ++ rest) hws (.str raw _ h1) (by simpa using h)
    obtain ⟨l', ls'', rfl, hw⟩ : ∃ l' ls'', ls' = l' :: ls'' ∧ isWord l' = true := by
      rcases ho with ho | ho
      · exact start_word (r := r ++ rest) ho (by simpa using hl')
      · obtain ⟨a, b, c, d, -⟩ := odd_word (r := r ++ rest) ho.1 (by simpa using hl')
        exact ⟨a, b, c, d⟩
    exact hc.2.1 ⟨rfl, hw⟩

theorem asShown_cons (t : PPToken) (ts : List PPToken) :
    ∃ rest, asShown (t :: ts) = t.spelling ++ rest ∧
      (ts = [] ∧ rest = [] ∨ ∃ u us, ts = u :: us ∧
        rest = (if u.spaced then [' '] else []) ++ asShown (u :: us)) := by
  cases ts with
  | nil => exact ⟨[], by simp [asShown], .inl ⟨rfl, rfl⟩⟩
  | cons u us => exact ⟨_, by simp [asShown], .inr ⟨u, us, rfl, rfl⟩⟩

theorem space_not_cont : ¬ IdCont ' ' := by
  rintro ((h | h | h) | h) <;> revert h <;> simp [Digit]

theorem cppToken_ne {t} (h : CppToken t) : t.spelling ≠ [] := by
  have h := h.1
  generalize t.spelling = s at h
  rcases h with ⟨l, h⟩ | h
  · cases h <;> simp_all
  · cases h <;> simp_all

theorem asShown_fits {t ts rest} (h : Written (t :: ts)) (hs : asShown (t :: ts) = t.spelling ++ rest) :
    FitsBefore t.spelling rest := by
  intro p x c r hp hr hx
  cases h with
  | one => simp only [asShown, List.self_eq_append_right] at hs; subst hs; cases hr
  | cons _ u ts ht ha hw =>
    simp only [asShown, List.append_assoc, List.append_cancel_left_eq] at hs
    cases hu : u.spaced with
    | true =>
      rw [hu] at hs
      rw [← hs] at hr
      simp only [if_pos, List.cons_append, List.cons.injEq] at hr
      rw [← hr.1]
      exact space_not_cont
    | false =>
      rw [hu] at hs
      obtain ⟨rest', hs', -⟩ := asShown_cons u ts
      have hu' := cppToken_ne (hw.token u (List.mem_cons_self ..))
      obtain ⟨d, r', hd⟩ := List.exists_cons_of_ne_nil hu'
      rw [hs', hd] at hs
      rw [← hs] at hr
      simp only [Bool.false_eq_true, if_false, List.nil_append, List.cons_append,
        List.cons.injEq] at hr
      rw [← hr.1]
      exact ha hu p x d r' hp hd hx

/-- The lexemes found in clean text are those written. -/
theorem lexes_spells (ts : List PPToken) (h : Written ts) (ws : Str) (hws : ∀ c ∈ ws, HSpace c)
    (ls : List Lexeme) (hl : Lexes (ws ++ asShown ts) ls) (hc : WordsApart ls) : Spells ts ls := by
  induction ts generalizing ws ls with
  | nil =>
    have := lexes_unique hl (.done _ (by simpa [asShown] using hws))
    subst this
    exact .nil
  | cons t ts ih =>
    obtain ⟨rest, hs, hr⟩ := asShown_cons t ts
    have hf := asShown_fits h hs
    rw [hs, ← List.append_assoc] at hl
    rcases (h.token t (List.mem_cons_self ..)).1 with ⟨l, hm⟩ | hm
    · obtain ⟨ls', rfl, hl'⟩ := lexes_split hws (meaningful_at hm hf) hl
      refine .cons t ts l ls' hm ?_
      rcases hr with ⟨rfl, rfl⟩ | ⟨u, us, rfl, rfl⟩
      · exact ih h.tail [] (by simp) ls' hl' hc.tail
      · refine ih h.tail _ ?_ ls' hl' hc.tail
        cases u.spaced <;> simp [HSpace]
    · exact absurd hc (foreign_unclean hws hm hf hl)

/-- What is written is what is found. -/
theorem spells_lexes (ts : List PPToken) (h : Written ts) (ws : Str) (hws : ∀ c ∈ ws, HSpace c)
    (ls : List Lexeme) (hm : Spells ts ls) : Lexes (ws ++ asShown ts) ls := by
  induction hm generalizing ws with
  | nil => exact .done _ (by simpa [asShown] using hws)
  | cons t ts l ls hm _ ih =>
    obtain ⟨rest, hs, hr⟩ := asShown_cons t ts
    have hf := asShown_fits h hs
    rw [hs, ← List.append_assoc]
    refine .step _ _ _ _ _ hws (meaningful_at hm hf) ?_
    rcases hr with ⟨rfl, rfl⟩ | ⟨u, us, rfl, rfl⟩
    · exact ih h.tail [] (by simp)
    · refine ih h.tail _ ?_
      cases u.spaced <;> simp [HSpace]

/-- C70 (annotations): `GENPYBIND(...)` is accepted exactly if its tokens, read
one by one and without regard to the white space between them, are annotations;
these are the annotations the declaration gets.  In particular other kinds of
tokens (operators, character literals, floating point or hexadecimal numbers,
literals with prefixes or suffixes) are never accepted. -/
theorem C70_annotations (ts : List PPToken) (h : Written ts) (as : List Annotation) :
    parseAnnotations (asShown ts) = .ok as ↔ ∃ ls, Spells ts ls ∧ Anns ls as := by
  rw [C02_parse_iff_grammar]
  constructor
  · rintro ⟨ls, hl, ha⟩
    exact ⟨ls, lexes_spells ts h [] (by simp) ls hl (anns_clean ha), ha⟩
  · rintro ⟨ls, hm, ha⟩
    exact ⟨ls, spells_lexes ts h [] (by simp) ls hm, ha⟩

theorem texts_of_uses {uses texts} (hw : ∀ ts ∈ uses, Written ts)
    (ht : AttributeTexts uses texts) (as : List Annotation) :
    TextsRead marker texts as ↔ UsesMean uses as := by
  induction ht generalizing as with
  | nil =>
    constructor
    · intro h; cases h; exact .nil
    · intro h; cases h; exact .nil
  | cons ts text us texts h1 h2 ih =>
    have hts := hw ts (List.mem_cons_self ..)
    have ih := ih (fun x hx => hw x (List.mem_cons_of_mem _ hx))
    have e := (C70_text ts hts text).1 h1
    constructor
    · intro h
      generalize hg : text :: texts = all at h
      cases h with
      | nil => cases hg
      | other t ts as hn _ =>
        cases hg
        rw [e] at hn
        exact absurd (List.prefix_append ..) hn
      | ours t ls new ts' as hl ha hr =>
        simp only [List.cons.injEq] at hg
        obtain ⟨hg, rfl⟩ := hg
        rw [e] at hg
        have := List.append_cancel_left hg
        subst this
        obtain ⟨ls', hm, ha'⟩ := (C70_annotations ts hts new).1
          ((C02_parse_iff_grammar _ _).2 ⟨ls, hl, ha⟩)
        exact .cons ts us ls' new as hm ha' ((ih as).1 hr)
    · intro h
      cases h with
      | cons _ _ ls new as hm ha hr =>
        obtain ⟨ls', hl, ha'⟩ := (C02_parse_iff_grammar _ _).1
          ((C70_annotations ts hts new).2 ⟨ls, hm, ha⟩)
        rw [e]
        exact .ours _ ls' new texts as hl ha' ((ih as).2 hr)

/-- C70: a declaration with several uses of the macro gets the annotations
written in them, in order, and nothing is reported; if any use is not well-formed,
a parse error is reported for the declaration. -/
theorem C70_declaration (id : Nat) (uses : List (List PPToken)) (texts : List Str)
    (hw : ∀ ts ∈ uses, Written ts) (ht : AttributeTexts uses texts) :
    (∀ as, UsesMean uses as → parseAllTexts id [] texts = (as, [])) ∧
    ((¬ ∃ as, UsesMean uses as) →
      ∃ g ∈ (parseAllTexts id [] texts).2, (∃ e, g.kind = .parseError e) ∧ g.decl = id) := by
  refine ⟨fun as h => C12_texts_read id texts as ((texts_of_uses hw ht as).2 h), fun h => ?_⟩
  refine C12_malformed_reported id texts ?_
  rintro ⟨as, has⟩
  exact h ⟨as, (texts_of_uses hw ht as).1 has⟩

theorem spells_congr {a b : List PPToken} (h : a.map (·.spelling) = b.map (·.spelling))
    {ls} (ha : Spells a ls) : Spells b ls := by
  induction ha generalizing b with
  | nil =>
    cases b with
    | nil => exact .nil
    | cons => simp at h
  | cons t ts l ls hm _ ih =>
    cases b with
    | nil => simp at h
    | cons u us =>
      simp only [List.map_cons, List.cons.injEq] at h
      exact .cons u us l ls (h.1 ▸ hm) (ih h.2)

theorem usesMean_congr {u v} (h : SameTokens u v) {as} (hu : UsesMean u as) : UsesMean v as := by
  induction h generalizing as with
  | nil => exact hu
  | cons a b us vs he _ ih =>
    cases hu with
    | cons _ _ ls new as hm ha hr => exact .cons _ _ ls new as (spells_congr he hm) ha (ih hr)

/-- C70 (layout): how the annotations are laid out (blanks, comments, line
breaks) makes no difference to the annotations of a declaration. -/
theorem C70_layout (id : Nat) (u v : List (List PPToken)) (tu tv : List Str)
    (hu : ∀ ts ∈ u, Written ts) (hv : ∀ ts ∈ v, Written ts)
    (htu : AttributeTexts u tu) (htv : AttributeTexts v tv)
    (hs : SameTokens u v) (as : List Annotation) (h : parseAllTexts id [] tu = (as, [])) :
    parseAllTexts id [] tv = (as, []) := by
  have : ∃ as', UsesMean u as' := by
    apply Classical.byContradiction
    intro hn
    obtain ⟨g, hg, -⟩ := (C70_declaration id u tu hu htu).2 hn
    rw [h] at hg
    cases hg
  obtain ⟨as', hm⟩ := this
  have e := (C70_declaration id u tu hu htu).1 as' hm
  rw [h] at e
  cases e
  exact (C70_declaration id v tv hv htv).1 as (usesMean_congr hs hm)

/-! ### An example: `GENPYBIND(expose_as( "x" ),hidden)` -/

def exMacro : List PPToken :=
  [{ spelling := t%"expose_as" }, { spelling := t%"(" },
   { spelling := t%"\"x\"", literal := true, spaced := true },
   { spelling := t%")", spaced := true }, { spelling := t%"," }, { spelling := t%"hidden" }]

theorem ident_meaningful (c : Char) (s : Str) (h : (c :: s).all isIdentifierContinue = true)
    (hc : isIdentifierStart c = true) : Meaningful (c :: s) (.ident (c :: s)) :=
  .ident c s ((isIdStart_iff c).1 hc) fun x hx =>
    (isIdCont_iff x).1 (List.all_eq_true.1 h x (List.mem_cons_of_mem _ hx))

theorem apart_of (a b : Str) (h : (a.getLast?.any isIdentifierContinue &&
    b.head?.any isIdentifierContinue) = false) : Apart a b := by
  intro p x c r ha hb hx hc
  subst ha hb
  rw [← isIdCont_iff] at hx hc
  simp [hx, hc] at h

theorem exMacro_spells : Spells exMacro
    [.ident t%"expose_as", .lpar, .str t%"x", .rpar, .comma, .ident t%"hidden"] := by
  refine .cons _ _ _ _ (ident_meaningful _ _ (by decide) (by decide)) ?_
  refine .cons _ _ _ _ .lpar ?_
  refine .cons _ _ _ _ (.str t%"x" (.plain _ _ (by decide) (by decide) .nil)) ?_
  refine .cons _ _ _ _ .rpar ?_
  refine .cons _ _ _ _ .comma ?_
  exact .cons _ _ _ _ (ident_meaningful _ _ (by decide) (by decide)) .nil

theorem exMacro_written : Written exMacro := by
  have h := exMacro_spells
  unfold exMacro at h ⊢
  cases h with
  | cons _ _ _ _ h1 h => cases h with
  | cons _ _ _ _ h2 h => cases h with
  | cons _ _ _ _ h3 h => cases h with
  | cons _ _ _ _ h4 h => cases h with
  | cons _ _ _ _ h5 h => cases h with
  | cons _ _ _ _ h6 h =>
    refine .cons _ _ _ ⟨.inl ⟨_, h1⟩, by decide, by decide⟩ (fun _ => apart_of _ _ (by decide)) ?_
    refine .cons _ _ _ ⟨.inl ⟨_, h2⟩, by decide, by decide⟩ (fun _ => apart_of _ _ (by decide)) ?_
    refine .cons _ _ _ ⟨.inl ⟨_, h3⟩, by decide, by decide⟩ (fun _ => apart_of _ _ (by decide)) ?_
    refine .cons _ _ _ ⟨.inl ⟨_, h4⟩, by decide, by decide⟩ (fun _ => apart_of _ _ (by decide)) ?_
    refine .cons _ _ _ ⟨.inl ⟨_, h5⟩, by decide, by decide⟩ (fun _ => apart_of _ _ (by decide)) ?_
    exact .one _ ⟨.inl ⟨_, h6⟩, by decide, by decide⟩

example : annotateLiteral exMacro = t%"\"expose_as( \\\"x\\\" ),hidden\"" := by decide +kernel

example : AttributeText exMacro (marker ++ t%"expose_as( \"x\" ),hidden") :=
  (C70_text exMacro exMacro_written _).2 (by decide +kernel)

theorem exMacro_means : UsesMean [exMacro]
    [⟨.exposeAs, [.string t%"x"]⟩, ⟨.hidden, []⟩] := by
  refine .cons _ _ _ [⟨.exposeAs, [.string t%"x"]⟩, ⟨.hidden, []⟩] [] exMacro_spells ?_ .nil
  refine .cons [_, _, _, _] _ [_] _ (.mk .exposeAs _ _ (.parens [_] _ (.last _ _ (.str _)))) ?_
  exact .last [_] _ (.mk .hidden _ _ .omitted)

example : parseAllTexts 7 [] [marker ++ t%"expose_as( \"x\" ),hidden"] =
    ([⟨.exposeAs, [.string t%"x"]⟩, ⟨.hidden, []⟩], []) :=
  (C70_declaration 7 [exMacro] _ (by simpa using exMacro_written)
    (.cons _ _ _ _ ((C70_text exMacro exMacro_written _).2 (by decide +kernel)) .nil)).1 _
    exMacro_means

/-- A hexadecimal number is one token of the source, but no argument. -/
example : Foreign t%"0x10" :=
  .number t%"0" 'x' t%"10" (by simp) (by simp [Digit]) (.inr (.inl (by decide)))

end Verif
