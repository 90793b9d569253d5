import Verif.Spec.CodeOf
import Verif.Lemmas.Printing
/-! Reading generated code: brackets and literals. -/
namespace Verif.Spec.Code
open Verif Verif.Spec

/-! ### Steps in different surroundings -/

/-- The position as seen from `d + 1` brackets further out. -/
def Pos.deep (p : Pos) (d : Nat) : Pos := { mode := p.mode, depth := p.depth + (d + 1) }

theorem next_deep {p q : Pos} {c : Char} (h : p.next c = some q) (d : Nat) :
    (p.deep d).next c = some (q.deep d) := by
  obtain ⟨mode, depth, angle, dash⟩ := p
  unfold Pos.deep
  cases mode
  · unfold Pos.next at h ⊢
    dsimp only at h ⊢
    by_cases h1 : c = '"'
    · simp only [if_pos h1, Option.some.injEq] at h ⊢; rw [← h]
    simp only [if_neg h1] at h ⊢
    by_cases h2 : c = '\''
    · simp only [if_pos h2, Option.some.injEq] at h ⊢; rw [← h]
    simp only [if_neg h2] at h ⊢
    by_cases h3 : isOpen c = true
    · simp only [if_pos h3, Option.some.injEq] at h ⊢; rw [← h]; simp; omega
    simp only [if_neg h3] at h ⊢
    by_cases h4 : isClose c = true
    · simp only [if_pos h4] at h ⊢
      cases depth with
      | zero => cases h
      | succ n =>
        simp only [Option.some.injEq] at h
        rw [← h]
        show some _ = some _
        simp; omega
    simp only [if_neg h4] at h ⊢
    rw [if_pos (by omega)]
    by_cases h5 : depth ≠ 0
    · simp only [if_pos h5, Option.some.injEq] at h; rw [← h]
    simp only [if_neg h5] at h
    by_cases h6 : c = '<'
    · simp only [if_pos h6, Option.some.injEq] at h; rw [← h]
    simp only [if_neg h6] at h
    split at h
    · cases angle with
      | zero => cases h
      | succ n => simp only [Option.some.injEq] at h; rw [← h]
    · simp only [Option.some.injEq] at h; rw [← h]
  all_goals
    unfold Pos.next at h ⊢
    dsimp only at h ⊢
    repeat' split at h
    all_goals first
      | (cases h; done)
      | (simp only [Option.some.injEq] at h
         rw [← h]
         try simp_all)

/-- The position in `a` more angle brackets. -/
def Pos.angled (p : Pos) (a : Nat) : Pos := { p with angle := p.angle + a }

theorem next_angled {p q : Pos} {c : Char} (h : p.next c = some q) (a : Nat) :
    (p.angled a).next c = some (q.angled a) := by
  obtain ⟨mode, depth, angle, dash⟩ := p
  unfold Pos.angled
  cases mode
  · unfold Pos.next at h ⊢
    dsimp only at h ⊢
    by_cases h1 : c = '"'
    · simp only [if_pos h1, Option.some.injEq] at h ⊢; rw [← h]
    simp only [if_neg h1] at h ⊢
    by_cases h2 : c = '\''
    · simp only [if_pos h2, Option.some.injEq] at h ⊢; rw [← h]
    simp only [if_neg h2] at h ⊢
    by_cases h3 : isOpen c = true
    · simp only [if_pos h3, Option.some.injEq] at h ⊢; rw [← h]
    simp only [if_neg h3] at h ⊢
    by_cases h4 : isClose c = true
    · simp only [if_pos h4] at h ⊢
      cases depth with
      | zero => cases h
      | succ n => simp only [Option.some.injEq] at h ⊢; rw [← h]
    simp only [if_neg h4] at h ⊢
    by_cases h5 : depth ≠ 0
    · simp only [if_pos h5, Option.some.injEq] at h ⊢; rw [← h]
    simp only [if_neg h5] at h ⊢
    by_cases h6 : c = '<'
    · simp only [if_pos h6, Option.some.injEq] at h ⊢; rw [← h]; simp; omega
    simp only [if_neg h6] at h ⊢
    by_cases h7 : (decide (c = '>') && !dash) = true
    · rw [if_pos h7] at h ⊢
      cases angle with
      | zero => cases h
      | succ n =>
        simp only [Option.some.injEq] at h
        rw [← h]
        have : n + 1 + a = (n + a) + 1 := by omega
        rw [this]
    · rw [if_neg h7] at h ⊢
      simp only [Option.some.injEq] at h ⊢
      rw [← h]
  all_goals
    unfold Pos.next at h ⊢
    dsimp only at h ⊢
    repeat' split at h
    all_goals first
      | (cases h; done)
      | (simp only [Option.some.injEq] at h
         rw [← h]
         try simp_all)

theorem scan_append {x y : Str} {p q : Pos} (h : scan p x = some q) : scan p (x ++ y) = scan q y := by
  induction x generalizing p with
  | nil => simp only [scan, Option.some.injEq] at h; subst h; rfl
  | cons c x ih =>
    simp only [scan, List.cons_append] at h ⊢
    split at h
    · cases h
    · rename_i hn
      rw [if_neg hn]
      cases hp : p.next c with
      | none => rw [hp] at h; cases h
      | some p' =>
        rw [hp] at h
        exact ih h

theorem inside_append {x y : Str} {p q : Pos} (h : inside p x = some q) :
    inside p (x ++ y) = inside q y := by
  induction x generalizing p with
  | nil => simp only [inside, Option.some.injEq] at h; subst h; rfl
  | cons c x ih =>
    simp only [inside, List.cons_append] at h ⊢
    cases hp : p.next c with
    | none => rw [hp] at h; cases h
    | some p' =>
      rw [hp] at h
      dsimp only at h ⊢
      split at h
      · cases h
      · rename_i hn
        rw [if_neg hn]
        exact ih h

theorem inside_of_scan {x : Str} {p q : Pos} (h : scan p x = some q) (d : Nat) :
    inside (p.deep d) x = some (q.deep d) := by
  induction x generalizing p with
  | nil => simp only [scan, Option.some.injEq] at h; subst h; rfl
  | cons c x ih =>
    simp only [scan, inside] at h ⊢
    split at h
    · cases h
    · cases hp : p.next c with
      | none => rw [hp] at h; cases h
      | some p' =>
        rw [hp] at h
        rw [next_deep hp d]
        dsimp only
        rw [if_neg (by simp [Pos.deep])]
        exact ih h

theorem inside_deep {x : Str} {p q : Pos} (h : inside p x = some q) (d : Nat) :
    inside (p.deep d) x = some (q.deep d) := by
  induction x generalizing p with
  | nil => simp only [inside, Option.some.injEq] at h; subst h; rfl
  | cons c x ih =>
    simp only [inside] at h ⊢
    cases hp : p.next c with
    | none => rw [hp] at h; cases h
    | some p' =>
      rw [hp] at h
      rw [next_deep hp d]
      dsimp only at h ⊢
      split at h
      · cases h
      · rw [if_neg (by simp [Pos.deep])]
        exact ih h

/-! ### Texts in brackets -/

/-- Brackets in the text match; it can be in any number of other brackets. -/
def Nested (x : Str) : Prop := ∀ d, inside { depth := d + 1 } x = some { depth := d + 1 }

theorem Nested.append {x y : Str} (hx : Nested x) (hy : Nested y) : Nested (x ++ y) :=
  fun d => (inside_append (hx d)).trans (hy d)

theorem Nested.nil : Nested [] := fun _ => rfl

theorem Nested.of_inside {x : Str} (h : inside { depth := 1 } x = some { depth := 1 }) : Nested x := by
  intro d
  cases d with
  | zero => exact h
  | succ d =>
    have := inside_deep h d
    simp only [Pos.deep] at this
    rw [show 1 + (d + 1) = d + 1 + 1 by omega] at this
    exact this

/-- The text takes us from `a` to `b` open angle brackets, and does not end an argument. -/
def Flat (a : Nat) (x : Str) (b : Nat) : Prop := scan { angle := a } x = some { angle := b }

theorem Flat.append {a b c : Nat} {x y : Str} (hx : Flat a x b) (hy : Flat b y c) : Flat a (x ++ y) c :=
  (scan_append hx).trans hy

theorem Flat.nil {a : Nat} : Flat a [] a := rfl

theorem Flat.nested {a b : Nat} {x : Str} (h : Flat a x b) : Nested x := by
  intro d
  have := inside_of_scan h d
  simpa [Pos.deep] using this

theorem inside_angled {x : Str} {p q : Pos} (h : inside p x = some q) (a : Nat) :
    inside (p.angled a) x = some (q.angled a) := by
  induction x generalizing p with
  | nil => simp only [inside, Option.some.injEq] at h; subst h; rfl
  | cons c x ih =>
    simp only [inside] at h ⊢
    cases hp : p.next c with
    | none => rw [hp] at h; cases h
    | some p' =>
      rw [hp] at h
      rw [next_angled hp a]
      dsimp only at h ⊢
      split at h
      · cases h
      · rename_i hn
        rw [if_neg (by simpa [Pos.angled] using hn)]
        exact ih h

theorem scan_angled {x : Str} {p q : Pos} (h : scan p x = some q) (a : Nat) :
    scan (p.angled a) x = some (q.angled a) := by
  induction x generalizing p with
  | nil => simp only [scan, Option.some.injEq] at h; subst h; rfl
  | cons c x ih =>
    simp only [scan] at h ⊢
    split at h
    · cases h
    · rename_i hn
      rw [if_neg]
      · cases hp : p.next c with
        | none => rw [hp] at h; cases h
        | some p' =>
          rw [hp] at h
          rw [next_angled hp a]
          exact ih h
      · intro h'
        apply hn
        simp [Pos.top, Pos.outside, Pos.angled] at h' ⊢
        rcases h' with ⟨h1, h2, h3⟩ | h'
        · exact .inl ⟨h1, ⟨of_decide_eq_true h2.1, of_decide_eq_true h2.2⟩, by omega⟩
        · exact .inr ⟨h'.1, of_decide_eq_true h'.2.1, of_decide_eq_true h'.2.2⟩

theorem Flat.more {a b : Nat} {x : Str} (h : Flat a x b) (k : Nat) : Flat (a + k) x (b + k) :=
  scan_angled h k

theorem Clean.flat {x : Str} (h : Clean x) (a : Nat) : Flat a x a := by
  have : Flat 0 x 0 := h.2.2
  simpa using this.more a

/-- Group in brackets. -/
theorem Flat.group {a : Nat} {x : Str} {o c : Char} (h : Nested x) (ho : isOpen o = true)
    (hc : isClose c = true) : Flat a (o :: x ++ [c]) a := by
  have step : ∀ (y : Str) (p q : Pos), 0 < p.depth → inside p y = some q →
      ∀ t, scan p (y ++ t) = scan q t := by
    intro y
    induction y with
    | nil => intro p q _ h t; simp only [inside, Option.some.injEq] at h; rw [h]; rfl
    | cons c y ih =>
      intro p q hp h t
      simp only [inside, scan, List.cons_append] at h ⊢
      cases hn : p.next c with
      | none => rw [hn] at h; cases h
      | some p' =>
        rw [hn] at h
        dsimp only at h
        split at h
        · cases h
        · rw [if_neg]
          · exact ih p' q (by omega) h t
          · have : p.depth ≠ 0 := by omega
            simp [Pos.top, Pos.outside, this]
  have h1 := step x _ _ (by simp [Pos.angled]) (inside_angled (h 0) a) [c]
  unfold Flat
  have ho' : ({ angle := a } : Pos).next o = some { depth := 1, angle := a } := by
    simp only [isOpen, Bool.or_eq_true, decide_eq_true_eq] at ho
    rcases ho with (rfl | rfl) | rfl <;> rfl
  have hc' : ({ depth := 1, angle := a } : Pos).next c = some { angle := a } := by
    simp only [isClose, Bool.or_eq_true, decide_eq_true_eq] at hc
    rcases hc with (rfl | rfl) | rfl <;> rfl
  have hsep : ∀ d, isOpen d = true ∨ isClose d = true → d ≠ ',' ∧ d ≠ ';' := by
    intro d hd
    constructor <;> rintro rfl <;> revert hd <;> decide
  rw [List.cons_append, scan, if_neg (by simp [hsep o (.inl ho)]), ho']
  simp only [Pos.angled, Nat.zero_add] at h1
  dsimp only
  rw [h1, scan, if_neg (by simp [hsep c (.inr hc)]), hc']
  rfl

/-! ### Words and literals -/

theorem word_plain {c : Char} (h : isIdentifierContinue c = true) :
    c ≠ '"' ∧ c ≠ '\'' ∧ isOpen c = false ∧ isClose c = false ∧ c ≠ '<' ∧ c ≠ '>' ∧ c ≠ '-' ∧
    c ≠ ',' ∧ c ≠ ';' ∧ isSpace c = false ∧ c ≠ '{' := by
  have key : ∀ d : Char, isIdentifierContinue d = false → c ≠ d := by
    rintro d hd rfl
    rw [h] at hd
    cases hd
  refine ⟨key _ (by decide), key _ (by decide), ?_, ?_, key _ (by decide), key _ (by decide),
    key _ (by decide), key _ (by decide), key _ (by decide), ?_, key _ (by decide)⟩
  · simp [isOpen, key '(' (by decide), key '[' (by decide), key '{' (by decide)]
  · simp [isClose, key ')' (by decide), key ']' (by decide), key '}' (by decide)]
  · simp [isSpace, key ' ' (by decide), key '\n' (by decide), key '\t' (by decide)]

theorem Word.flat {x : Str} (h : ∀ c ∈ x, isIdentifierContinue c = true) (a : Nat) : Flat a x a := by
  induction x with
  | nil => rfl
  | cons c x ih =>
    obtain ⟨h1, h2, h3, h4, h5, h6, h7, h8, h9, _, _⟩ := word_plain (h c (by simp))
    have : Flat a [c] a := by
      simp [Flat, scan, Pos.next, h1, h2, h3, h4, h5, h6, h7, h8, h9]
    exact this.append (ih fun d hd => h d (by simp [hd]))

theorem escapeChar_scan (c : Char) (p : Pos) (hp : p.mode = .string) (t : Str) :
    scan p (escapeChar c ++ t) = scan p t := by
  have oct : ∀ k, k < 8 → (Char.ofNat (48 + k)).toNat = 48 + k :=
    fun k hk => toNat_ofNat_small (by omega)
  have od : ∀ k, k < 8 → Char.ofNat (48 + k) ≠ '"' ∧ Char.ofNat (48 + k) ≠ '\\' ∧
      Char.ofNat (48 + k) ≠ '\n' := by
    intro k hk
    simp only [ne_eq, char_eq_iff, oct k hk, Char.reduceToNat]
    omega
  obtain ⟨mode, depth, angle, dash⟩ := p
  simp only at hp
  subst hp
  have plain : ∀ (d : Char) (t : Str), d ≠ '"' → d ≠ '\\' → d ≠ '\n' →
      scan ⟨.string, depth, angle, dash⟩ (d :: t) = scan ⟨.string, depth, angle, dash⟩ t := by
    intro d t h1 h2 h3
    simp [scan, Pos.top, Pos.outside, Pos.next, h1, h2, h3]
  have escaped : ∀ (d : Char) (t : Str),
      scan ⟨.string, depth, angle, dash⟩ ('\\' :: d :: t) = scan ⟨.string, depth, angle, dash⟩ t := by
    intro d t
    simp [scan, Pos.top, Pos.outside, Pos.next]
  unfold escapeChar
  split
  · exact escaped ..
  split
  · exact escaped ..
  split
  · exact escaped ..
  split
  · exact escaped ..
  rename_i h1 h2 h3 h4
  split
  · exact plain _ _ h4 h1 h3
  · obtain ⟨a1, a2, a3⟩ := od (c.toNat / 8 % 8) (by omega)
    obtain ⟨b1, b2, b3⟩ := od (c.toNat % 8) (by omega)
    exact (escaped ..).trans ((plain _ _ a1 a2 a3).trans (plain _ _ b1 b2 b3))

theorem Flat.literal (s : Str) (a : Nat) : Flat a (emitStringLiteral s) a := by
  have : ∀ s : Str, ∀ t, scan { mode := .string, angle := a } (writeEscaped s ++ t) =
      scan { mode := .string, angle := a } t := by
    intro s
    induction s with
    | nil => intro t; rfl
    | cons c s ih =>
      intro t
      unfold writeEscaped at ih ⊢
      rw [List.flatMap_cons, List.append_assoc, escapeChar_scan _ _ rfl]
      exact ih t
  show scan { angle := a } ('"' :: (writeEscaped s ++ ['"'])) = _
  have h1 : scan { angle := a } ('"' :: (writeEscaped s ++ ['"'])) =
      scan { mode := .string, angle := a } (writeEscaped s ++ ['"']) := rfl
  rw [h1, this]
  rfl

theorem unescape_reads {t bs rest : Str} (h : Reads t bs rest) :
    ∀ n, t.length < n → unescape n t = some (bs, rest) := by
  induction h with
  | close rest =>
    intro n hn
    cases n with
    | zero => cases hn
    | succ n => simp [unescape]
  | plain c t bs rest h1 h2 h3 _ ih =>
    intro n hn
    cases n with
    | zero => cases hn
    | succ n => simp [unescape, h1, h2, h3, ih n (by simp at hn; omega)]
  | simple c x t bs rest hs _ ih =>
    intro n hn
    cases n with
    | zero => cases hn
    | succ n => simp [unescape, hs, ih n (by simp at hn; omega)]
  | octal t v k bs rest ho hv _ ih =>
    intro n hn
    cases n with
    | zero => cases hn
    | succ n =>
      cases t with
      | nil => cases ho
      | cons d r =>
        have hd : simpleEscape? d = none := by
          cases hs : simpleEscape? d with
          | none => rfl
          | some x =>
            exfalso
            have ho' := ho
            unfold octalEscape at ho'
            cases hoct : octal? d with
            | none => dsimp only at ho'; rw [hoct] at ho'; cases ho'
            | some y =>
              unfold octal? at hoct
              split at hoct
              · rename_i hr
                unfold simpleEscape? at hs
                have key : ∀ e : Char, (e.toNat < 48 ∨ 55 < e.toNat) → d ≠ e := by
                  rintro e he rfl; omega
                rw [if_neg (key _ (by decide)), if_neg (key _ (by decide)), if_neg (key _ (by decide)),
                  if_neg (key _ (by decide)), if_neg (key _ (by decide)), if_neg (key _ (by decide)),
                  if_neg (key _ (by decide)), if_neg (key _ (by decide)), if_neg (key _ (by decide)),
                  if_neg (key _ (by decide)), if_neg (key _ (by decide))] at hs
                cases hs
              · cases hoct
        have := ih n (by
          simp only [List.length_cons, List.length_drop] at hn ⊢
          omega)
        simp [unescape, hd, ho, hv, this]

theorem literal_emit {s : Str} (hs : Bytes s) : literal (emitStringLiteral s) = some s := by
  have h := unescape_reads (writeEscaped_reads hs []) ((writeEscaped s ++ ['"']).length + 1) (by simp)
  unfold literal emitStringLiteral
  simp only
  rw [h]

theorem literal_ne (c : Char) (t : Str) (h : c ≠ '"') : literal (c :: t) = none := by
  unfold literal
  split
  · rename_i heq
    cases heq
    exact absurd rfl h
  · rfl

theorem number_print (n : Nat) : number (printNat n) = some n := by
  obtain ⟨h1, h2, h3⟩ := printNat_spec n
  unfold number
  rw [h3, if_pos]
  simp only [ne_eq, Bool.and_eq_true, decide_eq_true_eq, h1, not_false_eq_true, true_and,
    List.all_eq_true]
  intro c hc
  have := h2 c hc
  unfold Digit at this
  simp only [isDigit, Bool.and_eq_true, decide_eq_true_eq, Char.le_def, UInt32.le_iff_toNat_le]
  exact this

/-! ### Groups, arguments and statements -/

theorem groupLoop_inside {x : Str} {p q : Pos} (h : inside p x = some q) (done t : Str) :
    groupLoop p done (x ++ t) = groupLoop q (x.reverse ++ done) t := by
  induction x generalizing p done with
  | nil => simp only [inside, Option.some.injEq] at h; subst h; rfl
  | cons c x ih =>
    simp only [inside, groupLoop, List.cons_append] at h ⊢
    cases hp : p.next c with
    | none => rw [hp] at h; cases h
    | some p' =>
      rw [hp] at h
      dsimp only at h ⊢
      split at h
      · cases h
      · rename_i hn
        rw [if_neg hn, ih h]
        simp

theorem group_nested {o c : Char} {x t : Str} (h : Nested x) (hc : isClose c = true) :
    group o (o :: (x ++ c :: t)) = some (x, t) := by
  have hc' : ({ depth := 1 } : Pos).next c = some {} := by
    simp only [isClose, Bool.or_eq_true, decide_eq_true_eq] at hc
    rcases hc with (rfl | rfl) | rfl <;> rfl
  rw [group, if_pos rfl, groupLoop_inside (h 0)]
  simp [groupLoop, hc']

/-- Read template arguments without leaving these. -/
def within (p : Pos) : Str → Option Pos
  | [] => some p
  | c :: t =>
    match p.next c with
    | none => none
    | some p => if p.angle = 0 then none else within p t

theorem within_append {x y : Str} {p q : Pos} (h : within p x = some q) :
    within p (x ++ y) = within q y := by
  induction x generalizing p with
  | nil => simp only [within, Option.some.injEq] at h; subst h; rfl
  | cons c x ih =>
    simp only [within, List.cons_append] at h ⊢
    cases hp : p.next c with
    | none => rw [hp] at h; cases h
    | some p' =>
      rw [hp] at h
      dsimp only at h ⊢
      split at h
      · cases h
      · rename_i hn
        rw [if_neg hn]
        exact ih h

theorem within_of_scan {x : Str} {p q : Pos} (h : scan p x = some q) (a : Nat) :
    within (p.angled (a + 1)) x = some (q.angled (a + 1)) := by
  induction x generalizing p with
  | nil => simp only [scan, Option.some.injEq] at h; subst h; rfl
  | cons c x ih =>
    simp only [scan, within] at h ⊢
    split at h
    · cases h
    · cases hp : p.next c with
      | none => rw [hp] at h; cases h
      | some p' =>
        rw [hp] at h
        rw [next_angled hp (a + 1)]
        dsimp only
        rw [if_neg (by simp [Pos.angled])]
        exact ih h

/-- Template arguments. -/
def Angled (x : Str) : Prop := within { angle := 1 } x = some { angle := 1 }

theorem Angled.append {x y : Str} (hx : Angled x) (hy : Angled y) : Angled (x ++ y) :=
  (within_append hx).trans hy

theorem Clean.angled {x : Str} (h : Clean x) : Angled x := within_of_scan h.2.2 0

theorem angleLoop_within {x : Str} {p q : Pos} (h : within p x = some q) (done t : Str) :
    angleLoop p done (x ++ t) = angleLoop q (x.reverse ++ done) t := by
  induction x generalizing p done with
  | nil => simp only [within, Option.some.injEq] at h; subst h; rfl
  | cons c x ih =>
    simp only [within, angleLoop, List.cons_append] at h ⊢
    cases hp : p.next c with
    | none => rw [hp] at h; cases h
    | some p' =>
      rw [hp] at h
      dsimp only at h ⊢
      split at h
      · cases h
      · rename_i hn
        rw [if_neg hn, ih h]
        simp

theorem angleGroup_angled {x t : Str} (h : Angled x) : angleGroup (x ++ '>' :: t) = some (x, t) := by
  rw [angleGroup, angleLoop_within h]
  simp [angleLoop, Pos.next, isOpen, isClose]

theorem splitLoop_scan {x : Str} {p q : Pos} (h : scan p x = some q) (done t : Str) :
    splitLoop p done (x ++ t) = splitLoop q (x.reverse ++ done) t := by
  induction x generalizing p done with
  | nil => simp only [scan, Option.some.injEq] at h; subst h; rfl
  | cons c x ih =>
    simp only [scan, splitLoop, List.cons_append] at h ⊢
    split at h
    · cases h
    · rename_i hn
      rw [if_neg (by
        intro h'
        exact hn (by simp [h']))]
      cases hp : p.next c with
      | none => rw [hp] at h; cases h
      | some p' =>
        rw [hp] at h
        dsimp only
        rw [ih h]
        simp

/-- Arguments are separated by commas. -/
def joined : List Str → Str
  | [] => []
  | x :: xs => x ++ xs.flatMap (t%", " ++ ·)

theorem intercalate_joined (xs : List Str) : (t%", ").intercalate xs = joined xs := by
  cases xs with
  | nil => rfl
  | cons x xs =>
    induction xs generalizing x with
    | nil => simp [List.intercalate, joined]
    | cons y ys ih =>
      have := ih y
      simp only [List.intercalate, List.intersperse, List.flatten_cons, joined, List.flatMap_cons] at this ⊢
      rw [this]
      simp

/-- An argument. -/
structure Argument (x : Str) : Prop where
  flat : Flat 0 x 0
  start : ∃ c t, x = c :: t ∧ isSpace c = false

theorem Clean.argument {x : Str} (h : Clean x) : Argument x := ⟨h.2.2, h.1⟩

theorem splitLoop_joined (x : Str) (xs : List Str) (done : Str) (hx : Flat 0 x 0)
    (hxs : ∀ y ∈ xs, Flat 0 y 0) :
    splitLoop {} done (x ++ xs.flatMap (t%", " ++ ·)) = some ((done.reverse ++ x) :: xs.map (' ' :: ·)) := by
  induction xs generalizing x done with
  | nil =>
    rw [splitLoop_scan hx]
    simp [splitLoop, Pos.top, Pos.outside]
  | cons y ys ih =>
    rw [splitLoop_scan hx, List.flatMap_cons]
    have h1 : ∀ t, splitLoop {} (x.reverse ++ done) (t%", " ++ y ++ t) =
        (splitLoop {} [] ((' ' :: y) ++ t)).map ((x.reverse ++ done).reverse :: ·) := fun _ => rfl
    rw [h1, ih (' ' :: y) [] ?_ fun z hz => hxs z (by simp [hz])]
    · simp
    · exact Flat.append (x := t%" ") rfl (hxs y (by simp))

theorem splitArgs_joined (xs : List Str) (h : ∀ x ∈ xs, Argument x) : splitArgs (joined xs) = some xs := by
  cases xs with
  | nil => rfl
  | cons x xs =>
    obtain ⟨c, t, hx, hc⟩ := (h x (by simp)).start
    unfold splitArgs joined
    rw [if_neg (by simp [hx, hc]), splitLoop_joined x xs [] (h x (by simp)).flat
      fun y hy => (h y (by simp [hy])).flat]
    have drop : ∀ y, Argument y → y.dropWhile isSpace = y := by
      intro y hy
      obtain ⟨c, t, rfl, hc⟩ := hy.start
      simp [List.dropWhile, hc]
    simp only [List.reverse_nil, List.nil_append, Option.map_some, List.map_cons, List.map_map,
      Option.some.injEq, List.cons.injEq]
    refine ⟨drop x (h x (by simp)), ?_⟩
    rw [List.map_congr_left (g := id)]
    · simp
    · intro y hy
      have := drop y (h y (by simp [hy]))
      simp [List.dropWhile, isSpace] at this ⊢
      exact this

theorem joined_nested (xs : List Str) (h : ∀ x ∈ xs, Argument x) : Nested (joined xs) := by
  cases xs with
  | nil => exact .nil
  | cons x xs =>
    refine ((h x (by simp)).flat.nested).append ?_
    have : ∀ ys : List Str, (∀ y ∈ ys, Argument y) → Nested (ys.flatMap (t%", " ++ ·)) := by
      intro ys
      induction ys with
      | nil => exact fun _ => .nil
      | cons y ys ih =>
        intro hy
        rw [List.flatMap_cons]
        exact (Nested.append (x := t%", ") (fun _ => rfl) (hy y (by simp)).flat.nested).append
          (ih fun z hz => hy z (by simp [hz]))
    exact this xs fun y hy => h y (by simp [hy])

theorem joined_angled (xs : List Str) (h : ∀ x ∈ xs, Argument x) : Angled (joined xs) := by
  have one : ∀ x, Argument x → Angled x := fun x hx => within_of_scan hx.flat 0
  cases xs with
  | nil => rfl
  | cons x xs =>
    refine (one x (h x (by simp))).append ?_
    have : ∀ ys : List Str, (∀ y ∈ ys, Argument y) → Angled (ys.flatMap (t%", " ++ ·)) := by
      intro ys
      induction ys with
      | nil => exact fun _ => rfl
      | cons y ys ih =>
        intro hy
        rw [List.flatMap_cons]
        exact (Angled.append (x := t%", ") rfl (one y (hy y (by simp)))).append
          (ih fun z hz => hy z (by simp [hz]))
    exact this xs fun y hy => h y (by simp [hy])

theorem joined_flat (xs : List Str) (h : ∀ x ∈ xs, Argument x) (a : Nat) :
    Flat (a + 1) (joined xs) (a + 1) := by
  have one : ∀ x, Argument x → Flat (a + 1) x (a + 1) := fun x hx => by
    simpa using hx.flat.more (a + 1)
  cases xs with
  | nil => rfl
  | cons x xs =>
    refine (one x (h x (by simp))).append ?_
    have : ∀ ys : List Str, (∀ y ∈ ys, Argument y) → Flat (a + 1) (ys.flatMap (t%", " ++ ·)) (a + 1) := by
      intro ys
      induction ys with
      | nil => exact fun _ => rfl
      | cons y ys ih =>
        intro hy
        rw [List.flatMap_cons]
        have hc : Flat (a + 1) t%", " (a + 1) := by
          simp [Flat, scan, Pos.top, Pos.outside, Pos.next, isOpen, isClose]
        exact (Flat.append (x := t%", ") hc (one y (hy y (by simp)))).append
          (ih fun z hz => hy z (by simp [hz]))
    exact this xs fun y hy => h y (by simp [hy])

/-! ### Statements -/

theorem items_inside (file : Bool) {x : Str} {p q : Pos} (h : inside p x = some q) (hp : 0 < p.depth)
    (done t : Str) (hd : done ≠ []) :
    itemsLoop file (p.deep 0) done (x ++ t) = itemsLoop file (q.deep 0) (x.reverse ++ done) t := by
  induction x generalizing p done with
  | nil => simp only [inside, Option.some.injEq] at h; subst h; rfl
  | cons c x ih =>
    simp only [inside, itemsLoop, List.cons_append] at h ⊢
    cases hn : p.next c with
    | none => rw [hn] at h; cases h
    | some p' =>
      rw [hn] at h
      dsimp only at h
      split at h
      · cases h
      · rename_i hz
        have hp' : p.depth ≠ 0 := by omega
        rw [if_neg (by simp [Pos.deep, hp']), if_neg (by simp [hd]), next_deep hn 0]
        dsimp only
        rw [if_neg (by simp [Pos.deep]), if_neg (by simp [Pos.deep, hz]),
          ih h (by omega) (c :: done) (by simp)]
        simp

theorem items_flat {x : Str} {p q : Pos} (h : scan p x = some q) (done t : Str) (hd : done ≠ [])
    (hl : done.getLast? ≠ some '{') :
    itemsLoop false (p.deep 0) done (x ++ t) = itemsLoop false (q.deep 0) (x.reverse ++ done) t := by
  induction x generalizing p done with
  | nil => simp only [scan, Option.some.injEq] at h; subst h; rfl
  | cons c x ih =>
    simp only [scan, itemsLoop, List.cons_append] at h ⊢
    split at h
    · cases h
    · rename_i hs
      cases hn : p.next c with
      | none => rw [hn] at h; cases h
      | some p' =>
        rw [hn] at h
        dsimp only at h
        rw [if_neg (by
          intro h'
          apply hs
          simp only [Bool.and_eq_true] at h'
          obtain ⟨⟨h1, h2⟩, h3⟩ := h'
          have h1 := of_decide_eq_true h1
          have h2 : p.mode = .code := of_decide_eq_true h2
          have h3 : p.depth + (0 + 1) = 1 := of_decide_eq_true h3
          have : p.depth = 0 := by omega
          simp [h1, Pos.outside, h2, this]), if_neg (by simp [hd]), next_deep hn 0]
        dsimp only
        rw [if_neg (by simp [Pos.deep]), if_neg (by simp [hl]), ih h (c :: done) (by simp)
          (by rw [List.getLast?_cons]; cases hg : done.getLast? with
              | none => exact absurd (List.getLast?_eq_none_iff.1 hg) hd
              | some e => rw [hg] at hl; simpa using hl)]
        simp

/-- A statement, up to its semicolon. -/
structure Sentence (x : Str) : Prop where
  flat : Flat 0 x 0
  start : ∃ c t, x = c :: t ∧ isSpace c = false ∧ c ≠ '{' ∧ c ≠ ';'

theorem statements_sentence {x : Str} (h : Sentence x) (t : Str) :
    itemsLoop false { depth := 1 } [] (x ++ ';' :: t) =
      (itemsLoop false { depth := 1 } [] t).map (x :: ·) := by
  obtain ⟨c, y, rfl, hs, hb, hsc⟩ := h.start
  have hf := h.flat
  unfold Flat at hf
  rw [scan] at hf
  split at hf
  · cases hf
  cases hn : ({ angle := 0 } : Pos).next c with
  | none => rw [hn] at hf; cases hf
  | some p =>
    rw [hn] at hf
    dsimp only at hf
    have hcl : c ≠ '}' := by
      rintro rfl
      cases hn
    rw [List.cons_append, itemsLoop, if_neg (by simp [hsc]), if_neg (by simp [hs])]
    have := next_deep hn 0
    have e : ({ angle := 0 } : Pos).deep 0 = { depth := 1 } := rfl
    rw [e] at this
    rw [this]
    dsimp only
    rw [if_neg (by simp [Pos.deep]), if_neg (by simp [hcl]),
      items_flat hf [c] (';' :: t) (by simp) (by simpa using hb)]
    show itemsLoop false { depth := 1 } (y.reverse ++ [c]) (';' :: t) = _
    rw [itemsLoop, if_pos (by rfl)]
    simp

theorem items_block (file : Bool) {x : Str} (h : Nested x) (t : Str) :
    itemsLoop file { depth := 1 } [] ('{' :: (x ++ '}' :: t)) =
      (itemsLoop file { depth := 1 } [] t).map (('{' :: (x ++ ['}'])) :: ·) := by
  have h1 : itemsLoop file { depth := 1 } [] ('{' :: (x ++ '}' :: t)) =
      itemsLoop file (({ depth := 1 } : Pos).deep 0) ['{'] (x ++ '}' :: t) := by
    rw [itemsLoop]
    rfl
  rw [h1, items_inside file (h 0) (by simp) ['{'] _ (by simp)]
  show itemsLoop file { depth := 2 } _ _ = _
  rw [itemsLoop, if_neg (by simp), if_neg (by simp [isSpace])]
  show (if _ then _ else _) = _
  rw [if_neg (by simp)]
  rw [if_pos (by simp)]
  simp

theorem items_space (file : Bool) (s t : Str) (h : s.all isSpace = true) :
    itemsLoop file { depth := 1 } [] (s ++ t) = itemsLoop file { depth := 1 } [] t := by
  induction s with
  | nil => rfl
  | cons c s ih =>
    simp only [List.all_cons, Bool.and_eq_true] at h
    have hc : c ≠ ';' := by
      rintro rfl
      exact absurd h.1 (by decide)
    rw [List.cons_append, itemsLoop, if_neg (by simp [hc]), if_pos (by simp [h.1])]
    exact ih h.2

/-! ### Prefixes -/

theorem strip_append (p t : Str) : strip p (p ++ t) = some t := by
  induction p with
  | nil => cases t <;> rfl
  | cons c p ih => simp [strip, ih]

theorem stripEnd_append (s t : Str) : stripEnd s (t ++ s) = some t := by
  simp [stripEnd, strip_append]

theorem span_append (f : Char → Bool) (x t : Str) (hx : ∀ c ∈ x, f c = true)
    (ht : ∀ c, t.head? = some c → f c = false) : span f (x ++ t) = (x, t) := by
  induction x with
  | nil =>
    cases t with
    | nil => rfl
    | cons c t => simp [span, ht c rfl]
  | cons c x ih =>
    simp [span, hx c (by simp), ih fun d hd => hx d (by simp [hd])]

end Verif.Spec.Code
