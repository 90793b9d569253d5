import Verif.Model.Identifier
import Verif.Spec.Identifier
import Verif.Lemmas.Printing
/-! `makeValidIdentifier`: the in-place loop computes `sanitizeF`. -/
namespace Verif
open Spec

/-- Functional counterpart: collapse runs of non-identifier characters. -/
def collapseF : Str → Str
  | [] => []
  | c :: cs =>
    if isIdentifierContinue c then c :: collapseF cs
    else '_' :: collapseF (cs.dropWhile fun x => !isIdentifierContinue x)
termination_by s => s.length
decreasing_by
  · simp
  · have := (List.dropWhile_sublist (l := cs) fun x => !isIdentifierContinue x).length_le
    simp; omega

/-- Functional counterpart with a given notion of acceptable first character. -/
def startF (p : Char → Bool) : Str → Str
  | [] => []
  | c :: cs =>
    if p c then collapseF (c :: cs)
    else '_' :: collapseF (cs.dropWhile fun x => !p x)

theorem startF_cont (s : Str) : startF isIdentifierContinue s = collapseF s := by
  cases s with
  | nil => rw [collapseF, startF]
  | cons c cs =>
    simp only [startF]
    split
    · rfl
    · rename_i h
      rw [collapseF, if_neg h]

theorem idCont_of_start {c : Char} (h : isIdentifierStart c = true) :
    isIdentifierContinue c = true := (isIdCont_iff c).2 (.inl ((isIdStart_iff c).1 h))

/-! ### find_if -/

theorem findIf_spec (p : Char → Bool) (buf : Str) (i : Nat) (hi : i ≤ buf.length) :
    findIf p buf buf.length i = some (i + ((buf.drop i).takeWhile fun x => !p x).length) := by
  generalize hn : buf.length - i = n
  induction n generalizing i with
  | zero =>
    have : i = buf.length := by omega
    unfold findIf
    simp [this]
  | succ n ih =>
    have hlt : i < buf.length := by omega
    unfold findIf
    rw [if_pos hlt]
    have hd : buf.drop i = buf[i] :: buf.drop (i + 1) := List.drop_eq_getElem_cons hlt
    have hg : buf[i]? = some buf[i] := List.getElem?_eq_getElem hlt
    rw [hg]
    simp only
    split
    · rename_i hp
      rw [hd, List.takeWhile_cons_of_neg (by simp [hp])]
      simp
    · rename_i hp
      rw [ih (i + 1) (by omega) (by omega), hd, List.takeWhile_cons_of_pos (by simp [hp])]
      simp only [List.length_cons, Option.some.injEq]
      omega

/-- Loop invariant; `p` is the predicate used for the last search. -/
structure MviInv (text : Str) (p : Char → Bool) (s : MviState) : Prop where
  len : s.buf.length = text.length
  out_le : s.output ≤ s.lastValid
  valid_le : s.lastValid ≤ text.length
  input_eq : s.input = s.lastValid +
    ((text.drop s.lastValid).takeWhile fun x => !p x).length
  unread : s.buf.drop s.lastValid = text.drop s.lastValid
  result : s.buf.take s.output ++ startF p (text.drop s.lastValid) = startF isIdentifierStart text
  pcont : ∀ c, p c = true → isIdentifierContinue c = true

theorem drop_takeWhile_length (q : Char → Bool) (l : Str) :
    l.drop (l.takeWhile q).length = l.dropWhile q := by
  induction l with
  | nil => simp
  | cons c cs ih => by_cases h : q c <;> simp [h, ih]

theorem MviInv.input_le {text p s} (h : MviInv text p s) : s.input ≤ text.length := by
  have h1 := (List.takeWhile_sublist (l := text.drop s.lastValid) fun x => !p x).length_le
  have h2 := h.valid_le
  rw [h.input_eq]
  simp only [List.length_drop] at h1
  omega

theorem MviInv.drop_input {text p s} (h : MviInv text p s) :
    text.drop s.input = (text.drop s.lastValid).dropWhile fun x => !p x := by
  rw [← drop_takeWhile_length, List.drop_drop, h.input_eq]

theorem MviInv.buf_input {text p s} (h : MviInv text p s) :
    s.buf.drop s.input = text.drop s.input := by
  have := congrArg (List.drop (s.input - s.lastValid)) h.unread
  have hle : s.lastValid ≤ s.input := by rw [h.input_eq]; omega
  rw [List.drop_drop, List.drop_drop] at this
  have e : s.lastValid + (s.input - s.lastValid) = s.input := by omega
  rwa [e] at this

theorem dropWhile_head {q : Char → Bool} {l : Str} {c cs} (h : l.dropWhile q = c :: cs) :
    q c = false := by
  have := List.head?_dropWhile_not q l
  rw [h] at this
  simpa using this

theorem startF_split {p : Char → Bool} {l : Str} {c cs}
    (hp : ∀ c, p c = true → isIdentifierContinue c = true)
    (h : l.dropWhile (fun x => !p x) = c :: cs) :
    startF p l = (if (l.takeWhile fun x => !p x).length ≠ 0 then ['_'] else [])
      ++ c :: collapseF cs := by
  have hc : p c = true := by simpa using dropWhile_head h
  have hcc := hp c hc
  cases l with
  | nil => simp at h
  | cons x xs =>
    by_cases hx : p x = true
    · simp [hx] at h
      obtain ⟨rfl, rfl⟩ := h
      simp [startF, hx]
      rw [collapseF, if_pos hcc]
    · simp [hx] at h
      simp [startF, hx, h]
      rw [collapseF, if_pos hcc]

theorem startF_end {p : Char → Bool} {l : Str}
    (h : l.dropWhile (fun x => !p x) = []) :
    startF p l = (if l.length ≠ 0 then ['_'] else []) := by
  cases l with
  | nil => simp [startF]
  | cons x xs =>
    by_cases hx : p x = true
    · simp [hx] at h
    · simp only [hx, Bool.not_false, List.dropWhile_cons_of_pos] at h
      simp only [startF, hx, Bool.false_eq_true, ↓reduceIte]
      rw [h, collapseF]
      simp

theorem storeAt_lt {buf : Str} {i : Nat} (c : Char) (h : i < buf.length) :
    storeAt buf i c = some (buf.set i c) := by simp [storeAt, h]

theorem take_set_succ (buf : Str) (i : Nat) (c : Char) (h : i < buf.length) :
    (buf.set i c).take (i + 1) = buf.take i ++ [c] := by
  rw [List.take_add_one, List.take_set, List.set_eq_of_length_le (by simp; omega)]
  simp [h]

theorem mviInit_inv (text : Str) :
    ∃ s, mviInit text = some s ∧ MviInv text isIdentifierStart s := by
  unfold mviInit
  rw [findIf_spec isIdentifierStart text 0 (by omega)]
  refine ⟨_, rfl, ?_⟩
  refine ⟨rfl, Nat.le_refl _, by simp, by simp, rfl, by simp, fun c => idCont_of_start⟩

theorem mviStep_inv {text p s} (h : MviInv text p s) :
    (s.input = text.length ∧ mviStep s = .done (startF isIdentifierStart text)) ∨
    (s.input < text.length ∧ ∃ s', mviStep s = .next s' ∧
      MviInv text isIdentifierContinue s' ∧ s.input < s'.input) := by
  have hin := h.input_le
  have hlv : s.lastValid ≤ s.input := by rw [h.input_eq]; omega
  have hout := h.out_le
  have hlen := h.len
  by_cases hend : s.input = text.length
  · left
    refine ⟨hend, ?_⟩
    have hdw : (text.drop s.lastValid).dropWhile (fun x => !p x) = [] := by
      rw [← h.drop_input, hend]; simp
    have hres := h.result
    rw [startF_end hdw] at hres
    unfold mviStep
    rw [if_pos (by omega)]
    by_cases hv : s.lastValid = s.buf.length
    · simp only [hv, ne_eq, not_true_eq_false, ↓reduceIte]
      rw [if_pos (by omega)]
      rw [← hres]
      simp [← hlen, hv]
    · simp only [ne_eq, hv, not_false_eq_true, ↓reduceIte]
      rw [storeAt_lt _ (by omega)]
      simp only [Option.map_some]
      rw [if_pos (by simp; omega), take_set_succ _ _ _ (by omega)]
      rw [← hres, if_pos]
      simp only [List.length_drop]; omega
  · right
    have hlt : s.input < text.length := by omega
    refine ⟨hlt, ?_⟩
    have hcons : text.drop s.input = text[s.input] :: text.drop (s.input + 1) :=
      List.drop_eq_getElem_cons hlt
    have hdw : (text.drop s.lastValid).dropWhile (fun x => !p x)
        = text[s.input] :: text.drop (s.input + 1) := by rw [← h.drop_input, hcons]
    have hsplit := startF_split h.pcont hdw
    have hres := h.result
    rw [hsplit] at hres
    have hpos : (((text.drop s.lastValid).takeWhile fun x => !p x).length ≠ 0) ↔
        s.input ≠ s.lastValid := by rw [h.input_eq]; omega
    simp only [hpos] at hres
    -- contents of the buffer at and after `input` are still those of the text
    have key : ∀ (buf' : Str) (out' : Nat), buf'.length = text.length → out' ≤ s.input →
        buf'.drop s.input = text.drop s.input →
        buf'.take out' ++ text[s.input] :: collapseF (text.drop (s.input + 1))
          = startF isIdentifierStart text →
        ∃ s', (match buf'[s.input]? with
          | none => MviStep.fault
          | some c =>
            match storeAt buf' out' c with
            | none => .fault
            | some buf =>
              match findIf isIdentifierContinue buf buf.length (s.input + 1) with
              | none => .fault
              | some i =>
                .next { buf := buf, lastValid := s.input + 1, output := out' + 1, input := i })
            = .next s' ∧ MviInv text isIdentifierContinue s' ∧ s.input < s'.input := by
      intro buf' out' hl ho hd hr
      have hg : buf'[s.input]? = some text[s.input] := by
        have h1 : (buf'.drop s.input)[0]? = (text.drop s.input)[0]? := by rw [hd]
        simpa [hlt] using h1
      rw [hg]
      simp only
      rw [storeAt_lt _ (by omega)]
      simp only
      rw [findIf_spec _ _ _ (by simp; omega)]
      have hdrop : (buf'.set out' text[s.input]).drop (s.input + 1) = text.drop (s.input + 1) := by
        rw [List.drop_set_of_lt (by omega)]
        have := congrArg (List.drop 1) hd
        simpa [List.drop_drop] using this
      refine ⟨_, rfl, ⟨by simp [hl], by simp; omega, by simp; omega, ?_, hdrop, ?_, fun _ => id⟩, ?_⟩
      · simp [hdrop]
      · simp only
        rw [take_set_succ _ _ _ (by omega), startF_cont, ← hr]
        simp
      · simp only; omega
    unfold mviStep
    rw [if_neg (by omega)]
    by_cases hne : s.input = s.lastValid
    · rw [if_neg (not_not_intro hne)] at hres ⊢
      exact key s.buf s.output hlen (by omega) h.buf_input hres
    · have hne' : s.input ≠ s.lastValid := hne
      rw [if_pos hne'] at hres ⊢
      rw [storeAt_lt _ (by omega)]
      simp only [Option.map_some]
      apply key
      · simp [hlen]
      · omega
      · rw [List.drop_set_of_lt (by omega)]; exact h.buf_input
      · rw [take_set_succ _ _ _ (by omega), ← hres]; simp

theorem mviRun_total {text p s} (h : MviInv text p s) (n : Nat)
    (hn : text.length - s.input < n) :
    mviRun n s = some (startF isIdentifierStart text) := by
  induction n generalizing p s with
  | zero => omega
  | succ n ih =>
    unfold mviRun
    rcases mviStep_inv h with ⟨-, h2⟩ | ⟨h1, s', h2, h3, h4⟩
    · rw [h2]
    · rw [h2]
      have := h3.input_le
      exact ih h3 (by omega)

theorem makeValidIdentifier_eq (text : Str) :
    makeValidIdentifier text = some (startF isIdentifierStart text) := by
  unfold makeValidIdentifier
  obtain ⟨s, h1, h2⟩ := mviInit_inv text
  rw [h1]
  exact mviRun_total h2 _ (by omega)

/-! ### The functional version meets the specification -/

theorem takeWhile_not_all {p : Char → Bool} {P : Char → Prop} (hp : ∀ c, p c = true ↔ P c)
    (l : Str) : ∀ c ∈ l.takeWhile (fun x => !p x), ¬ P c := by
  intro c hc hP
  have := takeWhile_all (p := fun x => !p x) (P := fun x => p x = false) (by simp) l c hc
  rw [(hp c).2 hP] at this
  cases this

theorem dropWhile_not_nfb {p : Char → Bool} {P : Char → Prop} (hp : ∀ c, p c = true ↔ P c)
    (l : Str) : NotFollowedBy (fun x => ¬ P x) (l.dropWhile (fun x => !p x)) := by
  intro c cs h hn
  have := dropWhile_head h
  simp at this
  exact hn ((hp c).1 this)

theorem collapseF_spec (s : Str) : Collapsed s (collapseF s) := by
  fun_induction collapseF s with
  | case1 => exact .nil
  | case2 c cs h ih => exact .keep _ _ _ ((isIdCont_iff c).1 h) ih
  | case3 c cs h ih =>
    have e : c :: cs = (c :: cs.takeWhile fun x => !isIdentifierContinue x)
        ++ cs.dropWhile fun x => !isIdentifierContinue x := by
      simp [List.takeWhile_append_dropWhile]
    conv => lhs; rw [e]
    refine .run _ _ _ (by simp) ?_ (dropWhile_not_nfb isIdCont_iff cs) ih
    intro x hx
    simp only [List.mem_cons] at hx
    rcases hx with rfl | hx
    · exact fun hc => h ((isIdCont_iff x).2 hc)
    · exact takeWhile_not_all isIdCont_iff cs x hx

theorem startF_spec (s : Str) : Sanitized s (startF isIdentifierStart s) := by
  cases s with
  | nil => exact .nil
  | cons c cs =>
    simp only [startF]
    split
    · rename_i h
      exact .good _ _ _ ((isIdStart_iff c).1 h) (collapseF_spec _)
    · rename_i h
      have e : c :: cs = (c :: cs.takeWhile fun x => !isIdentifierStart x)
          ++ cs.dropWhile fun x => !isIdentifierStart x := by
        simp [List.takeWhile_append_dropWhile]
      conv => lhs; rw [e]
      refine .bad _ _ _ (by simp) ?_ (dropWhile_not_nfb isIdStart_iff cs) (collapseF_spec _)
      intro x hx
      simp only [List.mem_cons] at hx
      rcases hx with rfl | hx
      · exact fun hc => h ((isIdStart_iff x).2 hc)
      · exact takeWhile_not_all isIdStart_iff cs x hx

theorem dropWhile_not_append {p : Char → Bool} {P : Char → Prop} (hp : ∀ c, p c = true ↔ P c)
    {bad s : Str} (hb : ∀ x ∈ bad, ¬ P x) (hs : NotFollowedBy (fun x => ¬ P x) s) :
    (bad ++ s).dropWhile (fun x => !p x) = s := by
  induction bad with
  | nil =>
    cases s with
    | nil => rfl
    | cons c cs =>
      have : P c := Classical.not_not.mp (hs c cs rfl)
      simp [(hp c).2 this]
  | cons b bs ih =>
    have : p b = false := by
      rw [Bool.eq_false_iff]; exact fun h => hb b (by simp) ((hp b).1 h)
    simp [this, ih (fun x hx => hb x (by simp [hx]))]

theorem collapsed_unique {s r : Str} (h : Collapsed s r) : r = collapseF s := by
  induction h with
  | nil => rw [collapseF]
  | keep c s r hc _ ih => rw [collapseF, if_pos ((isIdCont_iff c).2 hc), ih]
  | run bad s r hne hb hs _ ih =>
    cases bad with
    | nil => exact absurd rfl hne
    | cons b bs =>
      have hb0 : ¬ isIdentifierContinue b = true := fun h => hb b (by simp) ((isIdCont_iff b).1 h)
      rw [List.cons_append, collapseF, if_neg hb0, ih,
        dropWhile_not_append isIdCont_iff (fun x hx => hb x (by simp [hx])) hs]

theorem sanitized_unique {s r : Str} (h : Sanitized s r) : r = startF isIdentifierStart s := by
  cases h with
  | good c s r hc h =>
    rw [startF, if_pos ((isIdStart_iff c).2 hc)]
    exact collapsed_unique h
  | bad pre s r hne hb hs h =>
    cases pre with
    | nil => exact absurd rfl hne
    | cons b bs =>
      have hb0 : ¬ isIdentifierStart b = true := fun h => hb b (by simp) ((isIdStart_iff b).1 h)
      rw [List.cons_append, startF, if_neg hb0, collapsed_unique h,
        dropWhile_not_append isIdStart_iff (fun x hx => hb x (by simp [hx])) hs]
  | nil => rw [startF]

theorem underscore_idStart : IdStart '_' := .inr (.inr rfl)

theorem Spec.Collapsed.all_cont {s r : Str} (h : Collapsed s r) : ∀ x ∈ r, IdCont x := by
  induction h with
  | nil => simp
  | keep c s r hc _ ih => simpa using ⟨hc, ih⟩
  | run bad s r _ _ _ _ ih => simpa using ⟨.inl underscore_idStart, ih⟩

theorem Spec.Collapsed.length_le {s r : Str} (h : Collapsed s r) : r.length ≤ s.length := by
  induction h with
  | nil => simp
  | keep c s r hc _ ih => simpa using ih
  | run bad s r hne _ _ _ ih =>
    have := List.length_pos_iff.mpr hne
    simp; omega

theorem collapsed_self {s : Str} (h : ∀ x ∈ s, IdCont x) : Collapsed s s := by
  induction s with
  | nil => exact .nil
  | cons c s ih => exact .keep _ _ _ (h c (by simp)) (ih (fun x hx => h x (by simp [hx])))

theorem isValidIdentifier_iff (s : Str) : isValidIdentifier s = true ↔ ValidIdent s := by
  cases s with
  | nil => simp [isValidIdentifier, ValidIdent]
  | cons c cs =>
    simp only [isValidIdentifier, Bool.and_eq_true, List.all_eq_true, ValidIdent, isIdStart_iff,
      isIdCont_iff]
    constructor
    · rintro ⟨h1, h2⟩; exact ⟨c, cs, rfl, h1, h2⟩
    · rintro ⟨_, _, e, h1, h2⟩
      cases e
      exact ⟨h1, h2⟩

end Verif
