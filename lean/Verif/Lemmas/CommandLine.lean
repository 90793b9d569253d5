import Verif.Model.Adjusters
import Verif.Spec.CommandLine
/-!
# Lemmas about argument adjusters
-/
namespace Verif
open Spec

theorem stripFront_iff (p s r : Str) : stripFront p s = some r ↔ s = p ++ r := by
  induction p generalizing s with
  | nil => simp [stripFront, eq_comm]
  | cons c p ih =>
    cases s with
    | nil => simp [stripFront]
    | cons d s =>
      rw [stripFront]
      by_cases h : c = d
      · subst h
        simp [ih]
      · rw [if_neg h]
        simp [Ne.symm h]

theorem stripFront_none (p s : Str) : stripFront p s = none ↔ ¬ p <+: s := by
  constructor
  · rintro h ⟨r, rfl⟩
    rw [(stripFront_iff p _ r).2 rfl] at h
    cases h
  · intro h
    cases hc : stripFront p s with
    | none => rfl
    | some r => exact absurd ⟨r, ((stripFront_iff p s r).1 hc).symm⟩ h

theorem stripFront_isSome (p s : Str) : (stripFront p s).isSome = true ↔ p <+: s := by
  cases hc : stripFront p s with
  | none => simpa using (stripFront_none p s).1 hc
  | some r => simp [(stripFront_iff p s r).1 hc]

theorem stripFront_append (p r : Str) : stripFront p (p ++ r) = some r :=
  (stripFront_iff p _ r).2 rfl

/-! ### Splitting a language standard -/

theorem split_cpp (dialect version s : Str) (h : CppStandard dialect version s) :
    splitPlusPlus s = (dialect, version) := by
  obtain ⟨h | h, rfl⟩ := h <;> subst h <;> rfl

theorem split_head (v : Str) : (splitPlusPlus v).1 = [] ∨ ∃ c a s, v = c :: s ∧ (splitPlusPlus v).1 = c :: a ∧
    (splitPlusPlus s).1 = a ∧ ¬ (c = '+' ∧ ∃ t, s = '+' :: t) := by
  cases v with
  | nil => exact .inl rfl
  | cons c s =>
    by_cases h : c = '+' ∧ ∃ t, s = '+' :: t
    · obtain ⟨rfl, t, rfl⟩ := h
      exact .inl rfl
    · refine .inr ⟨c, _, s, rfl, ?_, rfl, h⟩
      rw [splitPlusPlus]
      intro t h1 h2
      exact h ⟨h1, t, h2⟩

/-- Splitting is undone by joining, unless the first part ends in `+`. -/
theorem split_again (v y : Str) (h : (splitPlusPlus v).1.getLast? ≠ some '+') :
    splitPlusPlus ((splitPlusPlus v).1 ++ '+' :: '+' :: y) = ((splitPlusPlus v).1, y) := by
  induction v with
  | nil => rfl
  | cons c s ih =>
    rcases split_head (c :: s) with h0 | ⟨c', a, s', he, h1, h2, h3⟩
    · rw [h0]
      rfl
    · cases he
      rw [h1] at h ⊢
      have hrec : splitPlusPlus (a ++ '+' :: '+' :: y) = (a, y) := by
        rw [← h2]
        apply ih
        rw [h2]
        cases a with
        | nil => simp
        | cons x l => simpa [List.getLast?_cons_cons] using h
      have : ∀ l, splitPlusPlus l = (a, y) → (c = '+' → ∀ t, l ≠ '+' :: t) →
          splitPlusPlus (c :: l) = (c :: a, y) := by
        intro l hl hn
        rw [splitPlusPlus]
        · rw [hl]
        · intro t h1 h2
          exact hn h1 t h2
      refine this _ hrec ?_
      rintro rfl t ht
      cases a with
      | nil => simp at h
      | cons x l =>
        rcases split_head s with h0 | ⟨c2, a2, s2, he2, h12, _, _⟩
        · rw [h0] at h2
          cases h2
        · rw [h12] at h2
          have hx : x = '+' := (List.cons.inj ht).1
          exact h3 ⟨rfl, s2, by rw [he2, (List.cons.inj h2).1, hx]⟩

/-! ### The loop, by what is read -/

theorem loop_separator (l : List Str) (s : Standard) :
    adjustLoop (t%"--" :: l) s = ([], t%"--" :: l, s) := by
  rw [adjustLoop.eq_def]
  dsimp only
  exact if_pos rfl

theorem loop_separate (v : Str) (l : List Str) (s : Standard) :
    adjustLoop (t%"-x" :: v :: l) s = adjustLoop l s := by
  rw [adjustLoop.eq_def]
  dsimp only
  rw [if_neg (by decide)]
  rfl

theorem loop_missing (s : Standard) : adjustLoop [t%"-x"] s = ([], [], s) := rfl

theorem loop_joined (v : Str) (hv : v ≠ []) (l : List Str) (s : Standard) :
    adjustLoop ((t%"-x" ++ v) :: l) s = adjustLoop l s := by
  cases v with
  | nil => exact absurd rfl hv
  | cons c v =>
    rw [adjustLoop.eq_def]
    dsimp only
    rw [if_neg (by simp)]
    rfl

/-- The state after a `-std=` argument. -/
def standardFrom (v : Str) : Standard :=
  { usesLater := (stripFront t%"2" (splitPlusPlus v).2).isSome, pre := (splitPlusPlus v).1 }

theorem loop_std (v : Str) (l : List Str) (s : Standard) :
    adjustLoop ((t%"-std=" ++ v) :: l) s =
      if (standardFrom v).usesLater then
        ((t%"-std=" ++ v) :: (adjustLoop l (standardFrom v)).1, (adjustLoop l (standardFrom v)).2)
      else adjustLoop l (standardFrom v) := by
  rw [adjustLoop.eq_def]
  dsimp only
  rw [if_neg (by simp)]
  rfl

theorem loop_other (a : Str) (h1 : a ≠ t%"--") (h2 : ¬ t%"-x" <+: a) (h3 : ¬ t%"-std=" <+: a)
    (l : List Str) (s : Standard) :
    adjustLoop (a :: l) s = (a :: (adjustLoop l s).1, (adjustLoop l s).2) := by
  rw [adjustLoop.eq_def]
  dsimp only
  rw [if_neg h1, (stripFront_none _ _).2 h2, (stripFront_none _ _).2 h3]

/-- Every list of arguments can be read. -/
theorem reads_total (args : List Str) : ∃ is rest, ReadsArgs args is rest := by
  generalize hn : args.length = n
  induction n using Nat.strongRecOn generalizing args with
  | ind n ih =>
    cases args with
    | nil => exact ⟨_, _, .nil⟩
    | cons a l =>
      simp only [List.length_cons] at hn
      by_cases h1 : a = t%"--"
      · subst h1
        exact ⟨_, _, .separator⟩
      · by_cases h2 : t%"-x" <+: a
        · obtain ⟨v, rfl⟩ := h2
          cases v with
          | nil =>
            cases l with
            | nil => exact ⟨_, _, .missing⟩
            | cons v l =>
              simp only [List.length_cons] at hn
              obtain ⟨is, r, h⟩ := ih l.length (by omega) l rfl
              exact ⟨_, _, .langSeparate h⟩
          | cons c v =>
            obtain ⟨is, r, h⟩ := ih l.length (by omega) l rfl
            exact ⟨_, _, .langJoined (by simp) h⟩
        · obtain ⟨is, r, h⟩ := ih l.length (by omega) l rfl
          by_cases h3 : t%"-std=" <+: a
          · obtain ⟨v, rfl⟩ := h3
            exact ⟨_, _, .std h⟩
          · exact ⟨_, _, .other h1 h2 h3 h⟩

/-- Items that are kept. -/
def kept : Item → Bool
  | .lang _ => false
  | .std v => (standardFrom v).usesLater
  | .other _ => true

/-- The state after items. -/
def standardAfter (s : Standard) : List Item → Standard
  | [] => s
  | .std v :: is => standardAfter (standardFrom v) is
  | _ :: is => standardAfter s is

/-- What the loop does in terms of items. -/
theorem loop_reads (args : List Str) (is : List Item) (rest : List Str) (h : ReadsArgs args is rest)
    (s : Standard) :
    (adjustLoop args s).2 = (rest, standardAfter s is) ∧
    ∀ tail is' rest', ReadsArgs tail is' rest' → ReadsArgs ((adjustLoop args s).1 ++ tail) (is.filter kept ++ is') rest' := by
  induction h generalizing s with
  | nil => exact ⟨rfl, fun _ _ _ h => h⟩
  | separator =>
    rw [loop_separator]
    exact ⟨rfl, fun _ _ _ h => h⟩
  | missing => exact ⟨rfl, fun _ _ _ h => h⟩
  | langSeparate _ ih =>
    rw [loop_separate]
    exact ih s
  | langJoined hv _ ih =>
    rw [loop_joined _ hv]
    exact ih s
  | @std v l is rest _ ih =>
    rw [loop_std]
    obtain ⟨h1, h2⟩ := ih (standardFrom v)
    cases hl : (standardFrom v).usesLater with
    | false =>
      rw [if_neg (by simp)]
      refine ⟨h1, ?_⟩
      rw [List.filter_cons, if_neg (by simp [kept, hl])]
      exact h2
    | true =>
      rw [if_pos rfl]
      refine ⟨h1, ?_⟩
      rw [List.filter_cons, if_pos (by simp [kept, hl])]
      exact fun tail is' rest' h => .std (h2 tail is' rest' h)
  | other a1 a2 a3 _ ih =>
    rw [loop_other _ a1 a2 a3]
    obtain ⟨h1, h2⟩ := ih s
    exact ⟨h1, fun tail is' rest' h => .other a1 a2 a3 (h2 tail is' rest' h)⟩

/-- The rest is read as such. -/
theorem reads_rest (args : List Str) (is : List Item) (rest : List Str) (h : ReadsArgs args is rest) :
    ReadsArgs rest [] rest := by
  induction h with
  | nil => exact .nil
  | separator => exact .separator
  | missing => exact .nil
  | langSeparate _ ih => exact ih
  | langJoined _ _ ih => exact ih
  | std _ ih => exact ih
  | other _ _ _ _ ih => exact ih

theorem loop_rest (args : List Str) (is : List Item) (rest : List Str) (h : ReadsArgs args is rest)
    (s : Standard) : adjustLoop rest s = ([], rest, s) := by
  induction h with
  | nil => rfl
  | separator => exact loop_separator _ s
  | missing => rfl
  | langSeparate _ ih => exact ih
  | langJoined _ _ ih => exact ih
  | std _ ih => exact ih
  | other _ _ _ _ ih => exact ih

/-- The standard appended if there is no later one. -/
def appended (s : Standard) : List Item := if s.usesLater then [] else [.std (s.pre ++ t%"++17")]

theorem adjust_reads (program : Str) (args : List Str) (is : List Item) (rest : List Str)
    (h : ReadsArgs args is rest) :
    ∃ out, adjustStandard (program :: args) = some (program :: out) ∧
      ReadsArgs out (.lang t%"c++" :: is.filter kept ++ appended (standardAfter {} is)) rest := by
  obtain ⟨h1, h2⟩ := loop_reads args is rest h {}
  refine ⟨_, rfl, ?_⟩
  rw [h1]
  dsimp only
  have hr : ReadsArgs ((if (standardAfter {} is).usesLater = true then []
      else [t%"-std=" ++ (standardAfter {} is).pre ++ t%"++17"]) ++ rest)
      (appended (standardAfter {} is)) rest := by
    unfold appended
    have := reads_rest args is rest h
    split
    · exact this
    · rw [List.append_assoc]
      exact .std this
  have := h2 _ _ _ hr
  rw [← List.append_assoc] at this
  exact .langJoined (v := t%"c++") (by simp) this

/-! ### Adjusting again -/

theorem loop_kept (args : List Str) (is : List Item) (rest : List Str) (h : ReadsArgs args is rest)
    (s s0 : Standard) (tail : List Str) :
    adjustLoop ((adjustLoop args s).1 ++ tail) s0 =
      ((adjustLoop args s).1 ++ (adjustLoop tail (standardAfter s0 (is.filter kept))).1,
        (adjustLoop tail (standardAfter s0 (is.filter kept))).2) := by
  induction h generalizing s s0 with
  | nil => rfl
  | separator =>
    rw [loop_separator]
    rfl
  | missing => rfl
  | langSeparate _ ih =>
    rw [loop_separate]
    exact ih s s0
  | langJoined hv _ ih =>
    rw [loop_joined _ hv]
    exact ih s s0
  | @std v l is rest _ ih =>
    rw [loop_std]
    cases hl : (standardFrom v).usesLater with
    | false =>
      rw [if_neg (by simp), List.filter_cons, if_neg (by simp [kept, hl])]
      exact ih _ s0
    | true =>
      rw [if_pos rfl, List.filter_cons, if_pos (by simp [kept, hl])]
      dsimp only
      rw [List.cons_append, loop_std, hl, if_pos rfl, ih]
      rfl
  | other a1 a2 a3 _ ih =>
    rw [loop_other _ a1 a2 a3]
    dsimp only
    rw [List.cons_append, loop_other _ a1 a2 a3, ih]
    rfl

theorem after_kept (is : List Item) (s s0 : Standard)
    (h : (standardAfter s is).usesLater = true) :
    standardAfter s0 (is.filter kept) = standardAfter s is ∨
      (standardAfter s is = s ∧ standardAfter s0 (is.filter kept) = s0) := by
  induction is generalizing s s0 with
  | nil => exact .inr ⟨rfl, rfl⟩
  | cons i is ih =>
    cases i with
    | lang _ => exact ih s s0 h
    | other _ => exact ih s s0 h
    | std v =>
      rw [List.filter_cons]
      change (standardAfter (standardFrom v) is).usesLater = true at h
      change _ = standardAfter (standardFrom v) is ∨ _
      left
      split
      · change standardAfter (standardFrom v) _ = _
        rcases ih (standardFrom v) (standardFrom v) h with h1 | ⟨h1, h2⟩
        · exact h1
        · rw [h1, h2]
      · rename_i hk
        rcases ih (standardFrom v) s0 h with h1 | ⟨h1, _⟩
        · exact h1
        · rw [h1] at h
          exact absurd h hk

/-- The state after items comes from one of them. -/
theorem after_mem (is : List Item) (s : Standard) :
    standardAfter s is = s ∨ ∃ v, Item.std v ∈ is ∧ standardAfter s is = standardFrom v := by
  induction is generalizing s with
  | nil => exact .inl rfl
  | cons i is ih =>
    cases i with
    | lang _ =>
      rcases ih s with h | ⟨v, hv, h⟩
      · exact .inl h
      · exact .inr ⟨v, List.mem_cons_of_mem _ hv, h⟩
    | other _ =>
      rcases ih s with h | ⟨v, hv, h⟩
      · exact .inl h
      · exact .inr ⟨v, List.mem_cons_of_mem _ hv, h⟩
    | std u =>
      right
      rcases ih (standardFrom u) with h | ⟨v, hv, h⟩
      · exact ⟨u, List.mem_cons_self .., h⟩
      · exact ⟨v, List.mem_cons_of_mem _ hv, h⟩

/-- The flag appended by the adjuster. -/
def appendedFlag (s : Standard) : List Str :=
  if s.usesLater then [] else [t%"-std=" ++ (s.pre ++ t%"++17")]

theorem adjust_eq (program : Str) (args : List Str) :
    adjustStandard (program :: args) = some (program :: t%"-xc++" ::
      ((adjustLoop args {}).1 ++ (appendedFlag (adjustLoop args {}).2.2 ++ (adjustLoop args {}).2.1))) := by
  unfold adjustStandard appendedFlag
  simp

theorem adjust_again (program : Str) (args : List Str) (is : List Item) (rest : List Str)
    (h : ReadsArgs args is rest)
    (hp : ∀ v, Item.std v ∈ is → (splitPlusPlus v).1.getLast? ≠ some '+') :
    (adjustStandard (program :: args)).bind adjustStandard = adjustStandard (program :: args) := by
  have h1 := (loop_reads args is rest h {}).1
  have hx : ∀ l, adjustLoop (t%"-xc++" :: l) {} = adjustLoop l {} :=
    fun l => loop_joined t%"c++" (by simp) l {}
  rw [adjust_eq, Option.bind_some, adjust_eq, hx, h1, loop_kept args is rest h]
  dsimp only
  have key : ∀ s, s = standardAfter {} (is.filter kept) →
      adjustLoop (appendedFlag (standardAfter {} is) ++ rest) s =
        ([], rest, { usesLater := (standardAfter {} is).usesLater, pre := (standardAfter {} is).pre }) := by
    rintro s rfl
    unfold appendedFlag
    by_cases hl : (standardAfter {} is).usesLater = true
    · have hs : standardAfter {} (is.filter kept) = standardAfter {} is := by
        rcases after_kept is {} {} hl with h2 | ⟨h2, _⟩
        · exact h2
        · rw [h2] at hl
          cases hl
      rw [if_pos hl, List.nil_append, loop_rest args is rest h, hs]
    · have hu : (standardAfter {} is).usesLater = false := by simpa using hl
      have hsp : splitPlusPlus ((standardAfter {} is).pre ++ t%"++17") =
          ((standardAfter {} is).pre, t%"17") := by
        rcases after_mem is {} with h2 | ⟨v, hv, h2⟩
        · rw [h2]
          rfl
        · rw [h2]
          exact split_again v t%"17" (hp v hv)
      have hst : standardFrom ((standardAfter {} is).pre ++ t%"++17") =
          { usesLater := false, pre := (standardAfter {} is).pre } := by
        unfold standardFrom
        rw [hsp]
        rfl
      rw [if_neg hl, List.cons_append, List.nil_append, loop_std, hst,
        if_neg (by simp), loop_rest args is rest h]
      exact congrArg (fun b => (([] : List Str), rest, Standard.mk b (standardAfter {} is).pre)) hu.symm
  rw [key _ rfl]
  simp

end Verif
