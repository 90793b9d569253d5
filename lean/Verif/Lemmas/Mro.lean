import Verif.Spec.Mro
/-!
# Merging lists of classes
-/
namespace Verif
open Spec

variable {α : Type} [DecidableEq α]

theorem goodHead_mem {ls : List (List α)} {c : α} (h : goodHead ls = some c) :
    (∃ l ∈ ls, l.head? = some c) ∧ ∀ l ∈ ls, c ∉ l.tail := by
  unfold goodHead at h
  have h1 := List.mem_of_find?_eq_some h
  have h2 := List.find?_some h
  simp only [List.mem_filterMap] at h1
  simp only [List.all_eq_true, decide_eq_true_eq] at h2
  exact ⟨h1, h2⟩

theorem dropHead_not_mem {c : α} {l : List α} (h : c ∉ l.tail) : c ∉ dropHead c l := by
  unfold dropHead
  split
  · exact h
  · rename_i hn
    cases l with
    | nil => simp
    | cons a l =>
      simp only [List.head?_cons, Option.some.injEq] at hn
      simp only [List.tail_cons] at h
      simp only [List.mem_cons, not_or]
      exact ⟨fun e => hn e.symm, h⟩

theorem mem_dropHead {c a : α} {l : List α} : a ∈ l → a = c ∨ a ∈ dropHead c l := by
  intro h
  unfold dropHead
  split
  · rename_i hc
    cases l with
    | nil => cases h
    | cons b l =>
      simp only [List.head?_cons, Option.some.injEq] at hc
      rcases List.mem_cons.1 h with rfl | h
      · exact .inl hc
      · exact .inr h
  · exact .inr h

theorem dropHead_sublist (c : α) (l : List α) : (dropHead c l).Sublist l := by
  unfold dropHead
  split
  · exact List.tail_sublist l
  · exact List.Sublist.refl l

/-- What a merged list is like. -/
theorem merge_spec : ∀ (n : Nat) (ls : List (List α)) (out : List α), mergeMro n ls = some out →
    out.Nodup ∧ (∀ a, a ∈ out ↔ ∃ l ∈ ls, a ∈ l) ∧ ∀ l ∈ ls, l.Sublist out
  | n, ls, out, h => by
    have hempty : ls.all (·.isEmpty) = true → out = [] →
        out.Nodup ∧ (∀ a, a ∈ out ↔ ∃ l ∈ ls, a ∈ l) ∧ ∀ l ∈ ls, l.Sublist out := by
      rintro he rfl
      have he : ∀ l ∈ ls, l = [] := by simpa using he
      refine ⟨List.nodup_nil, fun a => ?_, fun l hl => ?_⟩
      · constructor
        · intro h
          cases h
        · rintro ⟨l, hl, ha⟩
          rw [he l hl] at ha
          exact ha
      · rw [he l hl]
        exact List.Sublist.refl []
    cases n with
    | zero =>
      unfold mergeMro at h
      split at h
      · rename_i he
        exact hempty he (Option.some.inj h).symm
      · cases h
    | succ n =>
      unfold mergeMro at h
      split at h
      · rename_i he
        exact hempty he (Option.some.inj h).symm
      · rw [Option.bind_eq_some_iff] at h
        obtain ⟨c, hc, h⟩ := h
        rw [Option.map_eq_some_iff] at h
        obtain ⟨out, hm, rfl⟩ := h
        obtain ⟨hnd, hmem, hsub⟩ := merge_spec n _ _ hm
        obtain ⟨⟨l0, hl0, hc0⟩, htail⟩ := goodHead_mem hc
        refine ⟨List.nodup_cons.2 ⟨fun hco => ?_, hnd⟩, fun a => ?_, fun l hl => ?_⟩
        · obtain ⟨l, hl, hcl⟩ := (hmem c).1 hco
          obtain ⟨l', hl', rfl⟩ := List.mem_map.1 hl
          exact dropHead_not_mem (htail l' hl') hcl
        · rw [List.mem_cons, hmem]
          constructor
          · rintro (rfl | ⟨l, hl, ha⟩)
            · exact ⟨l0, hl0, List.mem_of_mem_head? hc0⟩
            · obtain ⟨l', hl', rfl⟩ := List.mem_map.1 hl
              exact ⟨l', hl', (dropHead_sublist c l').subset ha⟩
          · rintro ⟨l, hl, ha⟩
            rcases mem_dropHead (c := c) ha with h | h
            · exact .inl h
            · exact .inr ⟨_, List.mem_map_of_mem hl, h⟩
        · have := hsub _ (List.mem_map_of_mem (f := dropHead c) hl)
          unfold dropHead at this
          split at this
          · rename_i hh
            cases l with
            | nil => cases hh
            | cons b l =>
              simp only [List.head?_cons, Option.some.injEq] at hh
              subst hh
              exact this.cons_cons _
          · exact this.cons _

/-- Lists without common elements are put one after the other. -/
theorem merge_disjoint : ∀ (n : Nat) (E : List (List α)) (l : List α) (Ls : List (α × List α)),
    (∀ e ∈ E, e = []) → (l ++ (Ls.map fun p => p.1 :: p.2).flatten).Nodup →
    (l ++ (Ls.map fun p => p.1 :: p.2).flatten).length ≤ n →
    mergeMro n (E ++ (l :: Ls.map fun p => p.1 :: p.2) ++ [Ls.map (·.1)]) =
      some (l ++ (Ls.map fun p => p.1 :: p.2).flatten) := by
  have hE : ∀ E : List (List α), (∀ e ∈ E, e = []) → E.filterMap List.head? = [] := by
    intro E hE
    rw [List.filterMap_eq_nil_iff]
    intro e he
    rw [hE e he]
    rfl
  have hdrop : ∀ (E : List (List α)) (c : α), (∀ e ∈ E, e = []) → E.map (dropHead c) = E := by
    intro E c hE
    rw [List.map_congr_left (g := id)]
    · simp
    · intro e he
      rw [hE e he]
      rfl
  have hLs : ∀ (c : α) (Ls : List (α × List α)), c ∉ (Ls.map fun p => p.1 :: p.2).flatten →
      (Ls.map fun p => p.1 :: p.2).map (dropHead c) = Ls.map fun p => p.1 :: p.2 := by
    intro c Ls h
    rw [List.map_map]
    apply List.map_congr_left
    intro p hp
    have : p.1 ≠ c := by
      rintro rfl
      exact h (List.mem_flatten.2 ⟨_, List.mem_map_of_mem hp, by simp⟩)
    simp [dropHead, this]
  have hfst : ∀ (c : α) (Ls : List (α × List α)), c ∈ Ls.map (·.1) → c ∈ (Ls.map fun p => p.1 :: p.2).flatten := by
    intro c Ls h
    obtain ⟨p, hp, rfl⟩ := List.mem_map.1 h
    exact List.mem_flatten.2 ⟨_, List.mem_map_of_mem hp, by simp⟩
  intro n
  induction n with
  | zero =>
    intro E l Ls he _ hn
    rw [Nat.le_zero, List.length_eq_zero_iff, List.append_eq_nil_iff] at hn
    obtain ⟨rfl, hn⟩ := hn
    cases Ls with
    | nil =>
      unfold mergeMro
      rw [if_pos]
      · rfl
      · simp only [List.all_append, Bool.and_eq_true]
        refine ⟨⟨?_, by simp⟩, by simp⟩
        rw [List.all_eq_true]
        intro e h
        simp [he e h]
    | cons p Ls => simp at hn
  | succ n ih =>
    intro E l Ls he hnd hn
    cases l with
    | cons c l =>
      unfold mergeMro
      rw [if_neg (by simp)]
      have hnd' := hnd
      rw [List.cons_append, List.nodup_cons] at hnd
      have hcl : c ∉ l := fun h => hnd.1 (by simp [h])
      have hcL : c ∉ (Ls.map fun p => p.1 :: p.2).flatten := fun h => hnd.1 (List.mem_append_right _ h)
      have hg : goodHead (E ++ ((c :: l) :: Ls.map fun p => p.1 :: p.2) ++ [Ls.map (·.1)]) = some c := by
        unfold goodHead
        rw [List.filterMap_append, List.filterMap_append, hE E he, List.nil_append, List.filterMap_cons_some (f := List.head?) (b := c) rfl,
          List.cons_append, List.find?_cons_of_pos]
        rw [List.all_eq_true]
        intro m hm
        rw [decide_eq_true_eq]
        rcases List.mem_append.1 hm with hm | hm
        · rcases List.mem_append.1 hm with hm | hm
          · rw [he m hm]
            simp
          · rcases List.mem_cons.1 hm with rfl | hm
            · exact hcl
            · exact fun h => hcL (List.mem_flatten.2 ⟨m, hm, (List.tail_sublist m).subset h⟩)
        · rw [List.mem_singleton] at hm
          subst hm
          exact fun h => hcL (hfst c Ls ((List.tail_sublist _).subset h))
      rw [hg, Option.bind_some]
      have hd : dropHead c (Ls.map (·.1)) = Ls.map (·.1) := by
        unfold dropHead
        rw [if_neg]
        exact fun h => hcL (hfst c Ls (List.mem_of_mem_head? h))
      have hd' : dropHead c (c :: l) = l := by simp [dropHead]
      rw [List.map_append, List.map_append, hdrop E c he, List.map_cons, List.map_cons, List.map_nil, hd, hd',
        hLs c Ls hcL, ih E l Ls he hnd.2 (by simp at hn ⊢; omega)]
      rfl
    | nil =>
      cases Ls with
      | nil =>
        unfold mergeMro
        rw [if_pos]
        · rfl
        · simp only [List.all_append, Bool.and_eq_true]
          refine ⟨⟨?_, by simp⟩, by simp⟩
          rw [List.all_eq_true]
          intro e h
          simp [he e h]
      | cons p Ls =>
        obtain ⟨c, t⟩ := p
        unfold mergeMro
        rw [if_neg (by simp)]
        simp only [List.map_cons, List.flatten_cons, List.nil_append, List.cons_append] at hnd hn ⊢
        rw [List.nodup_cons] at hnd
        have hcl : c ∉ t := fun h => hnd.1 (by simp [h])
        have hcL : c ∉ (Ls.map fun p => p.1 :: p.2).flatten := fun h => hnd.1 (List.mem_append_right _ h)
        have hg : goodHead (E ++ [] :: (c :: t) :: (Ls.map (fun p => p.1 :: p.2) ++ [c :: Ls.map (·.1)])) =
            some c := by
          unfold goodHead
          rw [List.filterMap_append, hE E he, List.nil_append, List.filterMap_cons_none rfl,
            List.filterMap_cons_some (f := List.head?) (b := c) rfl, List.find?_cons_of_pos]
          rw [List.all_eq_true]
          intro m hm
          rw [decide_eq_true_eq]
          rcases List.mem_append.1 hm with hm | hm
          · rw [he m hm]
            simp
          · rcases List.mem_cons.1 hm with rfl | hm
            · simp
            rcases List.mem_cons.1 hm with rfl | hm
            · exact hcl
            rcases List.mem_append.1 hm with hm | hm
            · exact fun h => hcL (List.mem_flatten.2 ⟨m, hm, (List.tail_sublist m).subset h⟩)
            · rw [List.mem_singleton] at hm
              subst hm
              exact fun h => hcL (hfst c Ls h)
        have e1 : E ++ [[]] ++ (t :: Ls.map fun p => p.1 :: p.2) ++ [Ls.map (·.1)] =
            (E ++ [] :: (c :: t) :: (Ls.map (fun p => p.1 :: p.2) ++ [c :: Ls.map (·.1)])).map (dropHead c) := by
          have hd' : ∀ l, dropHead c (c :: l) = l := by simp [dropHead]
          rw [List.map_append, hdrop E c he, List.map_cons, List.map_cons, List.map_append, hLs c Ls hcL, hd',
            List.map_cons, List.map_nil, hd']
          simp [dropHead]
        have := ih (E ++ [[]]) t Ls (by
          intro e h
          rcases List.mem_append.1 h with h | h
          · exact he e h
          · simpa using h) hnd.2 (by simp at hn ⊢; omega)
        rw [e1] at this
        have hg' : goodHead (E ++ [] :: (c :: t) :: List.map (fun p => p.1 :: p.2) Ls ++ [c :: Ls.map (·.1)]) = some c := by
          simpa using hg
        rw [hg', Option.bind_some]
        have e2 : E ++ [] :: (c :: t) :: List.map (fun p => p.1 :: p.2) Ls ++ [c :: Ls.map (·.1)] =
          E ++ [] :: (c :: t) :: (Ls.map (fun p => p.1 :: p.2) ++ [c :: Ls.map (·.1)]) := by simp
        rw [e2, this]
        rfl

theorem merge_nil : ∀ (n : Nat) (ls : List (List α)), mergeMro n ([] :: ls) = mergeMro n ls
  | 0, ls => by
    unfold mergeMro
    simp
  | n + 1, ls => by
    unfold mergeMro
    have hg : goodHead ([] :: ls) = goodHead ls := by
      unfold goodHead
      simp
    have hd : ∀ c, ([] :: ls).map (dropHead c) = [] :: ls.map (dropHead c) := by
      intro c
      simp [dropHead]
    rw [hg]
    simp only [hd, merge_nil n, List.all_cons, List.isEmpty_nil, Bool.true_and]

/-- What a method resolution order is like. -/
theorem c3_spec {T : α} {bases : List α} {mros : List (List α)} {m : List α} (h : c3 T bases mros = some m) :
    bases.Nodup ∧ ∃ out, m = T :: out ∧ out.Nodup ∧ (∀ a, a ∈ out ↔ (∃ l ∈ mros, a ∈ l) ∨ a ∈ bases) ∧
      (∀ l ∈ mros, l.Sublist out) ∧ bases.Sublist out := by
  unfold c3 at h
  split at h
  · rename_i hn
    rw [Option.map_eq_some_iff] at h
    obtain ⟨out, hm, rfl⟩ := h
    obtain ⟨h1, h2, h3⟩ := merge_spec _ _ _ hm
    refine ⟨hn, out, rfl, h1, fun a => ?_, fun l hl => h3 l (by simp [hl]), h3 bases (by simp)⟩
    rw [h2]
    constructor
    · rintro ⟨l, hl, ha⟩
      rcases List.mem_append.1 hl with hl | hl
      · exact .inl ⟨l, hl, ha⟩
      · rw [List.mem_singleton] at hl
        subst hl
        exact .inr ha
    · rintro (⟨l, hl, ha⟩ | ha)
      · exact ⟨l, by simp [hl], ha⟩
      · exact ⟨bases, by simp, ha⟩
  · cases h

/-- Orders of bases without common elements are put one after the other. -/
theorem c3_disjoint (T : α) (Ls : List (α × List α)) (h : (Ls.map fun p => p.1 :: p.2).flatten.Nodup) :
    c3 T (Ls.map (·.1)) (Ls.map fun p => p.1 :: p.2) = some (T :: (Ls.map fun p => p.1 :: p.2).flatten) := by
  have hn : (Ls.map (·.1)).Nodup := by
    refine List.Sublist.nodup ?_ h
    induction Ls with
    | nil => exact .refl _
    | cons p Ls ih =>
      have h' : (Ls.map fun p => p.1 :: p.2).flatten.Nodup := by
        simp only [List.map_cons, List.flatten_cons] at h
        exact (List.nodup_append.1 h).2.1
      simp only [List.map_cons, List.flatten_cons, List.cons_append]
      exact ((ih h').trans (List.sublist_append_right _ _)).cons_cons _
  unfold c3
  rw [if_pos hn, ← merge_nil, ← List.cons_append,
    show ([] :: Ls.map fun p => p.1 :: p.2) = [] ++ ([] :: Ls.map fun p => p.1 :: p.2) from rfl,
    merge_disjoint _ [] [] Ls (by simp) (by simpa using h) (by simp)]
  rfl

/-! ### One type after the other -/

theorem known_mem {T : Str} : ∀ {known : List (Str × List Str)}, (known.lookup T).isSome → T ∈ known.map (·.1)
  | [], h => by cases h
  | q :: known, h => by
    rw [List.lookup_cons] at h
    by_cases hq : T = q.1
    · simp [hq]
    · have : (T == q.1) = false := by simpa using hq
      rw [this] at h
      exact List.mem_cons_of_mem _ (known_mem h)

theorem linearize_keep : ∀ (cs known res : List (Str × List Str)), linearize known cs = some res →
    (known.map (·.1) ++ cs.map (·.1)).Nodup → ∀ T m, known.lookup T = some m → res.lookup T = some m
  | [], known, res, h, _, T, m, hl => by
    cases h
    exact hl
  | (U, bases) :: cs, known, res, h, hn, T, m, hl => by
    unfold linearize at h
    rw [Option.bind_eq_some_iff] at h
    obtain ⟨mu, _, h⟩ := h
    have hperm : (known.map (·.1) ++ U :: cs.map (·.1)).Perm (U :: known.map (·.1) ++ cs.map (·.1)) :=
      List.perm_middle
    refine linearize_keep cs _ res h (hperm.nodup_iff.1 hn) T m ?_
    have hne : T ≠ U := by
      rintro rfl
      have := List.nodup_append.1 hn
      exact this.2.2 T (known_mem (by rw [hl]; rfl)) T (by simp) rfl
    rw [List.lookup_cons]
    have : (T == U) = false := by simpa using hne
    rw [this]
    exact hl

theorem linearize_sound : ∀ (cs known res : List (Str × List Str)), linearize known cs = some res →
    (known.map (·.1) ++ cs.map (·.1)).Nodup →
    (∀ pre p post, cs = pre ++ p :: post → ∀ b ∈ p.2, (known.lookup b).isSome ∨ b ∈ pre.map (·.1)) →
    ∀ p ∈ cs, c3 p.1 p.2 (p.2.map fun U => (res.lookup U).getD []) = some ((res.lookup p.1).getD []) ∧
      (res.lookup p.1).isSome
  | [], _, _, _, _, _, _, hp => by cases hp
  | (T, bases) :: cs, known, res, h, hn, hb, p, hp => by
    unfold linearize at h
    rw [Option.bind_eq_some_iff] at h
    obtain ⟨m, hm, h⟩ := h
    have hn' := (List.perm_middle (l₁ := known.map (·.1)) (a := T) (l₂ := cs.map (·.1))).nodup_iff.1 hn
    have hkeep := linearize_keep cs _ res h hn'
    rcases List.mem_cons.1 hp with rfl | hp
    · have hT : res.lookup T = some m := hkeep T m (by simp)
      refine ⟨?_, by simp [hT]⟩
      dsimp only
      rw [hT, Option.getD_some, ← hm]
      congr 1
      apply List.map_congr_left
      intro U hU
      rcases hb [] (T, bases) cs rfl U hU with hU | hU
      · obtain ⟨mu, hmu⟩ := Option.isSome_iff_exists.1 hU
        rw [hmu]
        have hne : U ≠ T := by
          rintro rfl
          have h1 := (List.nodup_append.1 hn).2.2
          exact h1 U (known_mem hU) U (by simp) rfl
        have : (U == T) = false := by simpa using hne
        rw [hkeep U mu (by rw [List.lookup_cons, this]; exact hmu)]
      · cases hU
    · refine linearize_sound cs _ res h hn' ?_ p hp
      intro pre q post he b hbq
      rcases hb ((T, bases) :: pre) q post (by rw [he]; rfl) b hbq with h | h
      · refine .inl ?_
        rw [List.lookup_cons]
        split
        · rfl
        · exact h
      · rcases List.mem_cons.1 h with rfl | h
        · exact .inl (by simp)
        · exact .inr h

theorem linearize_complete (mro : Str → List Str) : ∀ (cs known : List (Str × List Str)),
    (∀ T, (known.lookup T).isSome → known.lookup T = some (mro T)) →
    (∀ p ∈ cs, c3 p.1 p.2 (p.2.map mro) = some (mro p.1)) →
    (∀ pre p post, cs = pre ++ p :: post → ∀ b ∈ p.2, (known.lookup b).isSome ∨ b ∈ pre.map (·.1)) →
    ∃ res, linearize known cs = some res
  | [], known, _, _, _ => ⟨known, rfl⟩
  | (T, bases) :: cs, known, hk, hc, hb => by
    unfold linearize
    have : (bases.map fun U => (known.lookup U).getD []) = bases.map mro := by
      apply List.map_congr_left
      intro U hU
      rcases hb [] (T, bases) cs rfl U hU with h | h
      · rw [hk U h]
        rfl
      · cases h
    rw [this, hc (T, bases) (by simp), Option.bind_some]
    refine linearize_complete mro cs _ ?_ (fun p hp => hc p (by simp [hp])) ?_
    · intro U
      rw [List.lookup_cons]
      split
      · rename_i h
        have : U = T := by simpa using h
        intro _
        rw [this]
      · exact hk U
    · intro pre q post he b hbq
      rcases hb ((T, bases) :: pre) q post (by rw [he]; rfl) b hbq with h | h
      · refine .inl ?_
        rw [List.lookup_cons]
        split
        · rfl
        · exact h
      · rcases List.mem_cons.1 h with rfl | h
        · exact .inl (by simp)
        · exact .inr h

/-! ### Classes -/

variable {β : Type}

/-- Names of classes tell them apart, and bases come first. -/
structure BasesFirst (nm : β → Str) (listed : β → List β) (cs : List β) : Prop where
  nodup : cs.Nodup
  inj : ∀ x ∈ cs, ∀ y ∈ cs, nm x = nm y → x = y
  first : ∀ pre x post, cs = pre ++ x :: post → ∀ b ∈ listed x, b ∈ pre

theorem ascends_head {listed : β → List β} {x y z : β} (h : y ∈ listed x) (h' : Ascends listed y z) :
    Ascends listed x z := by
  induction h' with
  | refl => exact .step .refl h
  | step _ hs ih => exact .step ih hs

/-- What method resolution orders are like. -/
theorem mro_facts (nm : β → Str) (listed : β → List β) (cs : List β) (hs : BasesFirst nm listed cs)
    (mro : Str → List Str) (h : ∀ x ∈ cs, Linearized nm listed mro x) :
    ∀ (n : Nat) (pre rest : List β), pre.length = n → cs = pre ++ rest → ∀ x ∈ pre,
      (mro (nm x)).Nodup ∧ (∃ t, mro (nm x) = nm x :: t) ∧
      (∀ U ∈ mro (nm x), ∃ z ∈ pre, U = nm z ∧ Ascends listed x z) ∧
      ∀ z ∈ cs, nm z ∈ mro (nm x) → ∀ y ∈ listed z, [nm z, nm y].Sublist (mro (nm x)) := by
  intro n
  induction n using Nat.strongRecOn with
  | _ n ih =>
  intro pre rest hn he x hx
  obtain ⟨p1, p2, rfl⟩ := List.append_of_mem hx
  have he' : cs = p1 ++ x :: (p2 ++ rest) := by rw [he]; simp
  have ih := ih p1.length (by rw [← hn]; simp) p1 _ rfl he'
  have hfirst := hs.first p1 x _ he'
  have hxc : x ∈ cs := by rw [he']; simp
  have hp1 : ∀ z ∈ p1, z ∈ cs := fun z hz => by rw [he']; simp [hz]
  have hxp : x ∉ p1 := by
    have := hs.nodup
    rw [he', List.nodup_append] at this
    exact fun hx => this.2.2 x hx x (by simp) rfl
  obtain ⟨hbn, out, hout, hnd, hmem, hsub, hbsub⟩ := c3_spec (h x hxc)
  have hels : ∀ U ∈ out, ∃ b ∈ listed x, U ∈ mro (nm b) := by
    intro U hU
    rcases (hmem U).1 hU with ⟨l, hl, hU⟩ | hU
    · obtain ⟨b, hb, rfl⟩ := List.mem_map.1 hl
      exact ⟨b, hb, hU⟩
    · obtain ⟨b, hb, rfl⟩ := List.mem_map.1 hU
      obtain ⟨_, ⟨t, ht⟩, _⟩ := ih b (hfirst b hb)
      exact ⟨b, hb, by rw [ht]; simp⟩
  have helz : ∀ U ∈ out, ∃ z ∈ p1, U = nm z ∧ Ascends listed x z := by
    intro U hU
    obtain ⟨b, hb, hU⟩ := hels U hU
    obtain ⟨_, _, h3, _⟩ := ih b (hfirst b hb)
    obtain ⟨z, hz, rfl, ha⟩ := h3 U hU
    exact ⟨z, hz, rfl, ascends_head hb ha⟩
  have hxo : nm x ∉ out := by
    intro hU
    obtain ⟨z, hz, e, _⟩ := helz _ hU
    have := hs.inj x hxc z (hp1 z hz) e
    exact hxp (this ▸ hz)
  refine ⟨by rw [hout]; exact List.nodup_cons.2 ⟨hxo, hnd⟩, ⟨out, hout⟩, ?_, ?_⟩
  · intro U hU
    rw [hout] at hU
    rcases List.mem_cons.1 hU with rfl | hU
    · exact ⟨x, by simp, rfl, .refl⟩
    · obtain ⟨z, hz, e, ha⟩ := helz U hU
      exact ⟨z, by simp [hz], e, ha⟩
  · intro z hz hzm y hy
    rw [hout] at hzm ⊢
    rcases List.mem_cons.1 hzm with e | hzo
    · have := hs.inj z hz x hxc e
      subst this
      refine (List.singleton_sublist.2 ?_).cons_cons _
      exact (hmem _).2 (.inr (List.mem_map_of_mem hy))
    · obtain ⟨b, hb, hU⟩ := hels _ hzo
      obtain ⟨_, _, _, h4⟩ := ih b (hfirst b hb)
      exact ((h4 z hz hU y hy).trans (hsub _ (List.mem_map.2 ⟨b, hb, rfl⟩))).cons _

/-- Without diamonds there are method resolution orders. -/
theorem mro_exists (nm : β → Str) (listed : β → List β) (cs : List β) (hs : BasesFirst nm listed cs)
    (hd : NoDiamonds (· ∈ cs) listed) : ∃ mro : Str → List Str, ∀ x ∈ cs, Linearized nm listed mro x := by
  have key : ∀ (rest pre : List β), cs = pre ++ rest →
      (∃ mro : Str → List Str, ∀ x ∈ pre, Linearized nm listed mro x) →
      ∃ mro : Str → List Str, ∀ x ∈ cs, Linearized nm listed mro x := by
    intro rest
    induction rest with
    | nil =>
      intro pre he h
      rw [List.append_nil] at he
      rwa [he]
    | cons x rest ih =>
      rintro pre he ⟨mro, hm⟩
      refine ih (pre ++ [x]) (by rw [he]; simp) ?_
      have hfirst := hs.first pre x rest he
      have hpc : ∀ z ∈ pre, z ∈ cs := fun z hz => by rw [he]; simp [hz]
      have hxc : x ∈ cs := by rw [he]; simp
      have hxp : x ∉ pre := by
        have := hs.nodup
        rw [he, List.nodup_append] at this
        exact fun hx => this.2.2 x hx x (by simp) rfl
      have hsp : BasesFirst nm listed pre := by
        refine ⟨?_, fun a ha b hb => hs.inj a (hpc a ha) b (hpc b hb), ?_⟩
        · have := hs.nodup
          rw [he] at this
          exact (List.nodup_append.1 this).1
        · intro p1 y p2 hp
          exact hs.first p1 y (p2 ++ x :: rest) (by rw [he, hp]; simp)
      have hf := mro_facts nm listed pre hsp mro hm pre.length pre [] rfl (by simp)
      let Ls := (listed x).map fun b => (nm b, (mro (nm b)).tail)
      have e1 : Ls.map (·.1) = (listed x).map nm := by simp [Ls]
      have e2 : (Ls.map fun p => p.1 :: p.2) = (listed x).map fun b => mro (nm b) := by
        simp only [Ls, List.map_map]
        apply List.map_congr_left
        intro b hb
        obtain ⟨_, ⟨t, ht⟩, _⟩ := hf b (hfirst b hb)
        simp [ht]
      have hflat : ((listed x).map fun b => mro (nm b)).flatten.Nodup := by
        unfold List.Nodup
        rw [List.pairwise_flatten]
        constructor
        · intro l hl
          obtain ⟨b, hb, rfl⟩ := List.mem_map.1 hl
          exact (hf b (hfirst b hb)).1
        · rw [List.pairwise_map]
          obtain ⟨hnd, hdis⟩ := hd x hxc
          refine List.Pairwise.imp_of_mem ?_ hnd
          intro b b' hb hb' hne U hU V hV hUV
          obtain ⟨_, _, h3, _⟩ := hf b (hfirst b hb)
          obtain ⟨_, _, h3', _⟩ := hf b' (hfirst b' hb')
          obtain ⟨z, hz, rfl, ha⟩ := h3 U hU
          obtain ⟨z', hz', rfl, ha'⟩ := h3' V hV
          have := hs.inj z (hpc z hz) z' (hpc z' hz') hUV
          subst this
          exact hdis b hb b' hb' hne z ha ha'
      have hc := c3_disjoint (nm x) Ls (by rw [e2]; exact hflat)
      rw [e1, e2] at hc
      refine ⟨fun U => if U = nm x then nm x :: ((listed x).map fun b => mro (nm b)).flatten else mro U, ?_⟩
      have hother : ∀ z ∈ pre, nm z ≠ nm x := by
        intro z hz e
        have := hs.inj z (hpc z hz) x hxc e
        exact hxp (this ▸ hz)
      have hsame : ∀ y, (∀ b ∈ listed y, b ∈ pre) → ((listed y).map fun b =>
          (fun U => if U = nm x then nm x :: ((listed x).map fun b => mro (nm b)).flatten else mro U) (nm b)) =
          (listed y).map fun b => mro (nm b) := by
        intro y hy
        apply List.map_congr_left
        intro b hb
        dsimp only
        rw [if_neg (hother b (hy b hb))]
      intro y hy
      unfold Linearized
      rcases List.mem_append.1 hy with hy | hy
      · have hyf : ∀ b ∈ listed y, b ∈ pre := by
          obtain ⟨p1, p2, hp⟩ := List.append_of_mem hy
          intro b hb
          have := hsp.first p1 y p2 hp b hb
          rw [hp]
          simp [this]
        rw [hsame y hyf]
        dsimp only
        rw [if_neg (hother y hy)]
        exact hm y hy
      · rw [List.mem_singleton] at hy
        subst hy
        rw [hsame y hfirst]
        dsimp only
        rw [if_pos rfl]
        exact hc
  exact key cs [] rfl ⟨fun _ => [], by simp⟩

end Verif
