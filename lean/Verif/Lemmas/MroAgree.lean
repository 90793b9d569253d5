import Verif.Lemmas.Mro
/-!
# Merging lists of classes that agree with each other
-/
namespace Verif
open Spec

variable {α : Type} [DecidableEq α]

omit [DecidableEq α] in
theorem cons_sublist_cases {a b : α} {l m : List α} (h : (a :: l).Sublist (b :: m)) :
    (a :: l).Sublist m ∨ a = b ∧ l.Sublist m := by
  cases h with
  | cons _ h => exact .inl h
  | cons_cons _ h => exact .inr ⟨rfl, h⟩

/-- Of the elements of some lists that agree with an order, one is at the front wherever it occurs. -/
theorem front_exists : ∀ (order : List α) (ls : List (List α)), order.Nodup → (∀ l ∈ ls, l.Sublist order) →
    (∃ l ∈ ls, l ≠ []) → ∃ c, (∃ l ∈ ls, l.head? = some c) ∧ ∀ l ∈ ls, c ∉ l.tail
  | [], ls, _, hs, ⟨l, hl, hne⟩ => absurd (List.sublist_nil.1 (hs l hl)) hne
  | a :: order, ls, hn, hs, hne => by
    rw [List.nodup_cons] at hn
    by_cases ha : ∃ l ∈ ls, l.head? = some a
    · refine ⟨a, ha, fun l hl h => ?_⟩
      have := hs l hl
      cases l with
      | nil => cases h
      | cons b l =>
        rcases cons_sublist_cases this with h' | ⟨_, h'⟩
        · exact hn.1 (h'.subset (List.mem_cons_of_mem _ h))
        · exact hn.1 (h'.subset h)
    · refine front_exists order ls hn.2 (fun l hl => ?_) hne
      have := hs l hl
      cases l with
      | nil => exact List.nil_sublist _
      | cons b l =>
        rcases cons_sublist_cases this with h' | ⟨rfl, _⟩
        · exact h'
        · exact (ha ⟨_, hl, rfl⟩).elim

theorem goodHead_exists {ls : List (List α)} {c : α} (h : ∃ l ∈ ls, l.head? = some c)
    (ht : ∀ l ∈ ls, c ∉ l.tail) : ∃ d, goodHead ls = some d := by
  unfold goodHead
  cases hf : (ls.filterMap List.head?).find? fun c => ls.all fun l => decide (c ∉ l.tail) with
  | some d => exact ⟨d, rfl⟩
  | none =>
    rw [List.find?_eq_none] at hf
    obtain ⟨l, hl, hc⟩ := h
    have := hf c (List.mem_filterMap.2 ⟨l, hl, hc⟩)
    simp only [List.all_eq_true, decide_eq_true_eq] at this
    exact (this ht).elim

theorem dropHead_length (c : α) (l : List α) : (dropHead c l).length ≤ l.length :=
  (dropHead_sublist c l).length_le

theorem dropHeads_length (c : α) : ∀ ls : List (List α),
    (ls.map (dropHead c)).flatten.length ≤ ls.flatten.length
  | [] => by simp
  | l :: ls => by
    have h1 := dropHead_length c l
    have h2 := dropHeads_length c ls
    simp only [List.map_cons, List.flatten_cons, List.length_append]
    omega

theorem dropHeads_lt (c : α) : ∀ ls : List (List α), (∃ l ∈ ls, l.head? = some c) →
    (ls.map (dropHead c)).flatten.length < ls.flatten.length
  | [], ⟨_, h, _⟩ => by cases h
  | l :: ls, ⟨l', hl, hc⟩ => by
    have h1 := dropHead_length c l
    have h2 := dropHeads_length c ls
    simp only [List.map_cons, List.flatten_cons, List.length_append]
    rcases List.mem_cons.1 hl with rfl | hl
    · cases l' with
      | nil => cases hc
      | cons a l' =>
        unfold dropHead
        rw [if_pos hc]
        simp only [List.tail_cons, List.length_cons]
        unfold dropHead at h2
        omega
    · have := dropHeads_lt c ls ⟨l', hl, hc⟩
      omega

/-- Lists that agree with a common order can be merged. -/
theorem merge_exists (order : List α) (hn : order.Nodup) : ∀ (n : Nat) (ls : List (List α)),
    (∀ l ∈ ls, l.Sublist order) → ls.flatten.length ≤ n → ∃ out, mergeMro n ls = some out
  | n, ls, hs, hl => by
    by_cases he : ls.all (·.isEmpty) = true
    · refine ⟨[], ?_⟩
      cases n <;> unfold mergeMro <;> rw [if_pos he]
    · have hne : ∃ l ∈ ls, l ≠ [] := by
        rw [List.all_eq_true] at he
        refine Classical.byContradiction fun h => he fun l hl' => ?_
        cases l with
        | nil => rfl
        | cons a l => exact (h ⟨_, hl', by simp⟩).elim
      obtain ⟨c, hc, ht⟩ := front_exists order ls hn hs hne
      obtain ⟨d, hd⟩ := goodHead_exists hc ht
      have hd' := goodHead_mem hd
      have hlt := dropHeads_lt d ls hd'.1
      cases n with
      | zero => omega
      | succ n =>
        obtain ⟨out, ho⟩ := merge_exists order hn n (ls.map (dropHead d)) (fun l hl' => by
          obtain ⟨l', h', rfl⟩ := List.mem_map.1 hl'
          exact (dropHead_sublist d l').trans (hs l' h')) (by omega)
        refine ⟨d :: out, ?_⟩
        unfold mergeMro
        rw [if_neg he, hd, Option.bind_some, ho]
        rfl

theorem c3_exists {T : α} {bases : List α} {mros : List (List α)} (hb : bases.Nodup) (order : List α)
    (hn : order.Nodup) (h1 : bases.Sublist order) (h2 : ∀ l ∈ mros, l.Sublist order) :
    ∃ m, c3 T bases mros = some m := by
  obtain ⟨out, ho⟩ := merge_exists order hn _ (mros ++ [bases]) (fun l hl => by
    rcases List.mem_append.1 hl with hl | hl
    · exact h2 l hl
    · rw [List.mem_singleton] at hl
      exact hl ▸ h1) (Nat.le_refl _)
  refine ⟨T :: out, ?_⟩
  unfold c3
  rw [if_pos hb, ho]
  rfl

/-! ### Lists that share the elements of a chain -/

variable {β : Type}

omit [DecidableEq α] in
theorem takeWhile_append_dropWhile' (p : α → Bool) (l : List α) : l = l.takeWhile p ++ l.dropWhile p :=
  (List.takeWhile_append_dropWhile).symm

/-- The rest of a list once everything up to the front of the chain has been dealt with. -/
def afterFront (c : α) (C : List α) (l : List α) : List α :=
  dropHead c (l.dropWhile fun a => decide (a ∉ c :: C))

theorem afterFront_sublist (c : α) (C l : List α) : (afterFront c C l).Sublist l :=
  (dropHead_sublist _ _).trans (List.dropWhile_sublist _)

omit [DecidableEq α] in
theorem dropWhile_front (p : α → Bool) : ∀ l : List α, l.dropWhile p = [] ∨
    ∃ a t, l.dropWhile p = a :: t ∧ p a = false
  | [] => .inl rfl
  | a :: l => by
    rw [List.dropWhile_cons]
    split
    · exact dropWhile_front p l
    · next h => exact .inr ⟨a, l, rfl, by simpa using h⟩

theorem filter_dropWhile (C l : List α) :
    (l.dropWhile fun a => decide (a ∉ C)).filter (fun a => decide (a ∈ C)) =
      l.filter fun a => decide (a ∈ C) := by
  induction l with
  | nil => rfl
  | cons a l ih =>
    rw [List.dropWhile_cons]
    by_cases h : a ∈ C
    · rw [if_neg (by simpa using h)]
    · rw [if_pos (by simpa using h), ih, List.filter_cons_of_neg (by simpa using h)]

/-- Properties of the rest. -/
theorem afterFront_spec (c : α) (C l : List α) (hc : (c :: C).Nodup) (hl : l.Nodup)
    (hs : (l.filter fun a => decide (a ∈ c :: C)).Sublist (c :: C)) :
    c ∉ afterFront c C l ∧ ((afterFront c C l).filter fun a => decide (a ∈ C)).Sublist C ∧
    l.Sublist ((l.takeWhile fun a => decide (a ∉ c :: C)) ++ c :: afterFront c C l) ∧
    ∀ a ∈ l.takeWhile (fun a => decide (a ∉ c :: C)), a ∉ c :: C ∧ a ∉ afterFront c C l := by
  rw [List.nodup_cons] at hc
  have hd : (l.dropWhile fun a => decide (a ∉ c :: C)).Nodup := (List.dropWhile_sublist _).nodup hl
  have hsplit := takeWhile_append_dropWhile' (fun a => decide (a ∉ c :: C)) l
  have hf := filter_dropWhile (c :: C) l
  have hlast : ∀ a ∈ l.takeWhile (fun a => decide (a ∉ c :: C)), a ∉ c :: C ∧ a ∉ afterFront c C l := by
    intro a ha
    refine ⟨of_decide_eq_true (List.all_eq_true.1 List.all_takeWhile a ha), fun h => ?_⟩
    rw [hsplit] at hl
    exact (List.nodup_append.1 hl).2.2 a ha a ((dropHead_sublist _ _).subset h) rfl
  rcases dropWhile_front (fun a => decide (a ∉ c :: C)) l with he | ⟨h, t, he, hh⟩
  · have hr : afterFront c C l = [] := by unfold afterFront; rw [he]; rfl
    refine ⟨by rw [hr]; simp, by rw [hr]; exact List.nil_sublist _, ?_, hlast⟩
    rw [he, List.append_nil] at hsplit
    rw [hr]
    conv => lhs; rw [hsplit]
    exact List.sublist_append_left _ _
  · have hh : h ∈ c :: C := Decidable.not_not.1 (of_decide_eq_false hh)
    rw [he] at hd hsplit hf
    rw [List.nodup_cons] at hd
    have hfs : (t.filter fun a => decide (a ∈ c :: C)).Sublist C ∧
        (h ≠ c → h ∈ C ∧ c ∉ t ∧ ((h :: t).filter fun a => decide (a ∈ c :: C)).Sublist C) := by
      rw [← hf, List.filter_cons_of_pos (by simpa using hh)] at hs
      rcases cons_sublist_cases hs with hs | ⟨rfl, hs⟩
      · refine ⟨(List.sublist_cons_self _ _).trans hs, fun _ => ⟨hs.subset (by simp), fun hct => ?_, ?_⟩⟩
        · exact hc.1 (hs.subset (List.mem_cons_of_mem _ (List.mem_filter.2 ⟨hct, by simp⟩)))
        · rw [List.filter_cons_of_pos (by simpa using hh)]
          exact hs
      · exact ⟨hs, fun hne => (hne rfl).elim⟩
    have hsub : ∀ m : List α, (m.filter fun a => decide (a ∈ C)).Sublist
        (m.filter fun a => decide (a ∈ c :: C)) := by
      intro m
      have : (m.filter fun a => decide (a ∈ C)) =
          (m.filter fun a => decide (a ∈ c :: C)).filter fun a => decide (a ∈ C) := by
        rw [List.filter_filter]
        apply List.filter_congr
        intro a _
        by_cases h : a ∈ C <;> simp [h]
      rw [this]
      exact List.filter_sublist
    by_cases hhc : h = c
    · have hr : afterFront c C l = t := by unfold afterFront; rw [he]; simp [dropHead, hhc]
      rw [hr] at hlast ⊢
      refine ⟨hhc ▸ hd.1, (hsub t).trans hfs.1, ?_, hlast⟩
      conv => lhs; rw [hsplit, hhc]
      exact List.Sublist.refl _
    · have hr : afterFront c C l = h :: t := by unfold afterFront; rw [he]; simp [dropHead, hhc]
      rw [hr] at hlast ⊢
      obtain ⟨h1, h2, h3⟩ := hfs.2 hhc
      refine ⟨?_, (hsub _).trans h3, ?_, hlast⟩
      · intro hm
        rcases List.mem_cons.1 hm with e | hm
        · exact hhc e.symm
        · exact h2 hm
      · conv => lhs; rw [hsplit]
        exact (List.Sublist.refl _).append (List.sublist_cons_self _ _)

/-- Picking the elements of a part of a list gives this part. -/
theorem filter_sublist {l m : List α} (hn : l.Nodup) (h : m.Sublist l) :
    (l.filter fun a => decide (a ∈ m)) = m := by
  induction h with
  | slnil => rfl
  | @cons m l a h ih =>
    rw [List.nodup_cons] at hn
    rw [List.filter_cons_of_neg (by simpa using fun hm => hn.1 (h.subset hm)), ih hn.2]
  | @cons_cons m l a h ih =>
    rw [List.nodup_cons] at hn
    rw [List.filter_cons_of_pos (by simp)]
    congr 1
    conv => rhs; rw [← ih hn.2]
    apply List.filter_congr
    intro b hb
    have : b ≠ a := fun e => hn.1 (e ▸ hb)
    simp [this]

omit [DecidableEq α] in
theorem heads_flatten (L : β → List α) : ∀ ys : List β,
    (ys.filterMap fun y => (L y).head?).Sublist (ys.map L).flatten
  | [] => List.Sublist.refl _
  | y :: ys => by
    rw [List.filterMap_cons, List.map_cons, List.flatten_cons]
    cases hL : L y with
    | nil => exact heads_flatten L ys
    | cons a l => exact ((heads_flatten L ys).trans (List.sublist_append_right _ _)).cons_cons _

/-- Lists that only share elements of a chain, in the order of the chain, agree with each other; what
is at the front of them can be put in any order. -/
theorem chain_order (ys : List β) (hy : ys.Nodup) : ∀ (C : List α) (L : β → List α), C.Nodup →
    (∀ y ∈ ys, (L y).Nodup) → (∀ y ∈ ys, ((L y).filter fun a => decide (a ∈ C)).Sublist C) →
    (∀ y ∈ ys, ∀ y' ∈ ys, y ≠ y' → ∀ a ∈ L y, a ∈ L y' → a ∈ C) →
    ∃ order : List α, order.Nodup ∧ (∀ a ∈ order, a ∈ C ∨ ∃ y ∈ ys, a ∈ L y) ∧
      (∀ y ∈ ys, (L y).Sublist order) ∧
      ((∀ y ∈ ys, ∃ h t, L y = h :: t ∧ h ∉ C) → (ys.filterMap fun y => (L y).head?).Sublist order)
  | [], L, _, hn, _, hd => by
    refine ⟨(ys.map L).flatten, ?_, ?_, ?_, ?_⟩
    · unfold List.Nodup
      rw [List.pairwise_flatten]
      refine ⟨fun l hl => ?_, ?_⟩
      · obtain ⟨y, h, rfl⟩ := List.mem_map.1 hl
        exact hn y h
      · rw [List.pairwise_map]
        refine List.Pairwise.imp_of_mem ?_ hy
        intro y y' h h' hne a ha b hb e
        subst e
        cases hd y h y' h' hne a ha hb
    · intro a ha
      obtain ⟨l, hl, ha⟩ := List.mem_flatten.1 ha
      obtain ⟨y, h, rfl⟩ := List.mem_map.1 hl
      exact .inr ⟨y, h, ha⟩
    · intro y h
      exact List.sublist_flatten_of_mem (List.mem_map_of_mem h)
    · intro _
      exact heads_flatten L ys
  | c :: C, L, hc, hn, hs, hd => by
    have hspec := fun y (h : y ∈ ys) => afterFront_spec c C (L y) hc (hn y h) (hs y h)
    have hc' := List.nodup_cons.1 hc
    obtain ⟨order, h1, h2, h3, h4⟩ := chain_order ys hy C (fun y => afterFront c C (L y)) hc'.2
      (fun y h => (afterFront_sublist _ _ _).nodup (hn y h)) (fun y h => (hspec y h).2.1)
      (fun y h y' h' hne a ha ha' => by
        have := hd y h y' h' hne a ((afterFront_sublist _ _ _).subset ha) ((afterFront_sublist _ _ _).subset ha')
        rcases List.mem_cons.1 this with rfl | h
        · exact ((hspec y h).1 ha).elim
        · exact h)
    have hfront : ∀ a, a ∈ (ys.map fun y => (L y).takeWhile fun a => decide (a ∉ c :: C)).flatten →
        ∃ y ∈ ys, a ∈ (L y).takeWhile (fun a => decide (a ∉ c :: C)) := by
      intro a ha
      obtain ⟨l, hl, ha⟩ := List.mem_flatten.1 ha
      obtain ⟨y, h, rfl⟩ := List.mem_map.1 hl
      exact ⟨y, h, ha⟩
    have htake : ∀ y a, a ∈ (L y).takeWhile (fun a => decide (a ∉ c :: C)) → a ∈ L y :=
      fun y a h => (List.takeWhile_sublist _).subset h
    refine ⟨(ys.map fun y => (L y).takeWhile fun a => decide (a ∉ c :: C)).flatten ++ c :: order, ?_, ?_, ?_, ?_⟩
    · rw [List.nodup_append]
      refine ⟨?_, List.nodup_cons.2 ⟨fun hm => ?_, h1⟩, ?_⟩
      · unfold List.Nodup
        rw [List.pairwise_flatten]
        refine ⟨fun l hl => ?_, ?_⟩
        · obtain ⟨y, h, rfl⟩ := List.mem_map.1 hl
          exact (List.takeWhile_sublist _).nodup (hn y h)
        · rw [List.pairwise_map]
          refine List.Pairwise.imp_of_mem ?_ hy
          intro y y' h h' hne a ha b hb e
          subst e
          exact ((hspec y h).2.2.2 a ha).1 (hd y h y' h' hne a (htake y a ha) (htake y' a hb))
      · rcases h2 c hm with h | ⟨y, h, hm⟩
        · exact hc'.1 h
        · exact (hspec y h).1 hm
      · intro a ha b hb e
        subst e
        obtain ⟨y, h, ha⟩ := hfront a ha
        have hout := (hspec y h).2.2.2 a ha
        rcases List.mem_cons.1 hb with rfl | hb
        · exact hout.1 (by simp)
        · rcases h2 a hb with hC | ⟨y', h', hm⟩
          · exact hout.1 (List.mem_cons_of_mem _ hC)
          · by_cases e : y = y'
            · subst e
              exact hout.2 hm
            · exact hout.1 (hd y h y' h' e a (htake y a ha) ((afterFront_sublist _ _ _).subset hm))
    · intro a ha
      rcases List.mem_append.1 ha with ha | ha
      · obtain ⟨y, h, ha⟩ := hfront a ha
        exact .inr ⟨y, h, htake y a ha⟩
      · rcases List.mem_cons.1 ha with rfl | ha
        · exact .inl (by simp)
        · rcases h2 a ha with h | ⟨y, h, hm⟩
          · exact .inl (List.mem_cons_of_mem _ h)
          · exact .inr ⟨y, h, (afterFront_sublist _ _ _).subset hm⟩
    · intro y h
      refine (hspec y h).2.2.1.trans ?_
      exact (List.sublist_flatten_of_mem (List.mem_map_of_mem
        (f := fun y => (L y).takeWhile fun a => decide (a ∉ c :: C)) h)).append ((h3 y h).cons_cons _)
    · intro hh
      refine List.Sublist.trans ?_ (List.sublist_append_left _ _)
      clear hspec h4 h3 h2 hfront hd hs hn hy
      induction ys with
      | nil => exact List.Sublist.refl _
      | cons y ys ih =>
        obtain ⟨a, t, e, ha⟩ := hh y (by simp)
        rw [List.filterMap_cons, List.map_cons, List.flatten_cons, e]
        rw [List.takeWhile_cons, if_pos (by simpa using ha)]
        exact ((ih fun y h => hh y (by simp [h])).trans (List.sublist_append_right _ _)).cons_cons _

theorem part_sublist {l m k : List α} (hn : l.Nodup) (hk : k.Sublist l) (hm : m.Sublist l)
    (h : ∀ a ∈ m, a ∈ k) : m.Sublist k := by
  have h1 := hm.filter fun a => decide (a ∈ k)
  rw [filter_sublist hn hk, List.filter_eq_self.2 fun a ha => by simpa using h a ha] at h1
  exact h1

theorem chain_order' (ys : List β) (hy : ys.Nodup) (C : List α) (L : β → List α) (hC : C.Nodup)
    (hL : ∀ y ∈ ys, (L y).Nodup) (hs : ∀ y ∈ ys, ∀ m : List α, m.Sublist (L y) → (∀ a ∈ m, a ∈ C) → m.Sublist C)
    (hd : ∀ y ∈ ys, ∀ y' ∈ ys, y ≠ y' → ∀ a ∈ L y, a ∈ L y' → a ∈ C) :
    ∃ order : List α, order.Nodup ∧ (∀ a ∈ order, a ∈ C ∨ ∃ y ∈ ys, a ∈ L y) ∧
      (∀ y ∈ ys, (L y).Sublist order) ∧
      ((∀ y ∈ ys, ∃ h t, L y = h :: t ∧ h ∉ C) → (ys.filterMap fun y => (L y).head?).Sublist order) :=
  chain_order ys hy C L hC hL (fun y h => hs y h _ List.filter_sublist fun a ha =>
    by simpa using (List.mem_filter.1 ha).2) hd

/-! ### Classes -/

/-- One class after the other gets its method resolution order. -/
theorem mro_stepwise (nm : β → Str) (listed : β → List β) (cs : List β) (hs : BasesFirst nm listed cs)
    (hstep : ∀ pre x rest, cs = pre ++ x :: rest → ∀ mro : Str → List Str,
      (∀ y ∈ pre, Linearized nm listed mro y) →
      ∃ m, c3 (nm x) ((listed x).map nm) ((listed x).map fun b => mro (nm b)) = some m) :
    ∃ mro : Str → List Str, ∀ x ∈ cs, Linearized nm listed mro x := by
  have key : ∀ (rest pre : List β), cs = pre ++ rest →
      (∃ mro : Str → List Str, ∀ x ∈ pre, Linearized nm listed mro x) →
      ∃ mro : Str → List Str, ∀ x ∈ cs, Linearized nm listed mro x := by
    intro rest
    induction rest with
    | nil =>
      intro pre he h
      rw [List.append_nil] at he
      rwa [he]
    | cons x rest ih =>
      rintro pre he ⟨mro, hm⟩
      refine ih (pre ++ [x]) (by rw [he]; simp) ?_
      have hfirst := hs.first pre x rest he
      have hpc : ∀ z ∈ pre, z ∈ cs := fun z hz => by rw [he]; simp [hz]
      have hxc : x ∈ cs := by rw [he]; simp
      have hxp : x ∉ pre := by
        have := hs.nodup
        rw [he, List.nodup_append] at this
        exact fun hx => this.2.2 x hx x (by simp) rfl
      obtain ⟨m, hc⟩ := hstep pre x rest he mro hm
      refine ⟨fun U => if U = nm x then m else mro U, ?_⟩
      have hother : ∀ z ∈ pre, nm z ≠ nm x := by
        intro z hz e
        have := hs.inj z (hpc z hz) x hxc e
        exact hxp (this ▸ hz)
      have hsame : ∀ y, (∀ b ∈ listed y, b ∈ pre) → ((listed y).map fun b =>
          (fun U => if U = nm x then m else mro U) (nm b)) =
          (listed y).map fun b => mro (nm b) := by
        intro y hy
        apply List.map_congr_left
        intro b hb
        dsimp only
        rw [if_neg (hother b (hy b hb))]
      intro y hy
      unfold Linearized
      rcases List.mem_append.1 hy with hy | hy
      · have hyf : ∀ b ∈ listed y, b ∈ pre := by
          obtain ⟨p1, p2, hp⟩ := List.append_of_mem hy
          intro b hb
          have := hs.first p1 y (p2 ++ x :: rest) (by rw [he, hp]; simp) b hb
          rw [hp]
          simp [this]
        rw [hsame y hyf]
        dsimp only
        rw [if_neg (hother y hy)]
        exact hm y hy
      · rw [List.mem_singleton] at hy
        subst hy
        rw [hsame y hfirst]
        dsimp only
        rw [if_pos rfl]
        exact hc
  exact key cs [] rfl ⟨fun _ => [], by simp⟩

theorem ascends_trans {listed : β → List β} {x y z : β} (h : Ascends listed x y) (h' : Ascends listed y z) :
    Ascends listed x z := by
  induction h' with
  | refl => exact h
  | step _ hs ih => exact .step ih hs

/-- The order of a class contains those of its bases. -/
theorem mro_contains (nm : β → Str) (listed : β → List β) (cs : List β) (hs : BasesFirst nm listed cs)
    (mro : Str → List Str) (h : ∀ x ∈ cs, Linearized nm listed mro x) (x z : β) (hx : x ∈ cs)
    (ha : Ascends listed x z) : z ∈ cs ∧ (mro (nm z)).Sublist (mro (nm x)) := by
  induction ha with
  | refl => exact ⟨hx, List.Sublist.refl _⟩
  | step _ hz ih =>
    obtain ⟨p1, p2, he⟩ := List.append_of_mem ih.1
    have hzp := hs.first p1 _ p2 he _ hz
    obtain ⟨_, out, hout, _, _, hsub, _⟩ := c3_spec (h _ ih.1)
    refine ⟨by rw [he]; simp [hzp], List.Sublist.trans ?_ ih.2⟩
    rw [hout]
    exact (hsub _ (List.mem_map.2 ⟨_, hz, rfl⟩)).cons _

/-- If what the bases of each class have in common comes from a single class, there are method
resolution orders. -/
theorem mro_joined (nm : β → Str) (listed : β → List β) (cs : List β) (hs : BasesFirst nm listed cs)
    (hd : JoinedOnce (· ∈ cs) listed) : ∃ mro : Str → List Str, ∀ x ∈ cs, Linearized nm listed mro x := by
  refine mro_stepwise nm listed cs hs ?_
  intro pre x rest he mro hm
  have hfirst := hs.first pre x rest he
  have hpc : ∀ z ∈ pre, z ∈ cs := fun z hz => by rw [he]; simp [hz]
  have hxc : x ∈ cs := by rw [he]; simp
  have hsp : BasesFirst nm listed pre := by
    refine ⟨?_, fun a ha b hb => hs.inj a (hpc a ha) b (hpc b hb), ?_⟩
    · have := hs.nodup
      rw [he] at this
      exact (List.nodup_append.1 this).1
    · intro p1 y p2 hp
      exact hs.first p1 y (p2 ++ x :: rest) (by rw [he, hp]; simp)
  have hf := mro_facts nm listed pre hsp mro hm pre.length pre [] rfl (by simp)
  have hcont := mro_contains nm listed pre hsp mro hm
  obtain ⟨hnd, z, hz⟩ := hd x hxc
  have hcommon : ∀ y ∈ listed x, ∀ y' ∈ listed x, y ≠ y' → ∀ U ∈ mro (nm y), U ∈ mro (nm y') →
      ∃ a, U = nm a ∧ Ascends listed y a ∧ Ascends listed y' a := by
    intro y hy y' hy' _ U hU hU'
    obtain ⟨_, _, h3, _⟩ := hf y (hfirst y hy)
    obtain ⟨_, _, h3', _⟩ := hf y' (hfirst y' hy')
    obtain ⟨a, ha, rfl, h1⟩ := h3 U hU
    obtain ⟨a', ha', e, h2⟩ := h3' _ hU'
    have := hs.inj a (hpc a ha) a' (hpc a' ha') e
    subst this
    exact ⟨a, rfl, h1, h2⟩
  have hself : ∀ y ∈ pre, nm y ∈ mro (nm y) := by
    intro y hy
    obtain ⟨_, ⟨t, ht⟩, _⟩ := hf y hy
    rw [ht]
    simp
  -- the chain
  have hchain : ∃ C : List Str, C.Nodup ∧
      (∀ y ∈ listed x, ∀ m : List Str, m.Sublist (mro (nm y)) → (∀ a ∈ m, a ∈ C) → m.Sublist C) ∧
      (∀ y ∈ listed x, ∀ y' ∈ listed x, y ≠ y' → ∀ a ∈ mro (nm y), a ∈ mro (nm y') → a ∈ C) ∧
      (∀ U ∈ C, ∃ y ∈ listed x, ∃ y' ∈ listed x, y ≠ y' ∧ ∃ a, U = nm a ∧
        Ascends listed y a ∧ Ascends listed y' a) := by
    by_cases hsh : ∃ y ∈ listed x, ∃ y' ∈ listed x, y ≠ y' ∧ ∃ a, Ascends listed y a ∧ Ascends listed y' a
    · obtain ⟨y, hy, y', hy', hne, a, ha, ha'⟩ := hsh
      have hyz := ((hz y hy y' hy' hne).2 a ha ha').1
      have hyz' := ((hz y' hy' y hy (Ne.symm hne)).2 a ha' ha).1
      obtain ⟨hzp, _⟩ := hcont y z (hfirst y hy) hyz
      obtain ⟨hzn, _, hz3, _⟩ := hf z hzp
      refine ⟨mro (nm z), hzn, ?_, ?_, ?_⟩
      · intro u hu m hmu hmz
        by_cases huz : Ascends listed u z
        · obtain ⟨_, hsub⟩ := hcont u z (hfirst u hu) huz
          exact part_sublist (hf u (hfirst u hu)).1 hsub hmu hmz
        · cases m with
          | nil => exact List.nil_sublist _
          | cons U m =>
            exfalso
            obtain ⟨b, hb, rfl, hzb⟩ := hz3 U (hmz U (by simp))
            obtain ⟨_, _, h3, _⟩ := hf u (hfirst u hu)
            obtain ⟨b', hb', e, hub⟩ := h3 _ (hmu.subset (List.mem_cons_self ..))
            have := hs.inj b (hpc b hb) b' (hpc b' hb') e
            subst this
            by_cases hyu : u = y
            · subst hyu
              exact huz hyz
            · exact huz ((hz u hu y hy hyu).2 b hub (ascends_trans hyz hzb)).1
      · intro u hu u' hu' hne U hU hU'
        obtain ⟨b, rfl, hb, hb'⟩ := hcommon u hu u' hu' hne U hU hU'
        have hzb := ((hz u hu u' hu' hne).2 b hb hb').2
        obtain ⟨hbp, hsub⟩ := hcont z b hzp hzb
        exact hsub.subset (hself b hbp)
      · intro U hU
        obtain ⟨b, _, rfl, hzb⟩ := hz3 U hU
        exact ⟨y, hy, y', hy', hne, b, rfl, ascends_trans hyz hzb, ascends_trans hyz' hzb⟩
    · refine ⟨[], List.nodup_nil, ?_, ?_, by simp⟩
      · intro y _ m _ hm
        cases m with
        | nil => exact List.Sublist.refl _
        | cons U m => cases hm U (by simp)
      · intro y hy y' hy' hne U hU hU'
        obtain ⟨a, rfl, ha, ha'⟩ := hcommon y hy y' hy' hne U hU hU'
        exact (hsh ⟨y, hy, y', hy', hne, a, ha, ha'⟩).elim
  obtain ⟨C, hC1, hC2, hC3, hC4⟩ := hchain
  obtain ⟨order, ho1, _, ho3, ho4⟩ := chain_order' (listed x) hnd C (fun y => mro (nm y)) hC1
    (fun y hy => (hf y (hfirst y hy)).1) hC2 hC3
  have hheads : ((listed x).filterMap fun y => (mro (nm y)).head?) = (listed x).map nm := by
    have : ∀ l : List β, (∀ y ∈ l, y ∈ listed x) →
        (l.filterMap fun y => (mro (nm y)).head?) = l.map nm := by
      intro l
      induction l with
      | nil => intro _; rfl
      | cons y l ih =>
        intro h
        obtain ⟨_, ⟨t, ht⟩, _⟩ := hf y (hfirst y (h y (by simp)))
        rw [List.filterMap_cons_some (b := nm y) (by rw [ht]; rfl), List.map_cons,
          ih fun y hy => h y (by simp [hy])]
    exact this _ fun _ h => h
  have hbn : ((listed x).map nm).Nodup := by
    unfold List.Nodup
    rw [List.pairwise_map]
    refine List.Pairwise.imp_of_mem ?_ hnd
    intro y y' hy hy' hne e
    exact hne (hs.inj y (hpc y (hfirst y hy)) y' (hpc y' (hfirst y' hy')) e)
  refine c3_exists hbn order ho1 ?_ ?_
  · rw [← hheads]
    refine ho4 fun y hy => ?_
    obtain ⟨_, ⟨t, ht⟩, _⟩ := hf y (hfirst y hy)
    refine ⟨nm y, t, ht, fun hU => ?_⟩
    obtain ⟨u, hu, u', hu', hne, a, e, ha, ha'⟩ := hC4 _ hU
    have hap := (hcont u a (hfirst u hu) ha).1
    have := hs.inj y (hpc y (hfirst y hy)) a (hpc a hap) e
    subst this
    by_cases hyu : u = y
    · subst hyu
      exact (hz u' hu' u hu (Ne.symm hne)).1 ha'
    · exact (hz u hu y hy hyu).1 ha
  · intro l hl
    obtain ⟨y, hy, rfl⟩ := List.mem_map.1 hl
    exact ho3 y hy

end Verif
