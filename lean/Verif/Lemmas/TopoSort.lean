import Verif.Spec.TopoSort
/-!
# Lemmas: sorting of declaration contexts by dependencies
-/
namespace Verif
open Spec

/-- `x` directly or indirectly depends on `a`. -/
inductive DependsOn (preds : Nat → List Nat) (a : Nat) : Nat → Prop where
  | direct {x : Nat} : a ∈ preds x → DependsOn preds a x
  | step {p x : Nat} : DependsOn preds a p → p ∈ preds x → DependsOn preds a x

/-- Some node depends on itself. -/
def Cyclic (nodes : List Nat) (preds : Nat → List Nat) : Prop :=
  ∃ x ∈ nodes, DependsOn preds x x

/-- Dependencies are among the nodes. -/
structure DependencyGraph (nodes : List Nat) (preds : Nat → List Nat) : Prop where
  nodup : nodes.Nodup
  inside : ∀ x ∈ nodes, ∀ p ∈ preds x, p ∈ nodes

/-! ### Counting -/

theorem countP_lt {P Q : Nat → Bool} (h : ∀ x, P x = true → Q x = true) (l : List Nat) (a : Nat)
    (ha : a ∈ l) (h1 : Q a = true) (h2 : P a = false) : l.countP P < l.countP Q := by
  induction l with
  | nil => simp at ha
  | cons b l ih =>
    have mono : l.countP P ≤ l.countP Q := List.countP_mono_left fun x _ hx => h x hx
    rw [List.countP_cons, List.countP_cons]
    rcases List.mem_cons.1 ha with rfl | ha
    · rw [h1, h2]; simp; omega
    · have := ih ha
      cases hp : P b with
      | true => rw [h b hp]; simp; omega
      | false => cases Q b <;> simp <;> omega

theorem countP_remove (l R : List Nat) (a : Nat) (ha : a ∉ R) :
    l.countP (fun p => decide (p ∉ R)) =
      l.countP (fun p => decide (p ∉ R ++ [a])) + l.count a := by
  induction l with
  | nil => rfl
  | cons b l ih =>
    rw [List.countP_cons, List.countP_cons, List.count_cons, ih]
    by_cases hb : b = a
    · subst hb; simp [ha]; omega
    · by_cases hR : b ∈ R <;> simp [hb, hR]
      omega

theorem length_le_of_nodup (l m : List Nat) (hl : l.Nodup) (h : ∀ x ∈ l, x ∈ m) :
    l.length ≤ m.length := by
  induction l generalizing m with
  | nil => simp
  | cons a l ih =>
    obtain ⟨h1, h2⟩ := List.nodup_cons.1 hl
    have ha := h a (by simp)
    have := ih (m.erase a) h2 fun x hx => by
      have hxa : x ≠ a := by rintro rfl; exact h1 hx
      exact (List.mem_erase_of_ne hxa).2 (h x (by simp [hx]))
    rw [List.length_erase_of_mem ha] at this
    have := List.length_pos_of_mem ha
    simp only [List.length_cons]
    omega

theorem perm_of_nodup (l m : List Nat) (hl : l.Nodup) (hm : m.Nodup) (h : ∀ x, x ∈ l ↔ x ∈ m) :
    l.Perm m := by
  rw [List.perm_iff_count]
  intro a
  by_cases ha : a ∈ l
  · rw [List.Nodup.count hl, if_pos ha, List.Nodup.count hm, if_pos ((h a).1 ha)]
  · rw [List.count_eq_zero.2 ha, List.count_eq_zero.2 (fun hx => ha ((h a).2 hx))]

/-! ### The map of successors -/

/-- Nodes recorded to depend on a node. -/
def succOf (s : List (Nat × List Nat)) (k : Nat) : List Nat := (s.lookup k).getD []

theorem lookup_if (k k' : Nat) (l : List Nat) (s : List (Nat × List Nat)) :
    ((k', l) :: s).lookup k = if k = k' then some l else s.lookup k := by
  rw [List.lookup_cons]
  by_cases h : k = k'
  · subst h; simp
  · have : (k == k') = false := by simpa using h
    rw [this, if_neg h]

theorem lookup_addSuccessor (o n k : Nat) (s : List (Nat × List Nat)) :
    (addSuccessor o n s).lookup k = if k = o then some (succOf s o ++ [n]) else s.lookup k := by
  unfold succOf
  induction s with
  | nil =>
    rw [addSuccessor, lookup_if, List.lookup_nil]
    rfl
  | cons e s ih =>
    obtain ⟨k', l⟩ := e
    rw [addSuccessor]
    by_cases h : k' = o
    · subst h
      rw [if_pos rfl, lookup_if, lookup_if, lookup_if, if_pos rfl]
      by_cases hk : k = k' <;> simp [hk]
    · rw [if_neg h, lookup_if, lookup_if, lookup_if, ih]
      by_cases hk : k = k'
      · subst hk; simp [h]
      · rw [if_neg hk, if_neg hk, if_neg (fun e : o = k' => h e.symm)]

theorem mem_addSuccessor (o n : Nat) (s : List (Nat × List Nat))
    (hs : ∀ e ∈ s, e.2 ≠ []) : ∀ e ∈ addSuccessor o n s, e.2 ≠ [] := by
  induction s with
  | nil => simp [addSuccessor]
  | cons a s ih =>
    obtain ⟨k', l⟩ := a
    rw [addSuccessor]
    split
    · intro e he
      rcases List.mem_cons.1 he with rfl | he
      · simp
      · exact hs e (by simp [he])
    · intro e he
      rcases List.mem_cons.1 he with rfl | he
      · exact hs _ (by simp)
      · exact ih (fun e he => hs e (by simp [he])) e he

theorem lookup_filter (n k : Nat) (s : List (Nat × List Nat)) :
    (s.filter (·.1 ≠ n)).lookup k = if k = n then none else s.lookup k := by
  induction s with
  | nil => simp
  | cons e s ih =>
    obtain ⟨k', l⟩ := e
    by_cases h : k' = n
    · subst h
      rw [List.filter_cons_of_neg (by simp), ih, lookup_if]
      by_cases hk : k = k' <;> simp [hk]
    · rw [List.filter_cons_of_pos (by simp [h]), lookup_if, lookup_if, ih]
      by_cases hk : k = k'
      · subst hk; simp [h]
      · rw [if_neg hk, if_neg hk]

theorem lookup_mem (s : List (Nat × List Nat)) (k : Nat) (l : List Nat) (h : s.lookup k = some l) :
    (k, l) ∈ s := by
  induction s with
  | nil => simp at h
  | cons e s ih =>
    obtain ⟨k', l'⟩ := e
    rw [List.lookup_cons] at h
    by_cases hk : k = k'
    · subst hk; simp at h; simp [h]
    · have hk2 : (k == k') = false := by simpa using hk
      rw [hk2] at h
      exact List.mem_cons_of_mem _ (ih h)

theorem lookup_of_mem (s : List (Nat × List Nat)) (e : Nat × List Nat) (h : e ∈ s) :
    ∃ l, s.lookup e.1 = some l := by
  induction s with
  | nil => simp at h
  | cons a s ih =>
    obtain ⟨k', l'⟩ := a
    rw [List.lookup_cons]
    by_cases hk : e.1 = k'
    · subst hk; exact ⟨l', by simp⟩
    · have hk2 : (e.1 == k') = false := by simpa using hk
      rw [hk2]
      rcases List.mem_cons.1 h with rfl | h
      · exact absurd rfl hk
      · exact ih h

/-! ### The first loop -/

/-- State after handling the nodes `M` in the first loop. -/
structure Counted (preds : Nat → List Nat) (M : List Nat) (s : Sorting) : Prop where
  num : ∀ x, s.numPredecessors x = if x ∈ M then ((preds x).length : Int) else 0
  succ : ∀ k x, (succOf s.successors k).count x = if x ∈ M then (preds x).count k else 0
  nonempty : ∀ e ∈ s.successors, e.2 ≠ []
  ready_nodup : s.ready.Nodup
  ready : ∀ x, x ∈ s.ready ↔ x ∈ M ∧ preds x = []
  result : s.result = []

theorem addPredecessors_spec (node : Nat) (ps : List Nat) (s : Sorting)
    (hne : ∀ e ∈ s.successors, e.2 ≠ []) :
    let s' := ps.foldl (addPredecessor node) s
    (∀ x, s'.numPredecessors x = s.numPredecessors x + if x = node then (ps.length : Int) else 0) ∧
    (∀ k x, (succOf s'.successors k).count x =
      (succOf s.successors k).count x + if x = node then ps.count k else 0) ∧
    (∀ e ∈ s'.successors, e.2 ≠ []) ∧ s'.ready = s.ready ∧ s'.result = s.result := by
  induction ps generalizing s with
  | nil => simp; exact fun a b h => hne (a, b) h
  | cons p ps ih =>
    obtain ⟨h1, h2, h3, h4, h5⟩ := ih (addPredecessor node s p)
      (mem_addSuccessor p node s.successors hne)
    refine ⟨fun x => ?_, fun k x => ?_, h3, h4, h5⟩
    · rw [List.foldl_cons, h1]
      simp only [addPredecessor, List.length_cons]
      by_cases hx : x = node <;> simp [hx]
      omega
    · rw [List.foldl_cons, h2]
      have : succOf (addPredecessor node s p).successors k =
          if k = p then succOf s.successors p ++ [node] else succOf s.successors k := by
        unfold addPredecessor
        dsimp only
        rw [succOf, lookup_addSuccessor]
        split
        · rfl
        · rfl
      rw [this, List.count_cons]
      by_cases hx : x = node
      · subst hx
        by_cases hk : k = p
        · subst hk
          simp only [if_true, List.count_append, List.count_singleton_self, beq_self_eq_true]
          omega
        · have : (p == k) = false := by simpa using fun e : p = k => hk e.symm
          simp [hk, this]
      · by_cases hk : k = p
        · subst hk
          have hx' : (node == x) = false := by simpa using fun e : node = x => hx e.symm
          simp [hx, List.count_append, List.count_cons, hx']
        · simp [hk, hx]

theorem counted_all (preds : Nat → List Nat) (M nodes : List Nat) (s : Sorting)
    (hd : (M ++ nodes).Nodup) (h : Counted preds M s) :
    Counted preds (M ++ nodes) (nodes.foldl (countPredecessors preds) s) := by
  induction nodes generalizing M s with
  | nil => simpa using h
  | cons n nodes ih =>
    rw [List.foldl_cons]
    have hnM : n ∉ M := by
      intro hn
      have := List.nodup_append.1 hd
      exact this.2.2 n hn n (by simp) rfl
    have key : Counted preds (M ++ [n]) (countPredecessors preds s n) := by
      obtain ⟨h1, h2, h3, h4, h5⟩ := addPredecessors_spec n (preds n) s h.nonempty
      have num : ∀ x, ((preds n).foldl (addPredecessor n) s).numPredecessors x =
          if x ∈ M ++ [n] then ((preds x).length : Int) else 0 := by
        intro x
        rw [h1, h.num]
        by_cases hx : x = n
        · subst hx; simp [hnM]
        · simp [hx]
      have succ : ∀ k x, (succOf ((preds n).foldl (addPredecessor n) s).successors k).count x =
          if x ∈ M ++ [n] then (preds x).count k else 0 := by
        intro k x
        rw [h2, h.succ]
        by_cases hx : x = n
        · subst hx; simp [hnM]
        · simp [hx]
      have hz : ((preds n).foldl (addPredecessor n) s).numPredecessors n = 0 ↔ preds n = [] := by
        rw [num n]; simp
      unfold countPredecessors
      dsimp only
      split
      · rename_i hzero
        refine ⟨num, succ, h3, ?_, fun x => ?_, by dsimp only; rw [h5, h.result]⟩
        · dsimp only
          rw [h4]
          refine List.nodup_append.2 ⟨h.ready_nodup, by simp, ?_⟩
          intro a ha b hb e
          rw [List.mem_singleton.1 hb] at e
          subst e
          exact hnM ((h.ready _).1 ha).1
        · dsimp only
          rw [h4, List.mem_append, List.mem_append, List.mem_singleton, h.ready]
          constructor
          · rintro (⟨ha, hb⟩ | rfl)
            · exact ⟨.inl ha, hb⟩
            · exact ⟨.inr rfl, hz.1 hzero⟩
          · rintro ⟨ha | ha, hb⟩
            · exact .inl ⟨ha, hb⟩
            · exact .inr ha
      · rename_i hzero
        refine ⟨num, succ, h3, by rw [h4]; exact h.ready_nodup, fun x => ?_, by rw [h5, h.result]⟩
        rw [h4, h.ready, List.mem_append, List.mem_singleton]
        constructor
        · rintro ⟨ha, hb⟩; exact ⟨.inl ha, hb⟩
        · rintro ⟨ha | rfl, hb⟩
          · exact ⟨ha, hb⟩
          · exact absurd (hz.2 hb) hzero
    have := ih (M ++ [n]) _ (by simpa using hd) key
    simpa using this

/-! ### The second loop -/

theorem release_all (L : List Nat) (s : Sorting) (hle : ∀ x, (L.count x : Int) ≤ s.numPredecessors x) :
    ∃ P : List Nat, P.Nodup ∧ (∀ x, x ∈ P ↔ x ∈ L ∧ s.numPredecessors x = L.count x) ∧
      (L.foldl release s).ready = s.ready ++ P ∧
      (∀ x, (L.foldl release s).numPredecessors x = s.numPredecessors x - L.count x) ∧
      (L.foldl release s).successors = s.successors ∧ (L.foldl release s).result = s.result := by
  induction L generalizing s with
  | nil => exact ⟨[], by simp⟩
  | cons o L ih =>
    have hnum : ∀ x, (release s o).numPredecessors x =
        if x = o then s.numPredecessors o - 1 else s.numPredecessors x := by
      intro x
      unfold release
      dsimp only
      split <;> rfl
    have hcount : ∀ x, ((o :: L).count x : Int) = L.count x + if x = o then 1 else 0 := by
      intro x
      rw [List.count_cons]
      by_cases hx : x = o
      · subst hx; simp
      · have : (o == x) = false := by simpa using fun e : o = x => hx e.symm
        simp [this, hx]
    obtain ⟨P, p1, p2, p3, p4, p5, p6⟩ := ih (release s o) (fun x => by
      have := hle x
      rw [hcount] at this
      rw [hnum]
      split
      · rename_i hx; subst hx; simp at this; omega
      · rename_i hx; simp [hx] at this; exact this)
    have hrest : (release s o).successors = s.successors ∧ (release s o).result = s.result := by
      unfold release
      dsimp only
      split <;> exact ⟨rfl, rfl⟩
    have hready : (release s o).ready = if s.numPredecessors o - 1 = 0 then s.ready ++ [o]
        else s.ready := by
      unfold release
      dsimp only
      split <;> rfl
    have hnum' : ∀ x, ((o :: L).foldl release s).numPredecessors x =
        s.numPredecessors x - (o :: L).count x := by
      intro x
      rw [List.foldl_cons, p4, hnum, hcount]
      by_cases hx : x = o
      · subst hx; simp; omega
      · simp [hx]
    by_cases hz : s.numPredecessors o - 1 = 0
    · have ho := hle o
      rw [hcount] at ho
      simp only [if_true] at ho
      have hoL : o ∉ L := by
        rw [← List.count_eq_zero]
        omega
      refine ⟨o :: P, ?_, fun x => ?_, ?_, hnum', by rw [List.foldl_cons, p5, hrest.1],
        by rw [List.foldl_cons, p6, hrest.2]⟩
      · refine List.nodup_cons.2 ⟨fun h => hoL ((p2 o).1 h).1, p1⟩
      · rw [List.mem_cons, List.mem_cons, p2, hnum, hcount]
        by_cases hx : x = o
        · subst hx
          have : L.count x = 0 := List.count_eq_zero.2 hoL
          simp [this]
          omega
        · simp [hx]
      · rw [List.foldl_cons, p3, hready, if_pos hz]; simp
    · refine ⟨P, p1, fun x => ?_, ?_, hnum', by rw [List.foldl_cons, p5, hrest.1],
        by rw [List.foldl_cons, p6, hrest.2]⟩
      · rw [List.mem_cons, p2, hnum, hcount]
        by_cases hx : x = o
        · subst hx
          simp only [if_true, true_or, true_and]
          constructor
          · rintro ⟨_, h⟩; omega
          · intro h
            refine ⟨?_, by omega⟩
            have : 0 < L.count x := by omega
            exact List.count_pos_iff.1 this
        · simp [hx]
      · rw [List.foldl_cons, p3, hready, if_neg hz]

/-- State in the second loop. -/
structure Kahn (loc : Nat → Nat) (nodes : List Nat) (preds : Nat → List Nat) (s : Sorting) :
    Prop where
  nodup : s.result.Nodup
  sub : ∀ x ∈ s.result, x ∈ nodes
  num : ∀ x, s.numPredecessors x =
    if x ∈ nodes then ((preds x).countP (fun p => decide (p ∉ s.result)) : Int) else 0
  succ : ∀ k x, (succOf s.successors k).count x =
    if k ∈ s.result then 0 else if x ∈ nodes then (preds x).count k else 0
  nonempty : ∀ e ∈ s.successors, e.2 ≠ []
  ready_nodup : s.ready.Nodup
  ready : ∀ x, x ∈ s.ready ↔ x ∈ nodes ∧ x ∉ s.result ∧ ∀ p ∈ preds x, p ∈ s.result
  sorted : ∀ pre x post, s.result = pre ++ x :: post → ∀ p ∈ preds x, p ∈ pre
  greedy : ∀ pre x post, s.result = pre ++ x :: post → ∀ y ∈ nodes, y ∉ pre →
    (∀ p ∈ preds y, p ∈ pre) → loc x ≤ loc y

theorem kahn_start (loc : Nat → Nat) (nodes : List Nat) (preds : Nat → List Nat)
    (hd : nodes.Nodup) : Kahn loc nodes preds (nodes.foldl (countPredecessors preds) {}) := by
  have h := counted_all preds [] nodes {} (by simpa using hd)
    ⟨by simp, by simp [succOf], by simp, by simp, by simp, rfl⟩
  rw [List.nil_append] at h
  refine ⟨by rw [h.result]; simp, by rw [h.result]; simp, fun x => ?_, fun k x => ?_, h.nonempty,
    h.ready_nodup, fun x => ?_, by rw [h.result]; simp, by rw [h.result]; simp⟩
  · rw [h.num, h.result]; simp [List.countP_true]
  · rw [h.succ, h.result]; simp
  · rw [h.ready, h.result]
    simp only [List.not_mem_nil, not_false_eq_true, true_and]
    rw [← List.eq_nil_iff_forall_not_mem]

theorem sortStep_spec (node : Nat) (s : Sorting) (hle : ∀ x, ((succOf s.successors node).count x : Int)
      ≤ s.numPredecessors x) :
    ∃ P : List Nat, P.Nodup ∧
      (∀ x, x ∈ P ↔ x ∈ succOf s.successors node ∧
        s.numPredecessors x = (succOf s.successors node).count x) ∧
      (sortStep node s).ready = s.ready.erase node ++ P ∧
      (∀ x, (sortStep node s).numPredecessors x =
        s.numPredecessors x - (succOf s.successors node).count x) ∧
      (∀ k, (sortStep node s).successors.lookup k =
        if k = node then none else s.successors.lookup k) ∧
      (∀ e ∈ (sortStep node s).successors, e ∈ s.successors) ∧
      (sortStep node s).result = s.result ++ [node] := by
  unfold succOf at *
  cases hl : s.successors.lookup node with
  | none =>
    refine ⟨[], by simp, by simp, ?_, ?_, fun k => ?_, ?_, ?_⟩
    · simp [sortStep, hl]
    · simp [sortStep, hl]
    · simp only [sortStep, hl]
      split
      · rename_i h; rw [h, hl]
      · rfl
    · simp [sortStep, hl]
    · simp [sortStep, hl]
  | some l =>
    rw [hl] at hle
    simp only [Option.getD_some] at hle ⊢
    obtain ⟨P, p1, p2, p3, p4, p5, p6⟩ := release_all l { s with ready := s.ready.erase node } hle
    refine ⟨P, p1, p2, ?_, ?_, fun k => ?_, ?_, ?_⟩
    · simp [sortStep, hl, p3]
    · simp [sortStep, hl, p4]
    · simp only [sortStep, hl, p5]
      exact lookup_filter node k s.successors
    · intro e he
      simp only [sortStep, hl, p5] at he
      exact (List.mem_filter.1 he).1
    · simp [sortStep, hl, p6]

theorem kahn_step (loc : Nat → Nat) (nodes : List Nat) (preds : Nat → List Nat) (s : Sorting)
    (h : Kahn loc nodes preds s) (node : Nat) (hn : node ∈ s.ready)
    (hmin : ∀ x ∈ s.ready, loc node ≤ loc x) : Kahn loc nodes preds (sortStep node s) := by
  obtain ⟨hnN, hnR, hnp⟩ := (h.ready node).1 hn
  have hsucc : ∀ x, (succOf s.successors node).count x =
      if x ∈ nodes then (preds x).count node else 0 := by
    intro x; rw [h.succ, if_neg hnR]
  have hrem : ∀ x, (preds x).countP (fun p => decide (p ∉ s.result)) =
      (preds x).countP (fun p => decide (p ∉ s.result ++ [node])) + (preds x).count node :=
    fun x => countP_remove _ _ _ hnR
  obtain ⟨P, p1, p2, p3, p4, p5, p6, p7⟩ := sortStep_spec node s (fun x => by
    rw [hsucc, h.num]
    split
    · rw [hrem x]; omega
    · exact Int.le_refl _)
  have hP : ∀ x, x ∈ P ↔ x ∈ nodes ∧ node ∈ preds x ∧ ∀ p ∈ preds x, p ∈ s.result ++ [node] := by
    intro x
    rw [p2, h.num, hsucc]
    have hmem : x ∈ succOf s.successors node ↔ x ∈ nodes ∧ node ∈ preds x := by
      rw [← List.count_pos_iff, hsucc]
      split
      · rename_i hx; simp [hx, List.count_pos_iff]
      · rename_i hx; simp [hx]
    rw [hmem, and_assoc]
    refine and_congr_right fun hx => and_congr_right fun _ => ?_
    rw [if_pos hx, if_pos hx, hrem x]
    constructor
    · intro he
      have : (preds x).countP (fun p => decide (p ∉ s.result ++ [node])) = 0 := by omega
      intro p hp
      have := List.countP_eq_zero.1 this p hp
      exact Classical.byContradiction fun hn => this (decide_eq_true hn)
    · intro hall
      have : (preds x).countP (fun p => decide (p ∉ s.result ++ [node])) = 0 := by
        rw [List.countP_eq_zero]
        intro p hp hn
        exact of_decide_eq_true hn (hall p hp)
      omega
  have hnodeP : node ∉ preds node := fun hx => hnR (hnp node hx)
  refine ⟨?_, ?_, fun x => ?_, fun k x => ?_, fun e he => h.nonempty e (p6 e he), ?_, fun x => ?_,
    ?_, ?_⟩
  · rw [p7]
    refine List.nodup_append.2 ⟨h.nodup, by simp, ?_⟩
    intro a ha b hb e
    rw [List.mem_singleton.1 hb] at e
    subst e
    exact hnR ha
  · rw [p7]
    intro x hx
    rcases List.mem_append.1 hx with hx | hx
    · exact h.sub x hx
    · rw [List.mem_singleton.1 hx]; exact hnN
  · rw [p4, h.num, hsucc, p7]
    split
    · rw [hrem x]; omega
    · rfl
  · rw [p7]
    unfold succOf
    rw [p5]
    by_cases hk : k = node
    · subst hk; simp
    · rw [if_neg hk]
      have := h.succ k x
      unfold succOf at this
      rw [this]
      simp [hk]
  · rw [p3]
    refine List.nodup_append.2 ⟨h.ready_nodup.erase _, p1, ?_⟩
    intro a ha b hb e
    subst e
    have h1 := (h.ready a).1 (List.mem_of_mem_erase ha)
    exact hnR (h1.2.2 node ((hP a).1 hb).2.1)
  · rw [p3, p7, List.mem_append, hP, h.ready_nodup.mem_erase_iff, h.ready]
    constructor
    · rintro (⟨hxn, h1, h2, h3⟩ | ⟨h1, h2, h3⟩)
      · exact ⟨h1, by simp [h2, hxn], fun p hp => by simp [h3 p hp]⟩
      · refine ⟨h1, ?_, h3⟩
        rw [List.mem_append, List.mem_singleton]
        rintro (hx | rfl)
        · obtain ⟨pre, post, hs⟩ := List.append_of_mem hx
          have := h.sorted pre x post hs node h2
          exact hnR (by rw [hs]; simp [this])
        · exact hnodeP h2
    · rintro ⟨h1, h2, h3⟩
      rw [List.mem_append, List.mem_singleton, not_or] at h2
      by_cases hnx : node ∈ preds x
      · exact .inr ⟨h1, hnx, h3⟩
      · refine .inl ⟨h2.2, h1, h2.1, fun p hp => ?_⟩
        rcases List.mem_append.1 (h3 p hp) with hp' | hp'
        · exact hp'
        · rw [List.mem_singleton.1 hp'] at hp; exact absurd hp hnx
  · rw [p7]
    intro pre x post he p hp
    rcases List.append_eq_append_iff.1 he with ⟨a', h1, h2⟩ | ⟨a', h1, h2⟩
    · cases a' with
      | nil =>
        simp only [List.append_nil, List.nil_append, List.cons.injEq] at h1 h2
        rw [h1]
        rw [← h2.1] at hp
        exact hnp p hp
      | cons c a' =>
        have := congrArg List.length h2
        simp at this
    · cases a' with
      | nil =>
        simp only [List.append_nil, List.nil_append, List.cons.injEq] at h1 h2
        rw [← h1]
        rw [h2.1] at hp
        exact hnp p hp
      | cons c a' =>
        simp only [List.cons_append, List.cons.injEq] at h2
        rw [← h2.1] at h1
        exact h.sorted pre x a' h1 p hp
  · rw [p7]
    intro pre x post he y hy hyp hyd
    rcases List.append_eq_append_iff.1 he with ⟨a', h1, h2⟩ | ⟨a', h1, h2⟩
    · cases a' with
      | nil =>
        simp only [List.append_nil, List.nil_append, List.cons.injEq] at h1 h2
        rw [← h2.1]
        rw [h1] at hyp hyd
        exact hmin y ((h.ready y).2 ⟨hy, hyp, hyd⟩)
      | cons c a' =>
        have := congrArg List.length h2
        simp at this
    · cases a' with
      | nil =>
        simp only [List.append_nil, List.nil_append, List.cons.injEq] at h1 h2
        rw [h2.1]
        rw [← h1] at hyp hyd
        exact hmin y ((h.ready y).2 ⟨hy, hyp, hyd⟩)
      | cons c a' =>
        simp only [List.cons_append, List.cons.injEq] at h2
        rw [← h2.1] at h1
        exact h.greedy pre x a' h1 y hy hyp hyd

theorem sortLoop_spec (loc : Nat → Nat) (pick : Pick) (hp : PicksTop loc pick) (nodes : List Nat)
    (preds : Nat → List Nat) (n : Nat) (s : Sorting) (h : Kahn loc nodes preds s) :
    Kahn loc nodes preds (sortLoop pick n s) ∧
    (nodes.length < n + s.result.length → (sortLoop pick n s).ready = []) := by
  induction n generalizing s with
  | zero =>
    refine ⟨h, fun hlt => ?_⟩
    have := length_le_of_nodup s.result nodes h.nodup h.sub
    omega
  | succ n ih =>
    rw [sortLoop]
    split
    · rename_i he
      exact ⟨h, fun _ => List.isEmpty_iff.1 he⟩
    · rename_i he
      have hne : s.ready ≠ [] := fun e => he (by rw [e]; rfl)
      obtain ⟨h1, h2⟩ := hp s.result.length s.ready hne
      have hk := kahn_step loc nodes preds s h _ h1 h2
      obtain ⟨h3, h4⟩ := ih _ hk
      refine ⟨h3, fun hlt => h4 ?_⟩
      have hlen : (sortStep (pick s.result.length s.ready) s).result.length = s.result.length + 1 := by
        simp [sortStep]
        split <;> simp [foldl_release_result]
      omega
where
  foldl_release_result (l : List Nat) (s : Sorting) : (l.foldl release s).result = s.result := by
    induction l generalizing s with
    | nil => rfl
    | cons o l ih =>
      rw [List.foldl_cons, ih]
      unfold release
      dsimp only
      split <;> rfl

/-- What is known when the second loop is done. -/
structure Sorted (loc : Nat → Nat) (nodes : List Nat) (preds : Nat → List Nat) (s : Sorting) : Prop
    extends Kahn loc nodes preds s where
  done : s.ready = []

theorem sorting (loc : Nat → Nat) (pick : Pick) (hp : PicksTop loc pick) (nodes : List Nat)
    (preds : Nat → List Nat) (hd : nodes.Nodup) :
    Sorted loc nodes preds (sortLoop pick (nodes.length + 1)
      (nodes.foldl (countPredecessors preds) {})) := by
  obtain ⟨h1, h2⟩ := sortLoop_spec loc pick hp nodes preds (nodes.length + 1) _
    (kahn_start loc nodes preds hd)
  exact ⟨h1, h2 (by omega)⟩

/-! ### Cycles -/

theorem dependsOn_trans {preds : Nat → List Nat} {a b c : Nat} (h1 : DependsOn preds a b)
    (h2 : DependsOn preds b c) : DependsOn preds a c := by
  induction h2 with
  | direct h => exact .step h1 h
  | step _ h ih => exact .step ih h

theorem dependsOn_cases {preds : Nat → List Nat} {a c : Nat} (h : DependsOn preds a c) :
    ∃ p ∈ preds c, p = a ∨ DependsOn preds a p := by
  cases h with
  | direct h => exact ⟨_, h, .inl rfl⟩
  | step h hp => exact ⟨_, hp, .inr h⟩

/-- In a finite set in which everything has a dependency, everything depends on
something on a cycle. -/
theorem cycle_above (preds : Nat → List Nat) (nodes : List Nat) (U : Nat → Prop)
    (hU : ∀ x, U x → x ∈ nodes ∧ ∃ p ∈ preds x, U p) (x : Nat) (hx : U x) :
    ∃ c, U c ∧ DependsOn preds c c ∧ (c = x ∨ DependsOn preds c x) := by
  let B : Nat → Nat → Bool := fun n u => @decide (DependsOn preds u n) (Classical.propDecidable _)
  have hB : ∀ n u, B n u = true ↔ DependsOn preds u n := by
    intro n u; simp only [B, decide_eq_true_eq]
  have main : ∀ k n, U n → nodes.countP (B n) = k →
      ∃ c, U c ∧ DependsOn preds c c ∧ (c = n ∨ DependsOn preds c n) := by
    intro k
    induction k using Nat.strongRecOn with
    | _ k ih =>
      intro n hn hk
      obtain ⟨hnN, p, hp, hUp⟩ := hU n hn
      by_cases hpp : DependsOn preds p p
      · exact ⟨p, hUp, hpp, .inr (.direct hp)⟩
      · have hlt : nodes.countP (B p) < nodes.countP (B n) := by
          refine countP_lt (fun u hu => ?_) nodes p (hU p hUp).1 ?_ ?_
          · rw [hB] at hu ⊢; exact .step hu hp
          · rw [hB]; exact .direct hp
          · rw [Bool.eq_false_iff, Ne, hB]; exact hpp
        obtain ⟨c, h1, h2, h3⟩ := ih _ (hk ▸ hlt) p hUp rfl
        refine ⟨c, h1, h2, .inr ?_⟩
        rcases h3 with rfl | h3
        · exact .direct hp
        · exact .step h3 hp
  exact main _ x hx rfl

/-- Not listed in the result. -/
def Left (nodes : List Nat) (s : Sorting) (x : Nat) : Prop := x ∈ nodes ∧ x ∉ s.result

theorem left_pred {loc : Nat → Nat} {nodes : List Nat} {preds : Nat → List Nat} {s : Sorting}
    (hg : DependencyGraph nodes preds) (h : Sorted loc nodes preds s) (x : Nat)
    (hx : Left nodes s x) : x ∈ nodes ∧ ∃ p ∈ preds x, Left nodes s p := by
  refine ⟨hx.1, ?_⟩
  apply Classical.byContradiction
  intro hno
  have : x ∈ s.ready := by
    refine (h.ready x).2 ⟨hx.1, hx.2, fun p hp => ?_⟩
    apply Classical.byContradiction
    intro hpR
    exact hno ⟨p, hp, hg.inside x hx.1 p hp, hpR⟩
  rw [h.done] at this
  simp at this

theorem listed_deps {loc : Nat → Nat} {nodes : List Nat} {preds : Nat → List Nat} {s : Sorting}
    (h : Sorted loc nodes preds s) (a x : Nat) (hd : DependsOn preds a x) :
    ∀ pre post, s.result = pre ++ x :: post → a ∈ pre := by
  induction hd with
  | direct hp => intro pre post he; exact h.sorted pre _ post he _ hp
  | step _ hp ih =>
    intro pre post he
    have hm := h.sorted pre _ post he _ hp
    obtain ⟨q1, q2, hq⟩ := List.append_of_mem hm
    rw [hq] at he
    have := ih q1 (q2 ++ _) (by rw [he, List.append_assoc, List.cons_append])
    rw [hq]; simp [this]

theorem cycle_left {loc : Nat → Nat} {nodes : List Nat} {preds : Nat → List Nat} {s : Sorting}
    (h : Sorted loc nodes preds s) (x : Nat) (hd : DependsOn preds x x) : x ∉ s.result := by
  intro hx
  obtain ⟨pre, post, he⟩ := List.append_of_mem hx
  have := listed_deps h x x hd pre post he
  have hnd := h.nodup
  rw [he] at hnd
  exact (List.nodup_append.1 hnd).2.2 x this x (by simp) rfl

theorem left_of_cyclic {loc : Nat → Nat} {nodes : List Nat} {preds : Nat → List Nat} {s : Sorting}
    (hg : DependencyGraph nodes preds) (h : Sorted loc nodes preds s) :
    (∃ x, Left nodes s x) ↔ Cyclic nodes preds := by
  constructor
  · rintro ⟨x, hx⟩
    obtain ⟨c, h1, h2, _⟩ := cycle_above preds nodes (Left nodes s) (left_pred hg h) x hx
    exact ⟨c, h1.1, h2⟩
  · rintro ⟨x, hx, hd⟩
    exact ⟨x, hx, cycle_left h x hd⟩

theorem mem_keys {loc : Nat → Nat} {nodes : List Nat} {preds : Nat → List Nat} {s : Sorting}
    (h : Sorted loc nodes preds s) (k : Nat) : k ∈ s.successors.map (·.1) ↔
      k ∉ s.result ∧ ∃ x ∈ nodes, k ∈ preds x := by
  constructor
  · intro hk
    obtain ⟨e, he, rfl⟩ := List.mem_map.1 hk
    obtain ⟨l, hl⟩ := lookup_of_mem _ e he
    have hne := h.nonempty _ (lookup_mem _ _ _ hl)
    obtain ⟨x, hx⟩ := List.exists_mem_of_ne_nil l hne
    have hc : 0 < (succOf s.successors e.1).count x := by
      unfold succOf; rw [hl]; exact List.count_pos_iff.2 hx
    rw [h.succ] at hc
    split at hc
    · omega
    · rename_i h1
      refine ⟨h1, x, ?_⟩
      split at hc
      · rename_i h2; exact ⟨h2, List.count_pos_iff.1 hc⟩
      · omega
  · rintro ⟨hR, x, hx, hp⟩
    have hc : 0 < (succOf s.successors k).count x := by
      rw [h.succ, if_neg hR, if_pos hx]; exact List.count_pos_iff.2 hp
    have hm := List.count_pos_iff.1 hc
    unfold succOf at hm
    cases hl : s.successors.lookup k with
    | none => rw [hl] at hm; simp at hm
    | some l => exact List.mem_map.2 ⟨_, lookup_mem _ _ _ hl, rfl⟩

theorem keys_empty {loc : Nat → Nat} {nodes : List Nat} {preds : Nat → List Nat} {s : Sorting}
    (hg : DependencyGraph nodes preds) (h : Sorted loc nodes preds s) :
    s.successors.isEmpty = true ↔ ¬ Cyclic nodes preds := by
  rw [← left_of_cyclic hg h]
  constructor
  · rintro he ⟨x, hx⟩
    obtain ⟨_, p, hp, hpl⟩ := left_pred hg h x hx
    have := (mem_keys h p).2 ⟨hpl.2, x, hx.1, hp⟩
    rw [List.isEmpty_iff.1 he] at this
    simp at this
  · intro hno
    rw [List.isEmpty_iff]
    cases hs : s.successors with
    | nil => rfl
    | cons e l =>
      exfalso
      have : e.1 ∈ s.successors.map (·.1) := by rw [hs]; simp
      obtain ⟨h1, x, hx, hp⟩ := (mem_keys h _).1 this
      exact hno ⟨e.1, hg.inside x hx _ hp, h1⟩

theorem result_all {loc : Nat → Nat} {nodes : List Nat} {preds : Nat → List Nat} {s : Sorting}
    (hg : DependencyGraph nodes preds) (h : Sorted loc nodes preds s)
    (hac : ¬ Cyclic nodes preds) : s.result.Perm nodes := by
  refine perm_of_nodup _ _ h.nodup hg.nodup fun x => ⟨h.sub x, fun hx => ?_⟩
  apply Classical.byContradiction
  intro hR
  exact hac ((left_of_cyclic hg h).1 ⟨x, hx, hR⟩)

/-- Without self-loops, at least two nodes are left if there is a cycle. -/
theorem result_short {loc : Nat → Nat} {nodes : List Nat} {preds : Nat → List Nat} {s : Sorting}
    (hg : DependencyGraph nodes preds) (h : Sorted loc nodes preds s)
    (hself : ∀ x ∈ nodes, x ∉ preds x) (hc : Cyclic nodes preds) :
    s.result.length + 2 ≤ nodes.length := by
  obtain ⟨x, hx⟩ := (left_of_cyclic hg h).2 hc
  obtain ⟨_, p, hp, hpl⟩ := left_pred hg h x hx
  have hxp : x ≠ p := by rintro rfl; exact hself x hx.1 hp
  have := length_le_of_nodup (x :: p :: s.result) nodes ?_ ?_
  · simpa using this
  · refine List.nodup_cons.2 ⟨?_, List.nodup_cons.2 ⟨hpl.2, h.nodup⟩⟩
    simp [hxp, hx.2]
  · intro y hy
    rcases List.mem_cons.1 hy with rfl | hy
    · exact hx.1
    rcases List.mem_cons.1 hy with rfl | hy
    · exact hpl.1
    · exact h.sub y hy

end Verif
