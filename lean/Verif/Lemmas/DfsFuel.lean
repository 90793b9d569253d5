import Verif.Lemmas.Dfs
/-!
# A bound on the number of steps of an iteration

With it, iterations can be evaluated for concrete graphs.
-/
namespace Verif

/-- Steps for the nodes that can still be entered. -/
def Graph.remaining (g : Graph) (visited : List Nat) : Nat :=
  ((g.nodes.filter (· ∉ visited)).map fun n => (g.children n).length + 1).sum

theorem remaining_lt (g : Graph) (visited : List Nat) (c : Nat) (h : c ∈ g.nodes) (hv : c ∉ visited) :
    g.remaining (c :: visited) + (g.children c).length + 1 ≤ g.remaining visited := by
  unfold Graph.remaining
  generalize g.nodes = l at *
  have mono : ∀ l : List Nat,
      ((l.filter fun x => decide (x ∉ c :: visited)).map fun n => (g.children n).length + 1).sum ≤
      ((l.filter fun x => decide (x ∉ visited)).map fun n => (g.children n).length + 1).sum := by
    intro l
    induction l with
    | nil => simp
    | cons a l ih =>
      rw [List.filter_cons, List.filter_cons]
      by_cases ha : a = c
      · subst ha
        simp only [List.mem_cons, true_or, not_true_eq_false, decide_false, Bool.false_eq_true, if_false, hv,
          not_false_eq_true, decide_true, if_true, List.map_cons, List.sum_cons] at ih ⊢
        omega
      · by_cases hm : a ∈ visited
        · simp only [List.mem_cons, hm, or_true, not_true_eq_false, decide_false, Bool.false_eq_true, if_false] at ih ⊢
          exact ih
        · simp only [List.mem_cons, hm, ha, or_self, not_false_eq_true, decide_true, if_true, List.map_cons,
            List.sum_cons] at ih ⊢
          omega
  induction l with
  | nil => simp at h
  | cons a l ih =>
    rw [List.filter_cons, List.filter_cons]
    by_cases ha : a = c
    · subst ha
      have := mono l
      simp only [List.mem_cons, true_or, not_true_eq_false, decide_false, Bool.false_eq_true, if_false, hv,
        not_false_eq_true, decide_true, if_true, List.map_cons, List.sum_cons] at this ⊢
      omega
    · have hl : c ∈ l := by
        rcases List.mem_cons.1 h with h | h
        · exact absurd h.symm ha
        · exact h
      have := ih hl
      by_cases hm : a ∈ visited
      · simp only [List.mem_cons, hm, or_true, not_true_eq_false, decide_false, Bool.false_eq_true, if_false] at this ⊢
        exact this
      · simp only [List.mem_cons, hm, ha, or_self, not_false_eq_true, decide_true, if_true, List.map_cons,
          List.sum_cons] at this ⊢
        omega

theorem dfsLoopBy_total {σ : Type} (g : Graph) (k : Walker σ) (f : Nat) (v : List Nat)
    (st : List (Nat × List Nat)) (s : σ) (h : g.remaining v + stackSize st < f) :
    ∃ r, dfsLoopBy g k f v st s = some r := by
  induction f generalizing v st s with
  | zero => omega
  | succ f ih =>
    rcases st with _ | ⟨⟨n, _ | ⟨c, cs⟩⟩, st⟩
    · exact ⟨_, rfl⟩
    · rw [dfsLoopBy]
      simp only [stackSize, List.length_nil] at h
      exact ih _ _ _ (by omega)
    · rw [dfsLoopBy]
      simp only [stackSize, List.length_cons] at h
      split
      · exact ih _ _ _ (by simp only [stackSize]; omega)
      · split
        · have := remaining_lt g v c (by assumption) (by assumption)
          split
          · exact ih _ _ _ (by simp only [stackSize]; omega)
          · exact ih _ _ _ (by simp only [stackSize]; omega)
        · exact ih _ _ _ (by simp only [stackSize]; omega)

/-- A sufficient number of steps. -/
def Graph.fuel (g : Graph) : Nat := g.remaining [g.root] + (g.children g.root).length + 2

theorem dfs_fuel {σ : Type} (g : Graph) (k : Walker σ) (s : σ) :
    dfs g k s = (dfsBy g.fuel g k s).getD s := by
  refine dfs_eval g.fuel g k s id _ ?_
  unfold dfsBy
  split
  · rfl
  · obtain ⟨r, hr⟩ := dfsLoopBy_total g k g.fuel [g.root] [(g.root, g.children g.root)]
      (k.enter none g.root s) (by simp only [stackSize, Graph.fuel]; omega)
    rw [hr]
    rfl

end Verif
