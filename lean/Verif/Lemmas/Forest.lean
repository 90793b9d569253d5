import Verif.Lemmas.Visibility
import Verif.Spec.Visibility
/-!
# Lemmas: paths in a graph where every node has one place
-/
namespace Verif
open Spec

theorem below_trans {g : Graph} {a b c : Nat} (h1 : Below g a b) (h2 : Below g b c) : Below g a c := by
  induction h2 with
  | self => exact h1
  | step _ hE ih => exact .step ih hE

theorem below_cases {g : Graph} {a x : Nat} (h : Below g a x) :
    x = a ∨ ∃ p, Edge g p x ∧ Below g a p := by
  cases h with
  | self => exact .inl rfl
  | step h hE => exact .inr ⟨_, hE, h⟩

theorem below_root {g : Graph} (hf : Forest g) {a : Nat} (h : Below g a g.root) : a = g.root := by
  rcases below_cases h with h | ⟨p, hE, _⟩
  · exact h.symm
  · exact absurd hE (hf.root_top p)

theorem below_parent {g : Graph} (hf : Forest g) {a p x : Nat} (hE : Edge g p x) :
    Below g a x ↔ x = a ∨ Below g a p := by
  constructor
  · intro h
    rcases below_cases h with h | ⟨q, hq, h⟩
    · exact .inl h
    · rw [hf.unique p q x hE hq]; exact .inr h
  · rintro (rfl | h)
    · exact .self
    · exact .step h hE

theorem reachable_of_below {g : Graph} {a x : Nat} (ha : Reachable g a) (h : Below g a x) :
    Reachable g x := by
  induction h with
  | self => exact ha
  | step _ hE ih => exact .step ih trivial hE

theorem reachable_parent {g : Graph} (hf : Forest g) {p x : Nat} (hx : Reachable g x)
    (hE : Edge g p x) : Reachable g p := by
  cases hx with
  | root => exact absurd hE (hf.root_top p)
  | step hq _ hE' => rw [hf.unique _ _ _ hE hE']; exact hq

theorem reachable_above {g : Graph} (hf : Forest g) {a x : Nat} (hx : Reachable g x)
    (h : Below g a x) : Reachable g a := by
  induction h with
  | self => exact hx
  | step _ hE ih => exact ih (reachable_parent hf hx hE)

theorem root_above {g : Graph} {x : Nat} (hx : Reachable g x) : Below g g.root x := by
  induction hx with
  | root => exact .self
  | step _ _ hE ih => exact .step ih hE

/-- The open nodes are those above the current one. -/
theorem mem_path_iff {g : Graph} (hf : Forest g) (n : Nat) (o : List Nat)
    (hp : PathToRoot g (n :: o)) (a : Nat) : a ∈ n :: o ↔ Below g a n := by
  induction o generalizing n with
  | nil =>
    have hn : n = g.root := hp
    subst hn
    rw [List.mem_singleton]
    exact ⟨fun h => h ▸ .self, fun h => below_root hf h⟩
  | cons p o ih =>
    obtain ⟨hE, hp'⟩ := hp
    rw [below_parent hf hE, ← ih p hp', List.mem_cons]
    exact ⟨fun h => h.imp Eq.symm id, fun h => h.imp Eq.symm id⟩

/-- A child of a node that is about to be completed has been completed. -/
theorem child_not_open {g : Graph} (hf : Forest g) (n : Nat) (o : List Nat)
    (hp : PathToRoot g (n :: o)) (hnd : (n :: o).Nodup) (c : Nat) (hE : Edge g n c) :
    c ∉ n :: o := by
  have key : ∀ (o : List Nat) (m : Nat), PathToRoot g (m :: o) → (m :: o).Nodup →
      (c ∈ m :: o → n ∈ o) := by
    intro o
    induction o with
    | nil =>
      intro m hp _ hc
      rw [List.mem_singleton.1 hc] at hE
      have hm : m = g.root := hp
      rw [hm] at hE
      exact absurd hE (hf.root_top n)
    | cons p o ih =>
      intro m hp hnd hc
      rcases List.mem_cons.1 hc with rfl | hc'
      · rw [hf.unique n p c hE hp.1]; simp
      · exact List.mem_cons_of_mem _ (ih p hp.2 (List.nodup_cons.1 hnd).2 hc')
  intro hc
  exact (List.nodup_cons.1 hnd).1 (key o n hp hnd hc)

theorem reachable_depth {g : Graph} (hf : Forest g) : ∃ d : Nat → Nat, ∀ p x, Reachable g x →
    Edge g p x → d p < d x := by
  -- number of nodes above
  refine ⟨fun x => (g.nodes.filter fun a => @decide (Below g a x) (Classical.propDecidable _)).length,
    fun p x hx hE => ?_⟩
  have hp := reachable_parent hf hx hE
  have hnot : ¬ Below g x p := by
    intro h
    -- walk upwards from p to the root: all nodes on the cycle are below each other
    have loop : ∀ y, Reachable g y → Below g x y → Below g y x → False := by
      intro y hy
      induction hy with
      | root =>
        intro h1 _
        have := below_root hf h1
        subst this
        exact hf.root_top _ hE
      | @step q c hq _ hE' ih =>
        intro h1 h2
        rcases (below_parent hf hE').1 h1 with h | h
        · subst h
          have := hf.unique _ _ _ hE hE'
          subst this
          exact ih ‹_› (.step .self hE')
        · exact ih h (below_trans (.step .self hE') h2)
    exact loop p hp h (.step .self hE)
  simp only [← List.countP_eq_length_filter]
  have hxn : x ∈ g.nodes := hf.child p x hE
  have mono : ∀ l : List Nat, l.countP (fun a => @decide (Below g a p) (Classical.propDecidable _)) ≤
      l.countP (fun a => @decide (Below g a x) (Classical.propDecidable _)) := by
    intro l
    refine List.countP_mono_left fun a _ ha => ?_
    simp only [decide_eq_true_eq] at ha ⊢
    exact .step ha hE
  generalize g.nodes = l at hxn
  induction l with
  | nil => simp at hxn
  | cons a l ih =>
    rw [List.countP_cons, List.countP_cons]
    rcases List.mem_cons.1 hxn with h | h
    · subst h
      have := mono l
      have h1 : Below g x x := .self
      simp only [hnot, h1, decide_false, decide_true, if_true]
      simp
      omega
    · have := ih h
      by_cases hb : Below g a p
      · have hb' : Below g a x := .step hb hE
        simp only [hb, hb', decide_true, if_true]
        omega
      · simp only [hb, decide_false]
        simp
        split <;> omega

end Verif
