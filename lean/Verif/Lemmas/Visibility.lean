import Verif.Lemmas.Dfs
import Verif.Lemmas.BuiltGraph
import Verif.Model.Processing
/-!
# Lemmas: analyses assigning a value to each node in pre-order
-/
namespace Verif
open Spec

/-- An analysis assigning a value to each node based on that of its parent. -/
def assigner {α : Type} (f : Option (Nat × Option α) → Nat → α) : Walker (Nat → Option α) where
  enter := fun parent id m => assign m id (f (parent.map fun p => (p, m p)) id)

theorem reachable_iff (g : Graph) (x : Nat) :
    ReachVia g (fun _ => (false : Bool) = false) x ↔ Reachable g x := by
  have : (fun _ : Nat => (false : Bool) = false) = fun _ => True := by funext; simp
  unfold Reachable
  rw [this]

theorem assigner_spec {α : Type} (g : Graph) (hg : GraphOK g) (hroot : ∀ p, ¬ Edge g p g.root)
    (f : Option (Nat × Option α) → Nat → α) :
    let m := dfs g (assigner f) fun _ => none
    m g.root = some (f none g.root) ∧
    (∀ x, (m x).isSome ↔ Reachable g x) ∧
    (∀ x, Reachable g x → x ≠ g.root → ∃ p, Edge g p x ∧ Reachable g p ∧
      m x = some (f (some (p, m p)) x)) := by
  have hr := dfs_rule g hg (assigner f)
    (fun v _ m => m g.root = some (f none g.root) ∧ (∀ x, (m x).isSome ↔ x ∈ v) ∧
      ∀ x ∈ v, x ≠ g.root → ∃ p ∈ v, Edge g p x ∧ m x = some (f (some (p, m p)) x))
    (fun _ => none) ?_ ?_ ?_
  · obtain ⟨v, ⟨h1, h2, h3⟩, _, h4⟩ := hr
    have h4' : ∀ x, x ∈ v ↔ Reachable g x := fun x => (h4 x).trans (reachable_iff g x)
    refine ⟨h1, fun x => (h2 x).trans (h4' x), fun x hx hne => ?_⟩
    obtain ⟨p, hp, hE, hm⟩ := h3 x ((h4' x).2 hx) hne
    exact ⟨p, hE, (h4' p).1 hp, hm⟩
  · refine ⟨by simp [assigner, assign], fun x => ?_, fun x hx hne => ?_⟩
    · simp only [assigner, assign, Option.map_none, List.mem_singleton]
      split <;> simp_all
    · exact absurd (List.mem_singleton.1 hx) hne
  · rintro v o n c m hf hE hv ⟨h1, h2, h3⟩
    have hnv : n ∈ v := hf.open_visited n (by simp)
    have hcr : c ≠ g.root := by rintro rfl; exact hroot n hE
    have hold : ∀ x, x ≠ c → (assigner f).enter (some n) c m x = m x := by
      intro x hx; simp [assigner, assign, hx]
    refine ⟨?_, fun x => ?_, fun x hx hne => ?_⟩
    · rw [hold _ (fun e => hcr e.symm)]; exact h1
    · by_cases hx : x = c
      · subst hx; simp [assigner, assign]
      · rw [hold x hx, h2]; simp [hx]
    · rcases List.mem_cons.1 hx with rfl | hx'
      · have hnx : n ≠ x := by rintro rfl; exact hv hnv
        refine ⟨n, by simp [hnv], hE, ?_⟩
        rw [hold n hnx]
        simp [assigner, assign]
      · have hxc : x ≠ c := by rintro rfl; exact hv hx'
        obtain ⟨p, hp, hE', hm⟩ := h3 x hx' hne
        have hpc : p ≠ c := by rintro rfl; exact hv hp
        refine ⟨p, by simp [hp], hE', ?_⟩
        rw [hold x hxc, hold p hpc]; exact hm
  · intro v o n m _ _ h; exact h

theorem derive_eq (w : World) (s : Storage) (g : Graph) :
    deriveEffectiveVisibility w s g = dfs g (assigner fun p id =>
      effectiveVisibility w s (p.bind (·.2)) id) fun _ => none := by
  unfold deriveEffectiveVisibility assigner
  congr
  funext parent id m
  cases parent <;> rfl

theorem scopes_eq (w : World) (s : Storage) (g : Graph) :
    findEnclosingScopes w s g = dfs g (assigner fun p _ =>
      match p with
      | none => none
      | some (p, r) => if isTransparent w s p then r.getD none else some p) fun _ => none := by
  unfold findEnclosingScopes assigner
  congr
  funext parent id m
  cases parent with
  | none => rfl
  | some p =>
    simp only [Option.map_some]
    split <;> rfl

theorem derive_reachable (w : World) (s : Storage) (g : Graph) (hf : Forest g) (x : Nat) :
    ((deriveEffectiveVisibility w s g) x).isSome = true ↔ Reachable g x := by
  rw [derive_eq]
  exact (assigner_spec g hf.toGraphOK hf.root_top _).2.1 x

/-! ### Cycles -/

theorem nested_drop {w : World} {root : Tree} (wf : WellFormed w root) (pre : List Nat) (x p : Nat)
    (post : List Nat) (h : w.ancestors x = pre ++ p :: post) : w.ancestors p = post := by
  induction pre generalizing x with
  | nil => exact wf.nested x p post h
  | cons q pre ih => exact ih q (wf.nested x q _ h)

theorem scope_depth {w : World} {root : Tree} (wf : WellFormed w root) (x p : Nat)
    (h : ScopeOf w x p) : (w.ancestors p).length < (w.ancestors x).length := by
  obtain ⟨pre, post, h1, _, _⟩ := h
  rw [nested_drop wf pre x p post h1, h1]
  simp only [List.length_append, List.length_cons]
  omega

theorem insertDecl_perm (w : World) (x : Nat) (l : List Nat) : (insertDecl w x l).Perm (x :: l) := by
  induction l with
  | nil => exact .refl _
  | cons y l ih =>
    rw [insertDecl]
    split
    · exact .refl _
    · exact (ih.cons y).trans (.swap ..)

theorem sortDecls_perm (w : World) (l : List Nat) : (sortDecls w l).Perm l := by
  induction l with
  | nil => exact .refl _
  | cons x l ih => exact (insertDecl_perm w x _).trans (ih.cons x)

theorem insertDecl_sorted (w : World) (x : Nat) (l : List Nat)
    (h : l.Pairwise (fun a b => w.loc a ≤ w.loc b)) :
    (insertDecl w x l).Pairwise (fun a b => w.loc a ≤ w.loc b) := by
  induction l with
  | nil => simp [insertDecl]
  | cons y l ih =>
    rw [insertDecl]
    obtain ⟨h1, h2⟩ := List.pairwise_cons.1 h
    split
    · rename_i hle
      refine List.pairwise_cons.2 ⟨fun z hz => ?_, h⟩
      rcases List.mem_cons.1 hz with rfl | hz'
      · exact hle
      · exact Nat.le_trans hle (h1 z hz')
    · refine List.pairwise_cons.2 ⟨fun z hz => ?_, ih h2⟩
      rcases List.mem_cons.1 ((insertDecl_perm w x l).mem_iff.1 hz) with rfl | hz'
      · omega
      · exact h1 z hz'

theorem sortDecls_sorted (w : World) (l : List Nat) :
    (sortDecls w l).Pairwise (fun a b => w.loc a ≤ w.loc b) := by
  induction l with
  | nil => exact .nil
  | cons x l ih => exact insertDecl_sorted w x _ ih

theorem mem_sortDecls (w : World) (l : List Nat) (x : Nat) : x ∈ sortDecls w l ↔ x ∈ l :=
  (sortDecls_perm w l).mem_iff

theorem mem_cycleAliases (w : World) (nodes : List Nat) (r : Nat → Bool) (rel : Nat → Option Nat)
    (a : Nat) : a ∈ cycleAliases w nodes r rel ↔ ∃ x ∈ nodes, r x = false ∧ rel x = some a := by
  rw [cycleAliases, mem_sortDecls, List.mem_filterMap]
  constructor
  · rintro ⟨x, hx, h⟩
    cases hr : r x with
    | true => rw [hr] at h; simp at h
    | false => rw [hr] at h; exact ⟨x, hx, hr, by simpa using h⟩
  · rintro ⟨x, hx, hr, h⟩
    exact ⟨x, hx, by rw [hr]; simpa using h⟩

end Verif
