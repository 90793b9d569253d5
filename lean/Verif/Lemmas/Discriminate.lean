import Verif.Lemmas.Identifier
/-! `DiscriminateIdentifiers`. -/
namespace Verif
open Spec

/-- What `discriminate` returns for the `k`-th request of `name`. -/
def numbered (name : Str) (k : Nat) : Str :=
  if k = 1 then name else name ++ '_' :: printNat k

/-- Number of each request: how often the name was requested so far. -/
def requestNumbers (st : Discriminators) : List Str → List (Str × Nat)
  | [] => []
  | n :: ns => (n, st n + 1) :: requestNumbers (fun m => if m = n then st n + 1 else st m) ns

theorem discriminateAll_eq (st : Discriminators) (ns : List Str) :
    discriminateAll st ns = (requestNumbers st ns).map fun e => numbered e.1 e.2 := by
  induction ns generalizing st with
  | nil => rfl
  | cons n ns ih =>
    simp only [discriminateAll, requestNumbers, List.map_cons, ih, discriminate]
    congr 1
    unfold numbered
    split <;> simp_all

theorem mem_requestNumbers (st : Discriminators) (ns : List Str) (n : Str) (k : Nat) :
    (n, k) ∈ requestNumbers st ns ↔ st n < k ∧ k ≤ st n + ns.count n := by
  induction ns generalizing st with
  | nil => simp [requestNumbers]
  | cons m ns ih =>
    simp only [requestNumbers, List.mem_cons, Prod.mk.injEq, ih]
    by_cases h : n = m
    · subst h; simp; omega
    · have h' : m ≠ n := fun e => h e.symm
      simp [h, List.count_cons_of_ne h']

theorem requestNumbers_nodup (st : Discriminators) (ns : List Str) :
    (requestNumbers st ns).Nodup := by
  induction ns generalizing st with
  | nil => simp [requestNumbers]
  | cons m ns ih =>
    simp only [requestNumbers, List.nodup_cons]
    refine ⟨?_, ih _⟩
    rw [mem_requestNumbers]
    simp

theorem printNat_injective {a b : Nat} (h : printNat a = printNat b) : a = b := by
  have ha := (printNat_spec a).2.2
  have hb := (printNat_spec b).2.2
  rw [h] at ha
  omega

theorem underscore_not_digit : ¬ Digit '_' := by simp [Digit]

/-- Splitting off the last underscore-separated digit group is unambiguous. -/
theorem numbered_split {a b da db : Str} (ha : ∀ c ∈ da, Digit c) (hb : ∀ c ∈ db, Digit c)
    (h : a ++ '_' :: da = b ++ '_' :: db) : a = b ∧ da = db := by
  have key : ∀ (a b da db : Str), (∀ c ∈ da, Digit c) → (∀ c ∈ db, Digit c) →
      a ++ '_' :: da = b ++ '_' :: db → da.length ≤ db.length := by
    intro a b da db ha hb h
    rcases Nat.lt_or_ge db.length da.length with hlt | hge
    · exfalso
      have hl := congrArg List.length h
      simp only [List.length_append, List.length_cons] at hl
      have h2 := congrArg (fun l => l[b.length]?) h
      simp only [List.getElem?_append_right (Nat.le_refl _), Nat.sub_self] at h2
      rw [List.getElem?_append_right (by omega)] at h2
      obtain ⟨j, hj⟩ : ∃ j, b.length - a.length = j + 1 := ⟨b.length - a.length - 1, by omega⟩
      rw [hj] at h2
      simp only [List.getElem?_cons_succ, List.getElem?_cons_zero] at h2
      exact underscore_not_digit (ha '_' (List.mem_of_getElem? h2))
    · exact hge
  have h1 := key a b da db ha hb h
  have h2 := key b a db da hb ha h.symm
  have := List.append_inj' h (by simp; omega)
  refine ⟨this.1, ?_⟩
  simpa using this.2

theorem numbered_inj {a b : Str} {j k : Nat} (h : numbered a j = numbered b k) :
    (a = b ∧ j = k) ∨ (j ≠ 1 ∧ b = numbered a j ∧ k = 1) ∨ (k ≠ 1 ∧ a = numbered b k ∧ j = 1) := by
  unfold numbered at *
  by_cases hj : j = 1 <;> by_cases hk : k = 1
  · simp [hj, hk] at h; left; exact ⟨h, by omega⟩
  · right; right; simp [hj, hk] at h ⊢; exact h
  · right; left; simp [hj, hk] at h ⊢; exact h.symm
  · simp only [hj, hk, ↓reduceIte] at h
    obtain ⟨h1, h2⟩ := numbered_split (printNat_spec j).2.1 (printNat_spec k).2.1 h
    left; exact ⟨h1, printNat_injective h2⟩

theorem nodup_map_of_injOn {α β : Type} {f : α → β} {l : List α} (hl : l.Nodup)
    (hf : ∀ x ∈ l, ∀ y ∈ l, f x = f y → x = y) : (l.map f).Nodup := by
  induction l with
  | nil => simp
  | cons a l ih =>
    simp only [List.nodup_cons, List.map_cons, List.mem_map, not_exists, not_and] at hl ⊢
    refine ⟨?_, ih hl.2 (fun x hx y hy => hf x (by simp [hx]) y (by simp [hy]))⟩
    intro x hx e
    have := hf x (by simp [hx]) a (by simp) e
    exact hl.1 (this ▸ hx)

theorem injOn_of_nodup_map {α β : Type} {f : α → β} {l : List α} (h : (l.map f).Nodup) :
    ∀ x ∈ l, ∀ y ∈ l, f x = f y → x = y := by
  induction l with
  | nil => simp
  | cons a l ih =>
    simp only [List.nodup_cons, List.map_cons, List.mem_map, not_exists, not_and] at h
    intro x hx y hy e
    simp only [List.mem_cons] at hx hy
    rcases hx with rfl | hx <;> rcases hy with rfl | hy
    · rfl
    · exact absurd e.symm (h.1 y hy)
    · exact absurd e (h.1 x hx)
    · exact ih h.2 x hx y hy e

end Verif
