import Verif.Lemmas.Templates
/-!
# Instantiation of annotated templates (C45)
-/
namespace Verif
open Spec

/-- Nothing fails if the specializations can be defined. -/
theorem run_not_failed (w : TemplateWorld) (hd : ∀ x, Reached w x → w.kind x = .undeclared → w.definable x = true)
    (n : Nat) (s : TemplateState) (h : TemplateInv w s) : runTemplates w n s ≠ .failed := by
  induction n generalizing s with
  | zero =>
    unfold runTemplates
    split
    · simp
    · simp
  | succ n ih =>
    unfold runTemplates
    split
    · simp
    · rename_i x rest hp
      dsimp only
      cases ht : processSpecialization w { s with pending := rest } x with
      | some t => exact ih t (process_inv w s t x rest hp h ht).1
      | none =>
        exfalso
        unfold processSpecialization instantiateSpecialization at ht
        rw [Option.map_eq_none_iff] at ht
        dsimp only at ht
        have hr : Reached w x := h.reached x (.inr (by rw [hp]; exact List.mem_cons_self ..))
        split at ht
        · cases ht
        · cases ht
        · split at ht
          · rename_i hc
            simp only [Bool.and_eq_true, decide_eq_true_eq] at hc
            have hk : w.kind x = .undeclared := by
              have hc1 := hc.1
              unfold kindNow at hc1
              split at hc1
              · cases hc1
              · split at hc1
                · cases hc1
                · exact hc1
            rw [hd x hr hk] at hc
            simp at hc
          · cases ht

/-- **C45**: if only finitely many specializations can be reached and their templates can be
instantiated, the instantiation ends. -/
theorem C45_terminates (w : TemplateWorld) (u : List Nat) (hu : ∀ x, Reached w x → x ∈ u)
    (hd : ∀ x, Reached w x → w.kind x = .undeclared → w.definable x = true) :
    ∃ n s, instantiateTemplates w n = .finished s := by
  obtain ⟨n, hn⟩ := run_terminates w u hu _ _ _ (inv_start w) rfl rfl
  have hf := run_not_failed w hd n _ (inv_start w)
  refine ⟨n, ?_⟩
  unfold instantiateTemplates
  cases h : runTemplates w n { pending := visitAll w [] [] w.roots } with
  | running t => exact absurd h (hn t)
  | failed => exact absurd h hf
  | finished s => exact ⟨s, rfl⟩

/-- More iterations do not change the result. -/
theorem C45_result_unique (w : TemplateWorld) (n k : Nat) (s : TemplateState)
    (h : instantiateTemplates w n = .finished s) : instantiateTemplates w (n + k) = .finished s := by
  unfold instantiateTemplates at h ⊢
  generalize (TemplateState.mk (visitAll w [] [] w.roots) [] [] [] []) = t at h ⊢
  induction n generalizing t with
  | zero =>
    unfold runTemplates at h ⊢
    split at h
    · rename_i hp
      exact h
    · cases h
  | succ n ih =>
    rw [Nat.succ_add]
    unfold runTemplates at h ⊢
    split at h
    · rename_i hp
      exact h
    · rename_i x rest hp
      dsimp only at h ⊢
      split at h
      · cases h
      · rename_i t' ht'
        exact ih t' h

/-- **C45**: in the end every specialization that is named in the translation unit or in
the definition of another such specialization has been instantiated, together with its
members, and been added to its context unless it had been before.  Each of them exactly
once, and no others.

The full statement is about `Reached` in place of `Present`: it does not hold for
specializations that are listed by their template only later on (`C45_missed`). -/
theorem C45_fixpoint_partial (w : TemplateWorld) (n : Nat) (s : TemplateState)
    (h : instantiateTemplates w n = .finished s) :
    (∀ x, Present w x →
      (Instantiable w x → x ∈ s.instantiated) ∧ (NotPlaced w x → x ∈ s.added)) ∧
    (∀ x ∈ s.instantiated, Reached w x ∧ Instantiable w x) ∧
    (∀ x ∈ s.added, Reached w x ∧ NotPlaced w x) ∧
    s.instantiated.Nodup ∧ s.added.Nodup := by
  obtain ⟨hi, hp⟩ := run_inv w n _ s (inv_start w) h
  have hdone : ∀ x, Present w x → x ∈ s.done := by
    intro x hx
    induction hx with
    | root hv hn hex =>
      rcases hi.roots _ hv _ hn hex with h1 | h1
      · exact h1
      · rw [hp] at h1
        cases h1
    | body _ hv hn hex ih =>
      rcases hi.bodies _ ih _ hv _ hn hex with h1 | h1
      · exact h1
      · rw [hp] at h1
        cases h1
  refine ⟨fun x hx => ⟨fun h1 => (hi.instantiated.2 x).2 ⟨hdone x hx, h1⟩,
    fun h1 => (hi.added.2 x).2 ⟨hdone x hx, h1⟩⟩, ?_, ?_, hi.instantiated.1, hi.added.1⟩
  · intro x hx
    obtain ⟨h1, h2⟩ := (hi.instantiated.2 x).1 hx
    exact ⟨hi.reached x (.inl h1), h2⟩
  · intro x hx
    obtain ⟨h1, h2⟩ := (hi.added.2 x).1 hx
    exact ⟨hi.reached x (.inl h1), h2⟩

theorem reached_present (w : TemplateWorld) (hroots : ∀ v ∈ w.roots, v.needs = [])
    (hbody : ∀ x, ∀ v ∈ w.body x, v.needs = []) (x : Nat) (h : Reached w x) : Present w x := by
  induction h with
  | root hv hn => exact .root hv hn fun n hneed => by rw [hroots _ hv] at hneed; cases hneed
  | body _ hv hn ih => exact .body ih hv hn fun n hneed => by rw [hbody _ _ hv] at hneed; cases hneed

/-- **C45**: exactly, if specializations are named by aliases outside of specializations, or
in members of the specializations instantiated. -/
theorem C45_aliases (w : TemplateWorld) (hroots : ∀ v ∈ w.roots, v.needs = [])
    (hbody : ∀ x, ∀ v ∈ w.body x, v.needs = []) (n : Nat) (s : TemplateState)
    (h : instantiateTemplates w n = .finished s) :
    (∀ x, x ∈ s.instantiated ↔ Reached w x ∧ Instantiable w x) ∧
    (∀ x, x ∈ s.added ↔ Reached w x ∧ NotPlaced w x) ∧
    s.instantiated.Nodup ∧ s.added.Nodup := by
  obtain ⟨h1, h2, h3, h4, h5⟩ := C45_fixpoint_partial w n s h
  exact ⟨fun x => ⟨h2 x, fun ⟨hr, hi⟩ => (h1 x (reached_present w hroots hbody x hr)).1 hi⟩,
    fun x => ⟨h3 x, fun ⟨hr, hi⟩ => (h1 x (reached_present w hroots hbody x hr)).2 hi⟩, h4, h5⟩

/-! ### What does not hold -/

/-- `template <class T> struct GENPYBIND(visible) Used {};`
`template <class T> struct Alias { Used<T> member; };`
`using alias GENPYBIND(visible) = Alias<int>;`
Specializations: 0 is `Used<int>`, 1 is `Alias<int>`. -/
def missedWorld : TemplateWorld where
  roots := [{ needs := [0], target := some 0 }, { target := some 1 }]
  body _ := []
  kind _ := .undeclared
  existing x := x == 1
  creates x := if x = 1 then [0] else []
  definable _ := true

/-- The annotated specialization `Used<int>` is implicitly instantiated when the one named
by the alias is, but it is not seen any more: neither are its members instantiated nor is
it part of a context. -/
theorem C45_missed :
    ∃ s, instantiateTemplates missedWorld 1 = .finished s ∧ Reached missedWorld 0 ∧
      Instantiable missedWorld 0 ∧ 0 ∈ s.created ∧ 0 ∉ s.instantiated ∧ 0 ∉ s.added := by
  refine ⟨{ done := [1], created := [0], added := [1], instantiated := [1] }, by decide +kernel, ?_,
    .inl rfl, by decide, by decide, by decide⟩
  exact .root (v := { needs := [0], target := some 0 }) (by simp [missedWorld]) ⟨rfl, rfl⟩

/-- `template <int N> struct A { using next GENPYBIND(visible) = A<N + 1>; };` -/
def endlessWorld : TemplateWorld where
  roots := [{ target := some 0 }]
  body x := [{ target := some (x + 1) }]
  kind _ := .undeclared
  existing _ := true
  creates _ := []
  definable _ := true

/-- An annotated alias for a specialization that leads to ever new ones is followed without
end. -/
theorem C45_endless (n : Nat) : ∃ s, instantiateTemplates endlessWorld n = .running s := by
  suffices ∀ k (s : TemplateState), s.pending = [k] → (∀ x ∈ s.done, x < k) →
      (∀ x ∈ s.instantiated, x < k) → s.created = [] →
      ∃ t, runTemplates endlessWorld n s = .running t from
    this 0 _ (by decide) (by intro x h; cases h) (by intro x h; cases h) rfl
  induction n with
  | zero =>
    intro k s hp _ _ _
    unfold runTemplates
    rw [hp]
    exact ⟨s, rfl⟩
  | succ n ih =>
    intro k s hp hd hi hc
    have hk : kindNow endlessWorld { s with pending := [], done := s.done ++ [k] } k = .undeclared := by
      unfold kindNow
      dsimp only
      rw [hc, if_neg (by
        simp only [List.contains_iff_mem]
        exact fun h => Nat.lt_irrefl _ (hi k h))]
      rfl
    have hproc : processSpecialization endlessWorld { s with pending := [] } k =
        some { s with
          pending := [k + 1]
          done := s.done ++ [k]
          added := s.added ++ [k]
          instantiated := s.instantiated ++ [k] } := by
      have hv : visitAll endlessWorld [] (s.done ++ [k]) (endlessWorld.body k) = [k + 1] := by
        have : k + 1 ∉ s.done ++ [k] := by
          simp only [List.mem_append, List.mem_singleton, not_or]
          exact ⟨fun h => by have := hd _ h; omega, by omega⟩
        have hs : k + 1 ∉ s.done := fun h => this (List.mem_append_left _ h)
        unfold visitAll
        change List.filterMap _ [_] = _
        rw [List.filterMap_cons]
        simp [endlessWorld, Option.filter, hs]
      unfold processSpecialization instantiateSpecialization
      rw [hk]
      simp [endlessWorld, hc] at hv ⊢
      exact hv
    unfold runTemplates
    rw [hp]
    dsimp only
    rw [hproc]
    dsimp only
    refine ih (k + 1) _ rfl ?_ ?_ hc
    · intro x hx
      rcases List.mem_append.1 hx with hx | hx
      · have := hd x hx
        omega
      · rw [List.mem_singleton] at hx
        omega
    · intro x hx
      rcases List.mem_append.1 hx with hx | hx
      · have := hi x hx
        omega
      · rw [List.mem_singleton] at hx
        omega

/-- `template <class T> struct Undefined; using alias GENPYBIND(visible) = Undefined<int>;` -/
def undefinedWorld : TemplateWorld where
  roots := [{ target := some 0 }]
  body _ := []
  kind _ := .undeclared
  existing _ := true
  creates _ := []
  definable _ := false

/-- An annotated alias for a specialization of a template that is not defined is undefined
behavior, in addition to the error. -/
theorem C45_undefined : instantiateTemplates undefinedWorld 1 = .failed := by decide +kernel

/-! ### Examples -/

/-- Two aliases for one specialization, which itself names another twice, an explicit
specialization, an explicit instantiation declaration and itself. -/
def templateWorld : TemplateWorld where
  roots := [{ target := some 0 }, { annotated := false, target := some 5 }, { target := some 0 },
    { target := none }]
  body x := match x with
    | 0 => [{ target := some 1 }, { target := some 2 }, { target := some 1 }, { target := some 3 },
        { target := some 0 }]
    | 2 => [{ target := some 4 }]
    | _ => []
  kind x := match x with
    | 2 => .explicitSpecialization
    | 3 => .explicitDeclaration
    | 4 => .implicit
    | _ => .undeclared
  existing _ := true
  creates x := if x = 0 then [1] else []
  definable _ := true

theorem templateWorld_reached (x : Nat) (h : Reached templateWorld x) : x ∈ [0, 1, 2, 3, 4] := by
  induction h with
  | root hv hn =>
    obtain ⟨h1, h2⟩ := hn
    simp only [templateWorld, List.mem_cons, List.not_mem_nil, or_false] at hv
    rcases hv with rfl | rfl | rfl | rfl
    · cases h2; simp
    · cases h1
    · cases h2; simp
    · cases h2
  | @body v x y _ hv hn ih =>
    obtain ⟨h1, h2⟩ := hn
    simp only [List.mem_cons, List.not_mem_nil, or_false] at ih
    rcases ih with rfl | rfl | rfl | rfl | rfl <;>
      simp only [templateWorld, List.mem_cons, List.not_mem_nil, or_false] at hv
    · rcases hv with rfl | rfl | rfl | rfl | rfl <;> cases h2 <;> simp
    · subst hv
      cases h2
      simp

example : ∃ n s, instantiateTemplates templateWorld n = .finished s :=
  C45_terminates templateWorld _ templateWorld_reached fun _ _ _ => rfl

theorem templateWorld_result :
    instantiateTemplates templateWorld 12 = .finished
      { done := [0, 0, 1, 2, 1, 3, 1, 2, 1, 3, 4, 4], created := [1], added := [0, 1, 4],
        instantiated := [0, 1, 3, 4] } := by decide +kernel

example : ∀ x, x ∈ [0, 1, 4] ↔ Reached templateWorld x ∧ NotPlaced templateWorld x :=
  (C45_aliases templateWorld (by decide) (by
    intro x v hv
    match x with
    | 0 => revert v; decide
    | 1 => cases hv
    | 2 => revert v; decide
    | n + 3 => cases hv) 12 _ templateWorld_result).2.1

/-- A member template whose specialization is created with the specialization around it. -/
def nestedWorld : TemplateWorld where
  roots := [{ target := some 0 }]
  body x := if x = 0 then [{ needs := [1], target := some 1 }] else []
  kind _ := .undeclared
  existing x := x == 0
  creates x := if x = 0 then [1] else []
  definable _ := true

example : ∃ s, instantiateTemplates nestedWorld 2 = .finished s ∧ 1 ∈ s.instantiated := by
  have h : instantiateTemplates nestedWorld 2 = .finished
      { done := [0, 1], created := [1], added := [0, 1], instantiated := [0, 1] } := by decide +kernel
  have hp : Present nestedWorld 1 :=
    .body (x := 0) (v := { needs := [1], target := some 1 })
      (.root (v := { target := some 0 }) (by simp [nestedWorld]) ⟨rfl, rfl⟩ (by simp))
      (by simp [nestedWorld]) ⟨rfl, rfl⟩ (by
        intro n hn
        rw [List.mem_singleton] at hn
        subst hn
        exact .inr ⟨.inl rfl, by simp [nestedWorld]⟩)
  exact ⟨_, h, ((C45_fixpoint_partial nestedWorld 2 _ h).1 1 hp).1 (.inl rfl)⟩

end Verif
