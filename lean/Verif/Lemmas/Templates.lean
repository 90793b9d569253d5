import Verif.Spec.Templates
/-!
# Lemmas about the instantiation of annotated templates
-/
namespace Verif
open Spec

theorem mem_visitAll (w : TemplateWorld) (created done : List Nat) (l : List Visit) (y : Nat) :
    y ∈ visitAll w created done l ↔
      ∃ v ∈ l, Names v y ∧ (∀ n ∈ v.needs, w.existing n = true ∨ n ∈ created) ∧ y ∉ done := by
  unfold visitAll Names
  rw [List.mem_filterMap]
  constructor
  · rintro ⟨v, hv, h⟩
    refine ⟨v, hv, ?_⟩
    split at h
    · rename_i hc
      simp only [Bool.and_eq_true, List.all_eq_true, Bool.or_eq_true, List.contains_iff_mem] at hc
      rw [Option.filter_eq_some_iff] at h
      refine ⟨⟨hc.2, h.1⟩, hc.1, ?_⟩
      simpa using h.2
    · cases h
  · rintro ⟨v, hv, ⟨h1, h2⟩, h3, h4⟩
    refine ⟨v, hv, ?_⟩
    rw [if_pos (by
      simp only [Bool.and_eq_true, List.all_eq_true, Bool.or_eq_true, List.contains_iff_mem]
      exact ⟨h3, h1⟩), h2, Option.filter_some, if_pos (by simpa using h4)]

/-- What holds whenever the loop is entered. -/
structure TemplateInv (w : TemplateWorld) (s : TemplateState) : Prop where
  reached : ∀ x, x ∈ s.done ∨ x ∈ s.pending → Reached w x
  roots : ∀ v ∈ w.roots, ∀ y, Names v y → (∀ n ∈ v.needs, w.existing n = true) →
    y ∈ s.done ∨ y ∈ s.pending
  bodies : ∀ x ∈ s.done, ∀ v ∈ w.body x, ∀ y, Names v y →
    (∀ n ∈ v.needs, w.existing n = true ∨ (Instantiable w x ∧ n ∈ w.creates x)) →
    y ∈ s.done ∨ y ∈ s.pending
  instantiated : s.instantiated.Nodup ∧ ∀ x, x ∈ s.instantiated ↔ x ∈ s.done ∧ Instantiable w x
  added : s.added.Nodup ∧ ∀ x, x ∈ s.added ↔ x ∈ s.done ∧ NotPlaced w x
  created : ∀ n, n ∈ s.created ↔ ∃ x ∈ s.instantiated, n ∈ w.creates x

theorem inv_start (w : TemplateWorld) : TemplateInv w { pending := visitAll w [] [] w.roots } where
  reached := by
    rintro x (h | h)
    · cases h
    · obtain ⟨v, hv, hn, _⟩ := (mem_visitAll w [] [] w.roots x).1 h
      exact .root hv hn
  roots := fun v hv y hn hex =>
    .inr ((mem_visitAll ..).2 ⟨v, hv, hn, fun n h => .inl (hex n h), by simp⟩)
  bodies := fun x hx => by cases hx
  instantiated := ⟨.nil, fun x => by simp⟩
  added := ⟨.nil, fun x => by simp⟩
  created := fun n => by simp

/-- The three ways in which a specialization is processed. -/
theorem instantiate_cases (w : TemplateWorld) (s s' : TemplateState) (x : Nat)
    (h : instantiateSpecialization w s x = some s') :
    (s' = s ∧ (x ∈ s.instantiated ∨ ¬ Instantiable w x)) ∨
    (x ∉ s.instantiated ∧ Instantiable w x ∧
      s' = { s with
        added := if w.kind x = .explicitDeclaration then s.added else s.added ++ [x]
        instantiated := s.instantiated ++ [x]
        created := s.created ++ w.creates x }) := by
  unfold instantiateSpecialization at h
  by_cases hi : x ∈ s.instantiated
  · have hk : kindNow w s x = .explicitDefinition := by
      unfold kindNow
      rw [if_pos (by simpa using hi)]
    rw [hk] at h
    cases h
    exact .inl ⟨rfl, .inl hi⟩
  · have hk : kindNow w s x =
        if w.kind x = .undeclared && s.created.contains x then .implicit else w.kind x := by
      unfold kindNow
      rw [if_neg (by simpa using hi)]
    rw [hk] at h
    cases hw : w.kind x with
    | explicitSpecialization =>
      simp only [hw, reduceCtorEq, decide_false, Bool.false_and, Bool.false_eq_true, if_false] at h
      cases h
      exact .inl ⟨rfl, .inr (by simp [Instantiable, hw])⟩
    | explicitDefinition =>
      simp only [hw, reduceCtorEq, decide_false, Bool.false_and, Bool.false_eq_true, if_false] at h
      cases h
      exact .inl ⟨rfl, .inr (by simp [Instantiable, hw])⟩
    | explicitDeclaration =>
      simp only [hw, reduceCtorEq, decide_false, Bool.false_and, Bool.false_eq_true, if_false,
        Bool.or_self] at h
      cases h
      exact .inr ⟨hi, .inr (.inr hw), by simp⟩
    | implicit =>
      simp only [hw, reduceCtorEq, decide_false, Bool.false_and, Bool.false_eq_true, if_false,
        decide_true, Bool.or_true, if_true] at h
      cases h
      exact .inr ⟨hi, .inr (.inl hw), by simp⟩
    | undeclared =>
      refine .inr ⟨hi, .inl hw, ?_⟩
      by_cases hc : x ∈ s.created
      · simp [hw, hc] at h
        rw [← h]
        simp
      · simp [hw, hc] at h
        rw [← h.2]
        simp

theorem process_inv (w : TemplateWorld) (s s' : TemplateState) (x : Nat) (rest : List Nat)
    (hp : s.pending = x :: rest) (h : TemplateInv w s)
    (hs : processSpecialization w { s with pending := rest } x = some s') :
    TemplateInv w s' ∧ s'.done = s.done ++ [x] ∧
      ∃ new, s'.pending = rest ++ new ∧ ∀ y ∈ new, y ∉ s'.done := by
  unfold processSpecialization at hs
  rw [Option.map_eq_some_iff] at hs
  obtain ⟨t, ht, rfl⟩ := hs
  have hr : Reached w x := h.reached x (.inr (by rw [hp]; exact List.mem_cons_self ..))
  have hc := instantiate_cases w _ t x ht
  -- what both ways have in common
  have key : t.pending = rest ∧ t.done = s.done ++ [x] ∧
      (t.instantiated.Nodup ∧ ∀ z, z ∈ t.instantiated ↔ z ∈ s.done ++ [x] ∧ Instantiable w z) ∧
      (t.added.Nodup ∧ ∀ z, z ∈ t.added ↔ z ∈ s.done ++ [x] ∧ NotPlaced w z) ∧
      ∀ n, n ∈ t.created ↔ ∃ z ∈ t.instantiated, n ∈ w.creates z := by
    obtain ⟨hi1, hi2⟩ := h.instantiated
    obtain ⟨ha1, ha2⟩ := h.added
    rcases hc with ⟨rfl, hx⟩ | ⟨hx, hinst, rfl⟩
    · refine ⟨rfl, rfl, ⟨hi1, ?_⟩, ⟨ha1, ?_⟩, h.created⟩
      · intro z
        change z ∈ s.instantiated ↔ _
        rw [hi2 z]
        simp only [List.mem_append, List.mem_singleton]
        refine ⟨fun ⟨h1, h2⟩ => ⟨.inl h1, h2⟩, ?_⟩
        rintro ⟨h1 | rfl, h2⟩
        · exact ⟨h1, h2⟩
        · rcases hx with hx | hx
          · exact (hi2 z).1 hx
          · exact absurd h2 hx
      · intro z
        change z ∈ s.added ↔ _
        rw [ha2 z]
        simp only [List.mem_append, List.mem_singleton]
        refine ⟨fun ⟨h1, h2⟩ => ⟨.inl h1, h2⟩, ?_⟩
        rintro ⟨h1 | rfl, h2⟩
        · exact ⟨h1, h2⟩
        · refine ⟨?_, h2⟩
          rcases hx with hx | hx
          · exact ((hi2 z).1 hx).1
          · exact absurd (h2.elim .inl fun h => .inr (.inl h)) hx
    · have hnd : x ∉ s.done := fun hd => hx ((hi2 x).2 ⟨hd, hinst⟩)
      refine ⟨rfl, rfl, ⟨?_, ?_⟩, ?_, ?_⟩
      · change (s.instantiated ++ [x]).Nodup
        rw [List.nodup_append]
        refine ⟨hi1, by simp, ?_⟩
        rintro a ha b hb rfl
        rw [List.mem_singleton] at hb
        exact hx (hb ▸ ha)
      · intro z
        change z ∈ s.instantiated ++ [x] ↔ _
        simp only [List.mem_append, List.mem_singleton, hi2 z]
        constructor
        · rintro (⟨h1, h2⟩ | rfl)
          · exact ⟨.inl h1, h2⟩
          · exact ⟨.inr rfl, hinst⟩
        · rintro ⟨h1 | h1, h2⟩
          · exact .inl ⟨h1, h2⟩
          · exact .inr h1
      · change (if w.kind x = .explicitDeclaration then s.added else s.added ++ [x]).Nodup ∧
          ∀ z, z ∈ (if w.kind x = .explicitDeclaration then s.added else s.added ++ [x]) ↔ _
        split
        · rename_i hk
          refine ⟨ha1, fun z => ?_⟩
          rw [ha2 z]
          simp only [List.mem_append, List.mem_singleton]
          refine ⟨fun ⟨h1, h2⟩ => ⟨.inl h1, h2⟩, ?_⟩
          rintro ⟨h1 | rfl, h2⟩
          · exact ⟨h1, h2⟩
          · simp [NotPlaced, hk] at h2
        · rename_i hk
          have hnp : NotPlaced w x := by
            rcases hinst with h | h | h
            · exact .inl h
            · exact .inr h
            · exact absurd h hk
          constructor
          · rw [List.nodup_append]
            refine ⟨ha1, by simp, ?_⟩
            rintro a ha b hb rfl
            rw [List.mem_singleton] at hb
            exact hnd ((ha2 x).1 (hb ▸ ha)).1
          · intro z
            simp only [List.mem_append, List.mem_singleton, ha2 z]
            constructor
            · rintro (⟨h1, h2⟩ | rfl)
              · exact ⟨.inl h1, h2⟩
              · exact ⟨.inr rfl, hnp⟩
            · rintro ⟨h1 | h1, h2⟩
              · exact .inl ⟨h1, h2⟩
              · exact .inr h1
      · intro n
        change n ∈ s.created ++ w.creates x ↔ ∃ z ∈ s.instantiated ++ [x], _
        rw [List.mem_append, h.created n]
        constructor
        · rintro (⟨z, hz, h⟩ | h)
          · exact ⟨z, List.mem_append_left _ hz, h⟩
          · exact ⟨x, List.mem_append_right _ (List.mem_singleton.2 rfl), h⟩
        · rintro ⟨z, hz, h⟩
          rcases List.mem_append.1 hz with hz | hz
          · exact .inl ⟨z, hz, h⟩
          · rw [List.mem_singleton] at hz
            exact .inr (hz ▸ h)
  obtain ⟨k1, k2, k3, k4, k5⟩ := key
  refine ⟨⟨?_, ?_, ?_, ?_, ?_, k5⟩, k2, _, by rw [k1], ?_⟩
  · intro z hz
    dsimp only at hz
    rw [k1, k2] at hz
    rcases hz with hz | hz
    · rcases List.mem_append.1 hz with hz | hz
      · exact h.reached z (.inl hz)
      · rw [List.mem_singleton] at hz
        exact hz ▸ hr
    · rcases List.mem_append.1 hz with hz | hz
      · exact h.reached z (.inr (by rw [hp]; exact List.mem_cons_of_mem _ hz))
      · obtain ⟨v, hv, hn, _⟩ := (mem_visitAll ..).1 hz
        exact .body hr hv hn
  · intro v hv y hn hex
    dsimp only
    rw [k1, k2]
    rcases h.roots v hv y hn hex with h1 | h1
    · exact .inl (List.mem_append_left _ h1)
    · rw [hp] at h1
      rcases List.mem_cons.1 h1 with h1 | h1
      · exact .inl (List.mem_append_right _ (by simp [h1]))
      · exact .inr (List.mem_append_left _ h1)
  · intro z hz v hv y hn hex
    dsimp only at hz ⊢
    rw [k2] at hz
    rw [k1, k2]
    rcases List.mem_append.1 hz with hz | hz
    · rcases h.bodies z hz v hv y hn hex with h1 | h1
      · exact .inl (List.mem_append_left _ h1)
      · rw [hp] at h1
        rcases List.mem_cons.1 h1 with h1 | h1
        · exact .inl (List.mem_append_right _ (by simp [h1]))
        · exact .inr (List.mem_append_left _ h1)
    · rw [List.mem_singleton] at hz
      subst hz
      by_cases hy : y ∈ s.done ++ [z]
      · exact .inl hy
      · refine .inr (List.mem_append_right _ ((mem_visitAll ..).2 ⟨v, hv, hn, ?_, hy⟩))
        intro n hn
        rcases hex n hn with h1 | ⟨h1, h2⟩
        · exact .inl h1
        · exact .inr ((k5 n).2 ⟨z, (k3.2 z).2 ⟨by simp, h1⟩, h2⟩)
  · exact ⟨k3.1, fun z => by dsimp only; rw [k2]; exact k3.2 z⟩
  · exact ⟨k4.1, fun z => by dsimp only; rw [k2]; exact k4.2 z⟩
  · intro y hy
    exact ((mem_visitAll ..).1 hy).choose_spec.2.2.2

theorem run_inv (w : TemplateWorld) (n : Nat) (s s' : TemplateState) (h : TemplateInv w s)
    (hs : runTemplates w n s = .finished s') : TemplateInv w s' ∧ s'.pending = [] := by
  induction n generalizing s with
  | zero =>
    unfold runTemplates at hs
    split at hs
    · rename_i hp
      cases hs
      exact ⟨h, hp⟩
    · cases hs
  | succ n ih =>
    unfold runTemplates at hs
    split at hs
    · rename_i hp
      cases hs
      exact ⟨h, hp⟩
    · rename_i x rest hp
      dsimp only at hs
      split at hs
      · cases hs
      · rename_i t ht
        exact ih t (process_inv w s t x rest hp h ht).1 hs

/-- The number of elements that are not done. -/
def undone (u done : List Nat) : Nat := (u.filter fun x => !done.contains x).length

/-- The number of elements in the queue that are done. -/
def repeated (s : TemplateState) : Nat := (s.pending.filter fun x => s.done.contains x).length

theorem length_filter_le' {α : Type _} (l : List α) (p q : α → Bool) (h : ∀ x ∈ l, p x = true → q x = true) :
    (l.filter p).length ≤ (l.filter q).length := by
  induction l with
  | nil => exact Nat.le_refl _
  | cons a l ih =>
    have := ih fun x hx => h x (List.mem_cons_of_mem _ hx)
    have ha := h a (List.mem_cons_self ..)
    rw [List.filter_cons, List.filter_cons]
    by_cases hp : p a = true
    · rw [if_pos hp, if_pos (ha hp)]
      simpa using this
    · rw [if_neg hp]
      split
      · simp only [List.length_cons]
        omega
      · exact this

theorem length_filter_lt' {α : Type _} (l : List α) (p q : α → Bool) (h : ∀ x ∈ l, p x = true → q x = true)
    (a : α) (ha : a ∈ l) (hp : p a = false) (hq : q a = true) :
    (l.filter p).length < (l.filter q).length := by
  induction l with
  | nil => cases ha
  | cons b l ih =>
    have hle := length_filter_le' l p q fun x hx => h x (List.mem_cons_of_mem _ hx)
    have hb := h b (List.mem_cons_self ..)
    rw [List.filter_cons, List.filter_cons]
    rcases List.mem_cons.1 ha with rfl | ha
    · rw [if_neg (by simp [hp]), if_pos hq]
      simp only [List.length_cons]
      omega
    · have := ih (fun x hx => h x (List.mem_cons_of_mem _ hx)) ha
      by_cases hpb : p b = true
      · rw [if_pos hpb, if_pos (hb hpb)]
        simpa using this
      · rw [if_neg hpb]
        split
        · simp only [List.length_cons]
          omega
        · exact this

/-- If only finitely many specializations are reached, the loop ends. -/
theorem run_terminates (w : TemplateWorld) (u : List Nat) (hu : ∀ x, Reached w x → x ∈ u)
    (a b : Nat) (s : TemplateState) (h : TemplateInv w s) (ha : undone u s.done = a)
    (hb : repeated s = b) :
    ∃ n, ∀ t, runTemplates w n s ≠ .running t := by
  induction a using Nat.strongRecOn generalizing b s with
  | ind a iha =>
    induction b using Nat.strongRecOn generalizing s with
    | ind b ihb =>
      cases hp : s.pending with
      | nil =>
        refine ⟨0, fun t => ?_⟩
        unfold runTemplates
        rw [hp]
        simp
      | cons x rest =>
        cases ht : processSpecialization w { s with pending := rest } x with
        | none =>
          refine ⟨1, fun t => ?_⟩
          unfold runTemplates
          rw [hp]
          dsimp only
          rw [ht]
          simp
        | some s' =>
          obtain ⟨hi, hd, new, hn1, hn2⟩ := process_inv w s s' x rest hp h ht
          suffices ∃ n, ∀ t, runTemplates w n s' ≠ .running t by
            obtain ⟨n, hn⟩ := this
            refine ⟨n + 1, fun t => ?_⟩
            unfold runTemplates
            rw [hp]
            dsimp only
            rw [ht]
            exact hn t
          by_cases hx : x ∈ s.done
          · -- nothing new is done, and one element less is repeated
            have hsame : ∀ z, s'.done.contains z = s.done.contains z := by
              intro z
              rw [Bool.eq_iff_iff, hd]
              simp only [List.contains_iff_mem, List.mem_append, List.mem_singleton]
              exact ⟨fun h => h.elim id fun h => h ▸ hx, .inl⟩
            have hun : undone u s'.done = a := by
              rw [← ha]
              unfold undone
              congr 1
              refine List.filter_congr fun z _ => ?_
              rw [hsame]
            refine ihb (repeated s') ?_ s' hi hun rfl
            rw [← hb]
            unfold repeated
            rw [hn1, hp, List.filter_append, List.filter_cons]
            have hnew : new.filter (fun z => s'.done.contains z) = [] := by
              rw [List.filter_eq_nil_iff]
              intro z hz
              simpa using hn2 z hz
            rw [hnew, if_pos (by simpa using hx), List.append_nil]
            simp only [List.length_cons]
            refine Nat.lt_succ_of_le (length_filter_le' _ _ _ fun z _ hz => ?_)
            rw [← hsame]
            exact hz
          · refine iha (undone u s'.done) ?_ (repeated s') s' hi rfl rfl
            rw [← ha]
            unfold undone
            refine length_filter_lt' _ _ _ ?_ x
              (hu x (h.reached x (.inr (by rw [hp]; exact List.mem_cons_self ..)))) ?_ ?_
            · intro z _ hz
              rw [hd] at hz
              simp at hz ⊢
              exact hz.1
            · rw [hd]
              simp
            · simpa using hx

end Verif
