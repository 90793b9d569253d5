import Verif.Spec.Defaults
/-!
# C76: default arguments are instantiated before they are read
-/
namespace Verif
open Spec

/-- Steps only add. -/
theorem stepParm_grows (w : DefaultsWorld) (s : DefaultsState) (p : Nat) :
    (∀ x ∈ s.created, x ∈ (stepParm w s p).created) ∧
    (∀ x ∈ s.instantiated, x ∈ (stepParm w s p).instantiated) ∧
    (∀ x ∈ s.errors, x ∈ (stepParm w s p).errors) := by
  unfold stepParm
  split
  · unfold visitParmVarDecl
    split
    · exact ⟨fun _ h => h, fun _ h => h, fun _ h => h⟩
    · split
      · exact ⟨fun _ h => h, fun _ h => h, fun _ h => h⟩
      · split
        · exact ⟨fun _ h => h, fun _ h => h, fun _ h => h⟩
        · split
          · exact ⟨fun _ h => h, fun _ h => h, fun _ h => h⟩
          · split <;> simp +contextual
  · exact ⟨fun _ h => h, fun _ h => h, fun _ h => h⟩

theorem fold_grows (w : DefaultsWorld) (l : List Nat) : ∀ s : DefaultsState,
    (∀ x ∈ s.created, x ∈ (l.foldl (stepParm w) s).created) ∧
    (∀ x ∈ s.instantiated, x ∈ (l.foldl (stepParm w) s).instantiated) ∧
    (∀ x ∈ s.errors, x ∈ (l.foldl (stepParm w) s).errors) := by
  induction l with
  | nil => exact fun s => ⟨fun _ h => h, fun _ h => h, fun _ h => h⟩
  | cons p l ih =>
    intro s
    obtain ⟨a, b, c⟩ := stepParm_grows w s p
    obtain ⟨a', b', c'⟩ := ih (stepParm w s p)
    exact ⟨fun x h => a' x (a x h), fun x h => b' x (b x h), fun x h => c' x (c x h)⟩

/-- What has been instantiated includes what was created for it. -/
def Accounted (w : DefaultsWorld) (s : DefaultsState) : Prop :=
  ∀ p ∈ s.instantiated, ∀ n ∈ (w.parm p).creates, n ∈ s.created

theorem stepParm_accounted (w : DefaultsWorld) (ok : DefaultsOK w) (s : DefaultsState) (p : Nat)
    (h : Accounted w s) : Accounted w (stepParm w s p) := by
  unfold stepParm
  split
  · unfold visitParmVarDecl
    split
    · exact h
    · split
      · exact h
      · split
        · exact h
        · split
          · exact h
          · split
            · intro q hq n hn
              simp only [List.mem_append, List.mem_cons] at hq ⊢
              rcases hq with hq | rfl | hq
              · exact .inl (h q hq n hn)
              · exact .inr hn
              · exact .inr (ok.uses p q hq n hn)
            · exact h
  · exact h

/-- A wanted default argument whose surroundings exist is instantiated by its visit, or an error is
reported. -/
theorem stepParm_wanted (w : DefaultsWorld) (s : DefaultsState) (p : Nat) (hw : Wanted w p)
    (hn : ∀ n ∈ (w.parm p).needs, w.existing n = true ∨ n ∈ s.created) :
    p ∈ (stepParm w s p).instantiated ∨
      (w.parm p).instantiable = false ∧ p ∈ (stepParm w s p).errors := by
  obtain ⟨ha, f, hf, hi, hu⟩ := hw
  have hall : (w.parm p).needs.all (fun n => w.existing n || s.created.contains n) = true := by
    rw [List.all_eq_true]
    intro n h
    simpa using hn n h
  unfold stepParm
  rw [if_pos hall]
  unfold visitParmVarDecl
  by_cases hp : p ∈ s.instantiated
  · have : argNow w s p = .present := by simp [argNow, hp]
    rw [this]
    exact .inl hp
  · have : argNow w s p = .uninstantiated := by simp [argNow, hp, ha]
    rw [this, hf]
    simp only [hi, hu]
    cases hin : (w.parm p).instantiable <;> simp

/-- The state when position `k` is reached. -/
def atPosition (w : DefaultsWorld) (k : Nat) : DefaultsState := (w.order.take k).foldl (stepParm w) {}

theorem atPosition_succ (w : DefaultsWorld) (k p : Nat) (h : w.order[k]? = some p) :
    atPosition w (k + 1) = stepParm w (atPosition w k) p := by
  unfold atPosition
  rw [List.take_add_one, h, List.foldl_append]
  rfl

theorem atPosition_grows (w : DefaultsWorld) (j k : Nat) (h : j ≤ k) :
    (∀ x ∈ (atPosition w j).created, x ∈ (atPosition w k).created) := by
  have : w.order.take k = w.order.take j ++ (w.order.take k).drop j := by
    conv => lhs; rw [← List.take_append_drop j (w.order.take k)]
    rw [List.take_take, Nat.min_eq_left h]
  unfold atPosition
  rw [this, List.foldl_append]
  exact (fold_grows w _ _).1

theorem final_grows (w : DefaultsWorld) (k : Nat) :
    (∀ x ∈ (atPosition w k).instantiated, x ∈ (instantiateDefaults w).instantiated) ∧
    (∀ x ∈ (atPosition w k).errors, x ∈ (instantiateDefaults w).errors) := by
  have : instantiateDefaults w = (w.order.drop k).foldl (stepParm w) (atPosition w k) := by
    unfold instantiateDefaults atPosition
    rw [← List.foldl_append, List.take_append_drop]
  rw [this]
  exact (fold_grows w _ _).2

theorem fold_accounted (w : DefaultsWorld) (ok : DefaultsOK w) (l : List Nat) :
    ∀ s, Accounted w s → Accounted w (l.foldl (stepParm w) s) := by
  induction l with
  | nil => exact fun s h => h
  | cons p l ih => exact fun s h => ih _ (stepParm_accounted w ok s p h)

theorem available_exists (w : DefaultsWorld) (ok : DefaultsOK w) (n k : Nat) (h : Available w n k) :
    w.existing n = true ∨ n ∈ (atPosition w k).created := by
  induction h with
  | start h => exact .inl h
  | @created n j k q hq hj _ hw hi hn ih =>
    right
    refine atPosition_grows w (j + 1) k hj _ ?_
    have hacc : Accounted w (atPosition w (j + 1)) :=
      fold_accounted w ok _ _ fun p hp => by cases hp
    refine hacc q ?_ n hn
    rw [atPosition_succ w j q hq]
    rcases stepParm_wanted w (atPosition w j) q hw ih with h | ⟨h, _⟩
    · exact h
    · rw [hi] at h; cases h

/-- C76 (partial: for parameters that exist when their template is visited, see `C76_missed`): an
error has been reported, or the default argument of every valid function is one that can be read
when the function is exposed. -/
theorem C76_ready_partial (w : DefaultsWorld) (ok : DefaultsOK w) (p k : Nat) (hp : w.order[k]? = some p)
    (ha : ∀ n ∈ (w.parm p).needs, Available w n k) (hw : Wanted w p) :
    getDefaultArg (argNow w (instantiateDefaults w) p) = some true ∨
      (w.parm p).instantiable = false ∧ p ∈ (instantiateDefaults w).errors := by
  have h := stepParm_wanted w (atPosition w k) p hw fun n hn => available_exists w ok n k (ha n hn)
  rw [← atPosition_succ w k p hp] at h
  obtain ⟨g1, g2⟩ := final_grows w (k + 1)
  rcases h with h | ⟨h, h'⟩
  · left
    have := g1 p h
    simp [argNow, this, getDefaultArg]
  · exact .inr ⟨h, g2 p h'⟩

/-- What the loop only does. -/
structure DefaultsInv (w : DefaultsWorld) (l : List Nat) (s : DefaultsState) : Prop where
  calls : ∀ p ∈ s.calls, p ∈ l ∧ Wanted w p
  nodup : l.Nodup → s.calls.Nodup
  instantiated : ∀ p ∈ s.instantiated, p ∈ s.calls ∨ ∃ q ∈ s.calls, p ∈ (w.parm q).uses
  errors : ∀ p ∈ s.errors, p ∈ s.calls ∧ (w.parm p).instantiable = false

theorem DefaultsInv.mono {w : DefaultsWorld} {l : List Nat} {s : DefaultsState} (h : DefaultsInv w l s)
    (p : Nat) : DefaultsInv w (l ++ [p]) s where
  calls := fun x hx => ⟨by simp [(h.calls x hx).1], (h.calls x hx).2⟩
  nodup := fun hn => h.nodup (List.nodup_append.1 hn).1
  instantiated := h.instantiated
  errors := h.errors

theorem defaults_inv (w : DefaultsWorld) (k : Nat) :
    DefaultsInv w (w.order.take k) (atPosition w k) := by
  induction k with
  | zero => exact ⟨fun _ h => (by cases h), fun _ => .nil, fun _ h => (by cases h), fun _ h => (by cases h)⟩
  | succ k ih =>
    cases hk : w.order[k]? with
    | none =>
      have : w.order.take (k + 1) = w.order.take k := by rw [List.take_add_one, hk]; simp
      unfold atPosition
      rw [this]
      exact ih
    | some p =>
      rw [atPosition_succ w k p hk, List.take_add_one, hk]
      generalize atPosition w k = s at ih
      simp only [Option.toList]
      have hm := ih.mono p
      unfold stepParm
      split
      · unfold visitParmVarDecl
        split
        · exact hm
        · rename_i hna
          split
          · exact hm
          · rename_i f hf
            split
            · exact hm
            · rename_i hi
              split
              · exact hm
              · rename_i hu
                have hu' : argNow w s p = .uninstantiated := by
                  simp only [Bool.or_eq_true, Bool.not_eq_true', decide_eq_true_eq,
                    decide_eq_false_iff_not, not_or, Classical.not_not] at hna
                  exact hna.2
                have harg : (w.parm p).arg = .uninstantiated := by
                  unfold argNow at hu'
                  split at hu'
                  · cases hu'
                  · exact hu'
                have hw : Wanted w p := ⟨harg, f, hf, by simpa using hi, by simpa using hu⟩
                have hcalls : ∀ x ∈ s.calls ++ [p], x ∈ w.order.take k ++ [p] ∧ Wanted w x := by
                  intro x hx
                  rcases List.mem_append.1 hx with hx | hx
                  · exact hm.calls x hx
                  · cases List.mem_singleton.1 hx
                    exact ⟨by simp, hw⟩
                have hnod : (w.order.take k ++ [p]).Nodup → (s.calls ++ [p]).Nodup := by
                  intro hn
                  obtain ⟨h1, _, h3⟩ := List.nodup_append.1 hn
                  refine List.nodup_append.2 ⟨ih.nodup h1, by simp, fun a ha b hb => ?_⟩
                  exact h3 a (ih.calls a ha).1 b hb
                split
                · refine ⟨hcalls, hnod, fun x hx => ?_, fun x hx => ?_⟩
                  · simp only [List.mem_append, List.mem_cons] at hx
                    rcases hx with hx | rfl | hx
                    · rcases ih.instantiated x hx with h | ⟨q, hq, h⟩
                      · exact .inl (by simp [h])
                      · exact .inr ⟨q, by simp [hq], h⟩
                    · exact .inl (by simp)
                    · exact .inr ⟨p, by simp, hx⟩
                  · exact ⟨by simp [(ih.errors x hx).1], (ih.errors x hx).2⟩
                · rename_i hin
                  refine ⟨hcalls, hnod, fun x hx => ?_, fun x hx => ?_⟩
                  · rcases ih.instantiated x hx with h | ⟨q, hq, h⟩
                    · exact .inl (by simp [h])
                    · exact .inr ⟨q, by simp [hq], h⟩
                  · rcases List.mem_append.1 hx with hx | hx
                    · exact ⟨by simp [(ih.errors x hx).1], (ih.errors x hx).2⟩
                    · cases List.mem_singleton.1 hx
                      exact ⟨by simp, by simpa using hin⟩
      · exact hm

/-- C76: nothing else is instantiated, nothing twice, and errors are only caused by default
arguments that cannot be instantiated. -/
theorem C76_nothing_else (w : DefaultsWorld) (ok : DefaultsOK w) :
    let s := instantiateDefaults w
    (∀ p ∈ s.calls, p ∈ w.order ∧ Wanted w p) ∧ s.calls.Nodup ∧
    (∀ p, argNow w s p ≠ (w.parm p).arg → p ∈ s.calls ∨ ∃ q ∈ s.calls, p ∈ (w.parm q).uses) ∧
    (∀ p ∈ s.errors, Wanted w p ∧ (w.parm p).instantiable = false) := by
  intro s
  have h := defaults_inv w w.order.length
  have e : atPosition w w.order.length = s := by
    unfold atPosition
    rw [List.take_length]
    rfl
  rw [e, List.take_length] at h
  refine ⟨h.calls, h.nodup ok.once, fun p hp => h.instantiated p ?_, fun p hp => ?_⟩
  · unfold argNow at hp
    split at hp
    · rename_i hc
      simpa using hc
    · exact absurd rfl hp
  · exact ⟨(h.calls p (h.errors p hp).1).2, (h.errors p hp).2⟩

/-- C76: without new specializations there is no exception: every default argument that has been
parsed can be read, unless an error has been reported or the function is not valid. -/
theorem C76_ready (w : DefaultsWorld) (ok : DefaultsOK w)
    (hn : ∀ p ∈ w.order, ∀ n ∈ (w.parm p).needs, w.existing n = true)
    (he : (instantiateDefaults w).errors = []) (p : Nat) (hp : p ∈ w.order)
    (hu : (w.parm p).arg ≠ .unparsed)
    (hf : ∃ f, (w.parm p).function = some f ∧ f.invalid = false ∧ f.undeclared = false) :
    Readable w (instantiateDefaults w) p := by
  unfold Readable
  cases ha : (w.parm p).arg with
  | unparsed => exact absurd ha hu
  | none =>
    unfold argNow
    rw [ha]
    split
    · exact ⟨true, rfl⟩
    · exact ⟨false, rfl⟩
  | present =>
    unfold argNow
    rw [ha]
    split <;> exact ⟨true, rfl⟩
  | uninstantiated =>
    obtain ⟨k, hk⟩ := List.getElem?_of_mem hp
    rcases C76_ready_partial w ok p k hk (fun n h => .start (hn p hp n h)) ⟨ha, hf⟩ with h | ⟨_, h⟩
    · exact ⟨true, h⟩
    · rw [he] at h; cases h

/-! ### What does not hold -/

/-- `template <class T> GENPYBIND(visible) T make(T x, T y = T{});`
`template <class T> struct S { void f(T x = make<T>(1, 2)); };`
`using SI GENPYBIND(expose_here) = S<int>;`: parameter 0 is `y` of the specialization 10 of `make`,
parameter 1 is `x` of `S<int>::f`. -/
def lateDefaults : DefaultsWorld where
  order := [0, 1]
  parm := fun
    | 0 => { needs := [10], arg := .uninstantiated }
    | _ => { needs := [11], arg := .uninstantiated, creates := [10] }
  existing := fun n => n = 11

theorem lateDefaults_ok : DefaultsOK lateDefaults where
  once := by decide
  uses := by
    intro p q hq
    simp only [lateDefaults] at hq
    split at hq <;> cases hq

/-- The specialization `make<int>` is instantiated for a default argument, after its template has
been visited.  It will be exposed, as the template is visible, but its own default argument cannot
be read. -/
theorem C76_missed : DefaultsOK lateDefaults ∧ (instantiateDefaults lateDefaults).errors = [] ∧
    10 ∈ (instantiateDefaults lateDefaults).created ∧ Wanted lateDefaults 0 ∧
    getDefaultArg (argNow lateDefaults (instantiateDefaults lateDefaults) 0) = none :=
  ⟨lateDefaults_ok, by decide, by decide, ⟨rfl, {}, rfl, rfl, rfl⟩, by decide⟩

/-- The same, where `make` is declared behind `S`. -/
example : DefaultsOK { lateDefaults with order := [1, 0] } ∧
    Available { lateDefaults with order := [1, 0] } 10 1 ∧
    Wanted { lateDefaults with order := [1, 0] } 0 ∧
    getDefaultArg (argNow lateDefaults (instantiateDefaults { lateDefaults with order := [1, 0] }) 0) =
      some true :=
  ⟨⟨by decide, lateDefaults_ok.uses⟩,
    .created (j := 0) (q := 1) rfl (by decide) (fun m hm => .start (by simpa [lateDefaults] using hm))
      ⟨rfl, {}, rfl, rfl, rfl⟩ rfl (by simp [lateDefaults]), ⟨rfl, {}, rfl, rfl, rfl⟩, by decide⟩

/-- Parameters without default argument, with one, with one to be instantiated that uses another one,
of a lambda's call operator or the like, of an invalid function, and with one that is ill-formed. -/
def someDefaults : DefaultsWorld where
  order := [0, 1, 2, 3, 4, 5, 6]
  parm := fun
    | 0 => { arg := .none }
    | 1 => { arg := .present }
    | 2 => { arg := .uninstantiated, uses := [3] }
    | 3 => { arg := .uninstantiated }
    | 4 => { arg := .uninstantiated, function := none }
    | 5 => { arg := .uninstantiated, function := some { invalid := true } }
    | _ => { arg := .uninstantiated, instantiable := false }
  existing := fun _ => true

example : DefaultsOK someDefaults ∧ (instantiateDefaults someDefaults).calls = [2, 6] ∧
    (instantiateDefaults someDefaults).errors = [6] ∧
    (List.range 7).map (fun p => getDefaultArg (argNow someDefaults (instantiateDefaults someDefaults) p)) =
      [some false, some true, some true, some true, none, none, none] := by
  refine ⟨⟨by decide, fun p q _ n hn => ?_⟩, by decide, by decide, by decide⟩
  simp only [someDefaults] at hn
  split at hn <;> cases hn

/-- The hypotheses of `C76_ready`. -/
example : (∀ p ∈ ({ someDefaults with order := [0, 1, 2, 3] } : DefaultsWorld).order,
      ∀ n ∈ (someDefaults.parm p).needs, someDefaults.existing n = true) ∧
    (instantiateDefaults { someDefaults with order := [0, 1, 2, 3] }).errors = [] := by
  exact ⟨fun _ _ _ _ => rfl, by decide⟩

end Verif
