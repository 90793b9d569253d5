import Verif.Lemmas.Discriminate
/-!
# C07, C08, C09: identifiers
-/
namespace Verif
open Spec

/-! ### C07 -/

/-- C07: the conversion never faults and computes the specified identifier. -/
theorem C07_makeValidIdentifier_spec (text r : Str) :
    makeValidIdentifier text = some r ↔ Sanitized text r := by
  rw [makeValidIdentifier_eq]
  constructor
  · intro h; cases h; exact startF_spec text
  · intro h; rw [sanitized_unique h]

/-- C07: every non-empty text becomes a valid identifier, which is not longer
than the text; the empty text stays empty. -/
theorem C07_valid (text : Str) :
    ∃ r, makeValidIdentifier text = some r ∧ r.length ≤ text.length ∧
      (text ≠ [] → ValidIdent r) ∧ (text = [] → r = []) := by
  refine ⟨_, makeValidIdentifier_eq text, ?_, ?_, ?_⟩
  · have h := startF_spec text
    generalize startF isIdentifierStart text = r at h
    cases h with
    | good c s r _ h => exact h.length_le
    | bad pre s r hne _ _ h =>
      have := h.length_le
      have := List.length_pos_iff.mpr hne
      simp; omega
    | nil => simp
  · have h := startF_spec text
    generalize startF isIdentifierStart text = r at h
    intro hne
    cases h with
    | good c s r hc h =>
      have e := collapsed_unique h
      rw [collapseF, if_pos ((isIdCont_iff c).2 (.inl hc))] at e
      exact ⟨c, _, e, hc, (collapseF_spec s).all_cont⟩
    | bad pre s r _ _ _ h => exact ⟨'_', r, rfl, underscore_idStart, h.all_cont⟩
    | nil => exact absurd rfl hne
  · rintro rfl; rfl

/-- C07: valid identifiers are unchanged, hence the conversion is idempotent. -/
theorem C07_idempotent (text : Str) :
    (ValidIdent text → makeValidIdentifier text = some text) ∧
    (∀ r, makeValidIdentifier text = some r → makeValidIdentifier r = some r) := by
  have key : ∀ text, ValidIdent text → makeValidIdentifier text = some text := by
    rintro _ ⟨c, cs, rfl, hc, hcs⟩
    rw [C07_makeValidIdentifier_spec]
    refine .good _ _ _ hc (collapsed_self ?_)
    intro x hx
    simp at hx
    rcases hx with rfl | hx
    · exact .inl hc
    · exact hcs x hx
  refine ⟨key text, ?_⟩
  intro r hr
  obtain ⟨r', h1, -, h3, h4⟩ := C07_valid text
  rw [hr] at h1
  cases h1
  by_cases he : text = []
  · rw [h4 he, makeValidIdentifier_eq, startF]
  · exact key r (h3 he)

example : makeValidIdentifier t%"9 lives::of(cat)" = some t%"_lives_of_cat_" := by
  decide +kernel

/-! ### C08 -/

/-- States the loop passes through on a text. -/
inductive MviReach (text : Str) : MviState → Prop where
  | init (s) : mviInit text = some s → MviReach text s
  | step (s s') : MviReach text s → mviStep s = .next s' → MviReach text s'

/-- C08: the initial search does not fault, no reachable state faults (every
read, write and the final erase are in bounds), the buffer keeps its length,
the write position never passes the end of the processed input nor the read
position, and everything from the processed position on is still the original,
unread text. -/
theorem C08_in_bounds (text : Str) :
    (∃ s, mviInit text = some s) ∧
    ∀ s, MviReach text s → mviStep s ≠ .fault ∧ s.buf.length = text.length ∧
      s.output ≤ s.lastValid ∧ s.lastValid ≤ s.input ∧ s.input ≤ text.length ∧
      s.buf.drop s.lastValid = text.drop s.lastValid := by
  obtain ⟨s0, h0, hinv0⟩ := mviInit_inv text
  refine ⟨⟨s0, h0⟩, ?_⟩
  have hinv : ∀ s, MviReach text s → ∃ p, MviInv text p s := by
    intro s h
    induction h with
    | init s hs => rw [h0] at hs; cases hs; exact ⟨_, hinv0⟩
    | step s s' _ hstep ih =>
      obtain ⟨p, hp⟩ := ih
      rcases mviStep_inv hp with ⟨-, h2⟩ | ⟨-, s'', h2, h3, -⟩
      · rw [h2] at hstep; cases hstep
      · rw [h2] at hstep; cases hstep; exact ⟨_, h3⟩
  intro s hs
  obtain ⟨p, hp⟩ := hinv s hs
  refine ⟨?_, hp.len, hp.out_le, ?_, hp.input_le, hp.unread⟩
  · rcases mviStep_inv hp with ⟨-, h2⟩ | ⟨-, s'', h2, -, -⟩ <;> rw [h2] <;> simp
  · rw [hp.input_eq]; omega

/-- C08: whenever the loop finishes, its result is the specified identifier:
sharing the buffer between input and output makes no difference. -/
theorem C08_result (text : Str) (s : MviState) (r : Str) (hs : MviReach text s)
    (hr : mviStep s = .done r) : Sanitized text r := by
  obtain ⟨s0, h0, hinv0⟩ := mviInit_inv text
  have hinv : ∀ s, MviReach text s → ∃ p, MviInv text p s := by
    intro s h
    induction h with
    | init s hs => rw [h0] at hs; cases hs; exact ⟨_, hinv0⟩
    | step s s' _ hstep ih =>
      obtain ⟨p, hp⟩ := ih
      rcases mviStep_inv hp with ⟨-, h2⟩ | ⟨-, s'', h2, h3, -⟩
      · rw [h2] at hstep; cases hstep
      · rw [h2] at hstep; cases hstep; exact ⟨_, h3⟩
  obtain ⟨p, hp⟩ := hinv s hs
  rcases mviStep_inv hp with ⟨-, h2⟩ | ⟨-, s'', h2, -, -⟩
  · rw [h2] at hr; cases hr; exact startF_spec text
  · rw [h2] at hr; cases hr

/-- A reachable intermediate state in which something was already overwritten. -/
example : ∃ s, MviReach t%"a--b" s ∧ s.output < s.lastValid ∨ s.output = 1 ∧
    MviReach t%"a--b" s :=
  ⟨⟨t%"a--b", 1, 1, 3⟩, .inr ⟨rfl, .step ⟨t%"a--b", 0, 0, 0⟩ _ (.init _ (by decide +kernel))
    (by decide +kernel)⟩⟩

/-! ### C09 -/

/-- C09 as stated is false: three contexts `a::b`, `a_b` and `a_b_2` (in this
order) get the names `context_a_b`, `context_a_b_2`, `context_a_b_2`. -/
theorem C09_names_can_collide :
    ∃ labels : List ContextLabel, labels.Nodup ∧ ∃ names, labels.mapM ContextLabel.baseName = some names ∧
      ¬ (discriminateAll (fun _ => 0) names).Nodup :=
  ⟨[.type t%"::a::b", .type t%"::a_b", .type t%"::a_b_2"], by decide +kernel,
    [t%"context_a_b", t%"context_a_b", t%"context_a_b_2"], by decide +kernel, by decide +kernel⟩

/-- C09, what holds: the generated names are pairwise distinct exactly if no
requested name equals the numbered form of another requested name that is
requested often enough to get this number. -/
theorem C09_distinct_iff_partial (names : List Str) :
    (discriminateAll (fun _ => 0) names).Nodup ↔
      ∀ n ∈ names, ∀ k, 2 ≤ k → k ≤ names.count n → n ++ '_' :: printNat k ∉ names := by
  rw [discriminateAll_eq]
  constructor
  · intro h n hn k hk2 hk hmem
    have h1 : (n, k) ∈ requestNumbers (fun _ => 0) names := by
      rw [mem_requestNumbers]; omega
    have h2 : (n ++ '_' :: printNat k, 1) ∈ requestNumbers (fun _ => 0) names := by
      rw [mem_requestNumbers]
      have := List.count_pos_iff.mpr hmem
      omega
    have := injOn_of_nodup_map h _ h1 _ h2 (by simp [numbered]; intro h; omega)
    simp at this
  · intro h
    apply nodup_map_of_injOn (requestNumbers_nodup _ _)
    rintro ⟨a, j⟩ ha ⟨b, k⟩ hb e
    rw [mem_requestNumbers] at ha hb
    have ca : a ∈ names := List.count_pos_iff.mp (by omega)
    have cb : b ∈ names := List.count_pos_iff.mp (by omega)
    rcases numbered_inj e with ⟨rfl, rfl⟩ | ⟨h1, h2, h3⟩ | ⟨h1, h2, h3⟩
    · rfl
    · exfalso
      simp only [numbered, h1, ↓reduceIte] at h2
      exact h a ca j (by omega) (by omega) (h2 ▸ cb)
    · exfalso
      simp only [numbered, h1, ↓reduceIte] at h2
      exact h b cb k (by omega) (by omega) (h2 ▸ ca)

/-- Repeating a name any number of times gives distinct names. -/
example (n : Str) (k : Nat) : (discriminateAll (fun _ => 0) (List.replicate k n)).Nodup := by
  rw [C09_distinct_iff_partial]
  intro m hm j _ _ hmem
  have h1 := List.eq_of_mem_replicate hm
  have h2 := List.eq_of_mem_replicate hmem
  have := congrArg List.length (h2.trans h1.symm)
  simp at this

/-- C09: no generated name is `root`, the name of the module variable. -/
theorem C09_never_root (labels : List ContextLabel) (names : List Str)
    (h : labels.mapM ContextLabel.baseName = some names) :
    t%"root" ∉ discriminateAll (fun _ => 0) names := by
  have pre : ∀ q : Str, ∃ r, makeValidIdentifier (t%"context" ++ q) = some (t%"context" ++ r) := by
    intro q
    rw [makeValidIdentifier_eq]
    have : t%"context" ++ q = 'c' :: (t%"ontext" ++ q) := rfl
    rw [this, startF, if_pos (by decide)]
    refine ⟨collapseF q, ?_⟩
    simp only [List.cons_append, List.nil_append]
    iterate 7 rw [collapseF, if_pos (by decide)]
  have hbase : ∀ l : ContextLabel, ∀ n, l.baseName = some n → ∃ r, n = t%"context" ++ r := by
    intro l n hn
    cases l with
    | type q => obtain ⟨r, hr⟩ := pre q; rw [ContextLabel.baseName, hr] at hn; cases hn; exact ⟨r, rfl⟩
    | named q =>
      obtain ⟨r, hr⟩ := pre ('_' :: q)
      rw [ContextLabel.baseName, hr] at hn; cases hn; exact ⟨r, rfl⟩
    | translationUnit =>
      obtain ⟨r, hr⟩ := pre []
      rw [List.append_nil] at hr
      rw [ContextLabel.baseName, hr] at hn; cases hn; exact ⟨r, rfl⟩
  have hall : ∀ n ∈ names, ∃ r, n = t%"context" ++ r := by
    clear pre
    induction labels generalizing names with
    | nil => simp at h; subst h; simp
    | cons l ls ih =>
      simp only [List.mapM_cons, Option.bind_eq_bind, Option.pure_def,
        Option.bind_eq_some_iff, Option.some.injEq] at h
      obtain ⟨n, h1, ns, h2, rfl⟩ := h
      intro m hm
      simp at hm
      rcases hm with rfl | hm
      · exact hbase l _ h1
      · exact ih ns h2 m hm
  rw [discriminateAll_eq]
  intro hmem
  simp only [List.mem_map, Prod.exists] at hmem
  obtain ⟨n, k, hnk, e⟩ := hmem
  rw [mem_requestNumbers] at hnk
  obtain ⟨r, hr⟩ := hall n (List.count_pos_iff.mp (by omega))
  subst hr
  unfold numbered at e
  split at e <;> simp at e

end Verif
