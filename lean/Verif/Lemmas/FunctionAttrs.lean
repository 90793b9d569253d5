import Verif.Lemmas.AnnotationSeq
import Verif.Model.Params
import Verif.Spec.Functions
/-!
# Lemmas: attributes of functions after a sequence of annotations
-/
set_option linter.unusedSimpArgs false
namespace Verif
open Spec

/-- Annotations not about functions leave the function attributes alone. -/
theorem effect_frame_function (env : DeclEnv) (d : DeclInfo) (a : Annotation) (x y : DeclAttrs)
    (h : Effect env d a x y) (hr : responsible a.kind 10 = false) : y.function = x.function := by
  obtain ⟨k, args⟩ := a
  cases k
  case keepAlive => simp [responsible] at hr
  case exposeAs =>
    rcases args with _ | ⟨v, _ | ⟨w, r⟩⟩
    · simp only [Effect] at h; rw [h]
    · cases v <;> simp only [Effect] at h
      case string =>
        rename_i s
        by_cases hv : ValidIdent s
        · rw [h.1 hv]
        · rw [h.2 hv]
      all_goals rw [h]
    · simp only [Effect] at h; rw [h]
  case module =>
    rcases args with _ | ⟨v, _ | ⟨w, r⟩⟩
    · simp only [Effect] at h; rw [h]
    · cases v <;> simp only [Effect] at h
      case string =>
        rename_i s
        by_cases hv : ValidIdent s
        · rw [h.1 hv]
        · rw [h.2 hv]
      all_goals rw [h]
    · simp only [Effect] at h; rw [h]
  all_goals first
    | (simp [responsible] at hr; done)
    | skip
  all_goals
    unfold Effect at h; simp only at h
    try split at h
    all_goals first
      | contradiction
      | (subst h; simp)
      | (obtain ⟨_, _, rfl⟩ := h; simp)
      | (obtain ⟨_, _, _, rfl, _⟩ := h; simp)

/-- `f'` is `f` with the function annotations of `as` applied. -/
structure FunctionStep (d : DeclInfo) (as : List Annotation) (f f' : FunctionDeclAttrs) : Prop where
  keepAlive : ∀ i j, (i, j) ∈ f'.keepAlive ↔ (i, j) ∈ f.keepAlive ∨
    ∃ s t, ⟨.keepAlive, [.string s, .string t]⟩ ∈ as ∧
      FirstAt (keepAliveNames d) s i ∧ FirstAt (keepAliveNames d) t j
  noconvert : ∀ i, i ∈ f'.noconvert ↔ i ∈ f.noconvert ∨
    ∃ args s, ⟨.noconvert, args⟩ ∈ as ∧ Documented d ⟨.noconvert, args⟩ ∧ .string s ∈ args ∧
      FirstAt d.params s i
  required : ∀ i, i ∈ f'.required ↔ i ∈ f.required ∨
    ∃ args s, ⟨.required, args⟩ ∈ as ∧ Documented d ⟨.required, args⟩ ∧ .string s ∈ args ∧
      FirstAt d.params s i

theorem functionStep_same {d : DeclInfo} {a : Annotation} {f : FunctionDeclAttrs}
    (h1 : a.kind ≠ .keepAlive) (h2 : a.kind ≠ .noconvert) (h3 : a.kind ≠ .required) :
    FunctionStep d [a] f f := by
  constructor
  · intro i j
    constructor
    · exact .inl
    · rintro (h | ⟨s, t, hm, -⟩)
      · exact h
      · simp at hm; subst hm; exact absurd rfl h1
  · intro i
    constructor
    · exact .inl
    · rintro (h | ⟨s, t, hm, -⟩)
      · exact h
      · simp at hm; subst hm; exact absurd rfl h2
  · intro i
    constructor
    · exact .inl
    · rintro (h | ⟨s, t, hm, -⟩)
      · exact h
      · simp at hm; subst hm; exact absurd rfl h3

theorem functionStep_undocumented {d : DeclInfo} {a : Annotation} {f : FunctionDeclAttrs}
    (hf : Applies .keepAlive d) (hd : ¬ Documented d a) : FunctionStep d [a] f f := by
  constructor
  · intro i j
    constructor
    · exact .inl
    · rintro (h | ⟨s, t, hm, -⟩)
      · exact h
      · simp at hm; subst hm
        exact absurd ⟨hf, trivial, .two .string, by simp [forms],
          by simp [Form.Accepts, LiteralValue.kind]⟩ hd
  · intro i
    constructor
    · exact .inl
    · rintro (h | ⟨args, s, hm, hdoc, -⟩)
      · exact h
      · simp at hm; subst hm; exact absurd hdoc hd
  · intro i
    constructor
    · exact .inl
    · rintro (h | ⟨args, s, hm, hdoc, -⟩)
      · exact h
      · simp at hm; subst hm; exact absurd hdoc hd

theorem functionStep_trans {d : DeclInfo} {as bs : List Annotation} {f g h : FunctionDeclAttrs}
    (h1 : FunctionStep d as f g) (h2 : FunctionStep d bs g h) : FunctionStep d (as ++ bs) f h := by
  constructor
  · intro i j
    rw [h2.keepAlive, h1.keepAlive, or_assoc]
    refine or_congr Iff.rfl ?_
    constructor
    · rintro (⟨s, t, hm, r⟩ | ⟨s, t, hm, r⟩)
      · exact ⟨s, t, by simp [hm], r⟩
      · exact ⟨s, t, by simp [hm], r⟩
    · rintro ⟨s, t, hm, r⟩
      rcases List.mem_append.1 hm with hm | hm
      · exact .inl ⟨s, t, hm, r⟩
      · exact .inr ⟨s, t, hm, r⟩
  · intro i
    rw [h2.noconvert, h1.noconvert, or_assoc]
    refine or_congr Iff.rfl ?_
    constructor
    · rintro (⟨s, t, hm, r⟩ | ⟨s, t, hm, r⟩)
      · exact ⟨s, t, by simp [hm], r⟩
      · exact ⟨s, t, by simp [hm], r⟩
    · rintro ⟨s, t, hm, r⟩
      rcases List.mem_append.1 hm with hm | hm
      · exact .inl ⟨s, t, hm, r⟩
      · exact .inr ⟨s, t, hm, r⟩
  · intro i
    rw [h2.required, h1.required, or_assoc]
    refine or_congr Iff.rfl ?_
    constructor
    · rintro (⟨s, t, hm, r⟩ | ⟨s, t, hm, r⟩)
      · exact ⟨s, t, by simp [hm], r⟩
      · exact ⟨s, t, by simp [hm], r⟩
    · rintro ⟨s, t, hm, r⟩
      rcases List.mem_append.1 hm with hm | hm
      · exact .inl ⟨s, t, hm, r⟩
      · exact .inr ⟨s, t, hm, r⟩

theorem firstAt_unique {names : List Str} {s : Str} {i j : Nat} (h1 : FirstAt names s i)
    (h2 : FirstAt names s j) : i = j := by
  rcases Nat.lt_trichotomy i j with h | h | h
  · exact absurd h1.1 (h2.2 i h)
  · exact h
  · exact absurd h2.1 (h1.2 j h)

theorem firstAt_mem {names : List Str} {s : Str} {i : Nat} (h : FirstAt names s i) : s ∈ names :=
  List.mem_of_getElem? h.1

theorem firstAt_of_mem {names : List Str} {s : Str} (h : s ∈ names) : ∃ i, FirstAt names s i := by
  cases hi : lookupIndex names s with
  | none => exact absurd h ((lookupIndex_none _ _).1 hi)
  | some i => exact ⟨i, (lookupIndex_some _ _ _).1 hi⟩

/-- One annotation. -/
theorem apply_function (env : DeclEnv) (id : Nat) (a : Annotation) (x : DeclAttrs)
    (sh : Shape (env.info id) x) (f : FunctionDeclAttrs) (hx : x.function = some f) :
    ∃ f', (applyAnnotation env id x a).1.function = some f' ∧
      FunctionStep (env.info id) [a] f f' := by
  have hf : Applies .keepAlive (env.info id) := sh.function.1 (by simp [hx])
  by_cases hd : Documented (env.info id) a
  · obtain ⟨he, -, -⟩ := apply_documented env id a x sh hd
    generalize (applyAnnotation env id x a).1 = y at he
    cases hr : responsible a.kind 10 with
    | false =>
      refine ⟨f, ?_, ?_⟩
      · rw [effect_frame_function env _ a x y he hr, hx]
      · refine functionStep_same ?_ ?_ ?_ <;> (intro e; rw [e] at hr; simp [responsible] at hr)
    | true =>
      obtain ⟨k, args⟩ := a
      cases k <;> simp [responsible] at hr
      case keepAlive =>
        simp only [Effect] at he
        obtain ⟨s, t, rfl, h1, h2⟩ := he
        by_cases hs : s ∈ keepAliveNames (env.info id) ∧ t ∈ keepAliveNames (env.info id)
        · obtain ⟨i, hi⟩ := firstAt_of_mem hs.1
          obtain ⟨j, hj⟩ := firstAt_of_mem hs.2
          have := h1 i j hi hj
          subst this
          refine ⟨{ f with keepAlive := f.keepAlive ++ [(i, j)] }, by simp [hx], ?_⟩
          constructor
          · intro i' j'
            simp only [List.mem_append, List.mem_singleton, Prod.mk.injEq]
            refine or_congr Iff.rfl ?_
            constructor
            · rintro ⟨rfl, rfl⟩; exact ⟨s, t, rfl, hi, hj⟩
            · rintro ⟨s', t', e, hi', hj'⟩
              cases e
              exact ⟨firstAt_unique hi' hi, firstAt_unique hj' hj⟩
          · intro i'; constructor
            · exact .inl
            · rintro (h | ⟨_, _, hm, -⟩)
              · exact h
              · simp at hm
          · intro i'; constructor
            · exact .inl
            · rintro (h | ⟨_, _, hm, -⟩)
              · exact h
              · simp at hm
        · have := h2 (by
            by_cases h : s ∈ keepAliveNames (env.info id)
            · exact .inr fun ht => hs ⟨h, ht⟩
            · exact .inl h)
          subst this
          refine ⟨f, hx, ?_⟩
          constructor
          · intro i' j'; constructor
            · exact .inl
            · rintro (h | ⟨s', t', hm, hi', hj'⟩)
              · exact h
              · simp at hm
                obtain ⟨rfl, rfl⟩ := hm
                exact absurd ⟨firstAt_mem hi', firstAt_mem hj'⟩ hs
          · intro i'; constructor
            · exact .inl
            · rintro (h | ⟨_, _, hm, -⟩)
              · exact h
              · simp at hm
          · intro i'; constructor
            · exact .inl
            · rintro (h | ⟨_, _, hm, -⟩)
              · exact h
              · simp at hm
      case noconvert =>
        simp only [Effect] at he
        obtain ⟨f0, f', h0, rfl, hf', hadd⟩ := he
        rw [hx] at h0; cases h0
        refine ⟨f', rfl, ?_⟩
        constructor
        · intro i j; rw [hf']; constructor
          · exact .inl
          · rintro (h | ⟨_, _, hm, -⟩)
            · exact h
            · simp at hm
        · intro i
          rw [hadd i]
          refine or_congr Iff.rfl ?_
          constructor
          · rintro ⟨s, hs, h⟩; exact ⟨args, s, by simp, hd, hs, h⟩
          · rintro ⟨args', s, hm, -, hs, h⟩; simp at hm; subst hm; exact ⟨s, hs, h⟩
        · intro i; rw [hf']; constructor
          · exact .inl
          · rintro (h | ⟨_, _, hm, -⟩)
            · exact h
            · simp at hm
      case required =>
        simp only [Effect] at he
        obtain ⟨f0, f', h0, rfl, hf', hadd⟩ := he
        rw [hx] at h0; cases h0
        refine ⟨f', rfl, ?_⟩
        constructor
        · intro i j; rw [hf']; constructor
          · exact .inl
          · rintro (h | ⟨_, _, hm, -⟩)
            · exact h
            · simp at hm
        · intro i; rw [hf']; constructor
          · exact .inl
          · rintro (h | ⟨_, _, hm, -⟩)
            · exact h
            · simp at hm
        · intro i
          rw [hadd i]
          refine or_congr Iff.rfl ?_
          constructor
          · rintro ⟨s, hs, h⟩; exact ⟨args, s, by simp, hd, hs, h⟩
          · rintro ⟨args', s, hm, -, hs, h⟩; simp at hm; subst hm; exact ⟨s, hs, h⟩
      case returnValuePolicy =>
        simp only [Effect] at he
        obtain ⟨s, -, rfl⟩ := he
        refine ⟨_, by simp [hx]; rfl, ?_⟩
        constructor
        · intro i j; constructor
          · exact .inl
          · rintro (h | ⟨_, _, hm, -⟩)
            · exact h
            · simp at hm
        · intro i; constructor
          · exact .inl
          · rintro (h | ⟨_, _, hm, -⟩)
            · exact h
            · simp at hm
        · intro i; constructor
          · exact .inl
          · rintro (h | ⟨_, _, hm, -⟩)
            · exact h
            · simp at hm
  · refine ⟨f, ?_, functionStep_undocumented hf hd⟩
    rw [(apply_undocumented env id a x sh hd).1, hx]

/-- Any sequence of annotations. -/
theorem applyAll_function (env : DeclEnv) (id : Nat) (as : List Annotation) (x : DeclAttrs)
    (sh : Shape (env.info id) x) (f : FunctionDeclAttrs) (hx : x.function = some f) :
    ∃ f', (applyAnnotations env id x as).1.function = some f' ∧
      FunctionStep (env.info id) as f f' := by
  induction as generalizing x f with
  | nil =>
    refine ⟨f, by simpa [applyAnnotations] using hx, ?_⟩
    constructor <;> intros <;> simp
  | cons a as ih =>
    obtain ⟨g, hg, h1⟩ := apply_function env id a x sh f hx
    obtain ⟨h, hh, h2⟩ := ih _ (shape_apply env id a x sh) g hg
    refine ⟨h, by simpa [applyAnnotations] using hh, ?_⟩
    simpa using functionStep_trans h1 h2

end Verif
