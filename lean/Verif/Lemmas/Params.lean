import Verif.Lemmas.FunctionAttrs
import Verif.Lemmas.Insert
/-!
# Lemmas: emitted parameters
-/
namespace Verif
open Spec

/-- The function attributes after the first insertion of a function. -/
theorem insert_function (env : DeclEnv) (s : Storage) (id : Nat)
    (hf : Applies .keepAlive (env.info id)) (hh : s.has id = false) :
    ∃ y f, (s.insert env id).1.entries id = some y ∧ y.function = some f ∧
      FunctionStep (env.info id) (parseAllTexts id [] (env.info id).attrTexts).1 {} f := by
  have hs : shouldSkip (env.info id) = false := by
    unfold shouldSkip
    rcases hf with h | h | h | h <;> simp [h, DeclKind.isTag]
  have hsome := (shape_start env id ((env.info id).kind ≠ .namespace ∧
    hasAnnotations (env.info id) (allowEmpty := false) = true) (some true)).function.2 hf
  obtain ⟨f0, hf0⟩ := Option.isSome_iff_exists.1 hsome
  obtain ⟨f, hf', hstep⟩ := applyAll_function env id (parseAllTexts id [] (env.info id).attrTexts).1
    _ (shape_start env id _ _) f0 hf0
  have he : f0 = {} := by
    have : ∀ x : DeclAttrs, x.function = some f0 → x.function = (freshAttrs (env.info id)).function →
        f0 = {} := by
      intro x h1 h2
      rw [h1] at h2
      simp only [freshAttrs] at h2
      split at h2 <;> cases h2
      rfl
    exact this _ hf0 (by split <;> rfl)
  subst he
  rw [insert_eq env s id hs hh]
  exact ⟨(firstInsert env id).1, f, by simp only [Storage.set, if_pos], hf', hstep⟩

/-- Parameters that get a `pybind11::arg`. -/
def Param.plain (p : Param) : Bool := p.argsType.isNone

/-- A parameter that is neither `args` nor `kwargs` follows `kwargs`. -/
def PlainAfterKwargs (ps : List Param) : Prop :=
  ∃ pre k mid p post, ps = pre ++ k :: mid ++ p :: post ∧ k.argsType = some .kwargs ∧
    p.argsType = none

theorem loop_kwargs (attrs : FunctionDeclAttrs) (ps : List Param) (index k : Nat) :
    (emitParametersLoop attrs index (some k) ps).1 = [] ∧
    ((emitParametersLoop attrs index (some k) ps).2 ≠ [] ↔ ∃ p ∈ ps, p.argsType = none) ∧
    ∀ g ∈ (emitParametersLoop attrs index (some k) ps).2, g.kind = .trailingParameters := by
  induction ps generalizing index k with
  | nil => simp [emitParametersLoop]
  | cons p ps ih =>
    simp only [emitParametersLoop]
    split
    · rename_i h
      obtain ⟨h1, h2, h3⟩ := ih index p.id
      refine ⟨h1, ?_, h3⟩
      rw [h2]; simp [h]
    · split
      · rename_i h h'
        obtain ⟨h1, h2, h3⟩ := ih index k
        refine ⟨h1, ?_, h3⟩
        rw [h2]
        have : p.argsType ≠ none := by intro e; simp [e] at h'
        simp [this]
      · rename_i h h'
        simp at h'
        simp [h']

theorem loop_plain (attrs : FunctionDeclAttrs) (ps : List Param) (index : Nat) :
    ((emitParametersLoop attrs index none ps).2 = [] →
      (emitParametersLoop attrs index none ps).1.map (fun o => (o.name, o.default)) =
        (ps.filter Param.plain).map (fun p => (p.name, p.default))) ∧
    ((emitParametersLoop attrs index none ps).2 ≠ [] ↔ PlainAfterKwargs ps) := by
  induction ps generalizing index with
  | nil =>
    refine ⟨by simp [emitParametersLoop], ?_⟩
    constructor
    · intro h; exact absurd rfl h
    · rintro ⟨pre, k, mid, p, post, h, -⟩; simp at h
  | cons p ps ih =>
    simp only [emitParametersLoop]
    split
    · rename_i h
      obtain ⟨h1, h2, -⟩ := loop_kwargs attrs ps index p.id
      have hp : p.plain = false := by simp [Param.plain, h]
      constructor
      · intro he
        have hno : ¬ ∃ p ∈ ps, p.argsType = none := fun hx => (h2.2 hx) he
        rw [h1]
        have : ps.filter Param.plain = [] := by
          rw [List.filter_eq_nil_iff]
          intro q hq hpl
          simp [Param.plain] at hpl
          exact hno ⟨q, hq, hpl⟩
        simp [List.filter_cons, hp, this]
      · rw [h2]
        constructor
        · rintro ⟨q, hq, hqn⟩
          obtain ⟨mid, post, rfl⟩ := List.append_of_mem hq
          exact ⟨[], p, mid, q, post, rfl, h, hqn⟩
        · rintro ⟨pre, k, mid, q, post, he, -, hqn⟩
          refine ⟨q, ?_, hqn⟩
          cases pre with
          | nil => simp at he; simp [he.2]
          | cons x pre => simp at he; simp [he.2]
    · split
      · rename_i h h'
        have hp : p.plain = false := by
          simp only [Param.plain]; cases hq : p.argsType <;> simp_all
        refine ⟨?_, ?_⟩
        · intro he; rw [(ih index).1 he]; simp [List.filter_cons, hp]
        · rw [(ih index).2]
          constructor
          · rintro ⟨pre, k, mid, q, post, rfl, hk, hq⟩
            exact ⟨p :: pre, k, mid, q, post, rfl, hk, hq⟩
          · rintro ⟨pre, k, mid, q, post, he, hk, hq⟩
            cases pre with
            | nil => simp at he; rw [he.1] at h; exact absurd hk h
            | cons x pre => simp at he; exact ⟨pre, k, mid, q, post, by simp [he.2], hk, hq⟩
      · rename_i h h'
        have hp : p.plain = true := by simpa [Param.plain] using h'
        refine ⟨?_, ?_⟩
        · intro he
          simp only [List.map_cons]
          rw [(ih (index + 1)).1 he]
          simp [List.filter_cons, hp]
        · simp only
          rw [(ih (index + 1)).2]
          constructor
          · rintro ⟨pre, k, mid, q, post, rfl, hk, hq⟩
            exact ⟨p :: pre, k, mid, q, post, rfl, hk, hq⟩
          · rintro ⟨pre, k, mid, q, post, he, hk, hq⟩
            cases pre with
            | nil => simp at he; rw [he.1] at h; exact absurd hk h
            | cons x pre => simp at he; exact ⟨pre, k, mid, q, post, by simp [he.2], hk, hq⟩

/-- The `n`-th emitted argument has the flags recorded under index `n`. -/
theorem loop_flags (attrs : FunctionDeclAttrs) (ps : List Param) (index n : Nat)
    (kw : Option Nat) (o : ArgOut) (h : (emitParametersLoop attrs index kw ps).1[n]? = some o) :
    (o.noconvert = true ↔ index + n ∈ attrs.noconvert) ∧
    (o.noneFalse = true ↔ index + n ∈ attrs.required) := by
  induction ps generalizing index n kw with
  | nil => simp [emitParametersLoop] at h
  | cons p ps ih =>
    simp only [emitParametersLoop] at h
    split at h
    · exact ih index n _ h
    · split at h
      · exact ih index n _ h
      · split at h
        · simp at h
        · cases n with
          | zero => simp at h; subst h; simp
          | succ n =>
            simp at h
            have := ih (index + 1) n none h
            rw [show index + (n + 1) = index + 1 + n by omega]
            exact this

theorem loop_position (attrs : FunctionDeclAttrs) (ps : List Param) (index n : Nat) (p : Param)
    (hp : ps[n]? = some p) (hpre : ∀ q ∈ ps.take (n + 1), q.argsType = none) :
    ∃ o, (emitParametersLoop attrs index none ps).1[n]? = some o ∧ o.name = p.name := by
  induction ps generalizing index n with
  | nil => simp at hp
  | cons q ps ih =>
    have hq := hpre q (by simp)
    simp only [emitParametersLoop, hq]
    cases n with
    | zero => simp at hp; subst hp; exact ⟨_, by simp; rfl, rfl⟩
    | succ n =>
      obtain ⟨o, ho, hn⟩ := ih (index + 1) n (by simpa using hp)
        (fun r hr => hpre r (by simp [hr]))
      exact ⟨o, by simpa using ho, hn⟩

end Verif
