import Verif.Lemmas.DeclOutput
import Verif.Props.Functions
import Verif.Spec.Signature
/-!
# Lemmas about documentation, arguments and policies of functions
-/
namespace Verif
open Spec

theorem documentation_eq (w : EmitWorld) (d : Nat) : Documentation w d (getDocstring w d) := by
  unfold getDocstring
  dsimp only
  cases hb : w.brief d with
  | nil =>
    simp only [List.isEmpty_nil, if_true]
    cases hp : (w.fn d).primary with
    | none => exact .none hb hp
    | some t => exact .template t hb hp
  | cons a l =>
    simp only [List.isEmpty_cons, Bool.false_eq_true, if_false]
    rw [← hb]
    exact .own (by rw [hb]; simp)

/-- The return value policy after annotations. -/
def policyAfter : List Annotation → Str → Str
  | [], s => s
  | ⟨.returnValuePolicy, [.string t]⟩ :: as, _ => policyAfter as t
  | _ :: as, s => policyAfter as s

theorem policyAfter_other (a : Annotation) (as : List Annotation) (s : Str)
    (h : ∀ t, a ≠ ⟨.returnValuePolicy, [.string t]⟩) : policyAfter (a :: as) s = policyAfter as s := by
  rw [policyAfter.eq_3]
  exact fun t e => h t e

theorem apply_policy (env : DeclEnv) (id : Nat) (a : Annotation) (x : DeclAttrs)
    (sh : Shape (env.info id) x) (f : FunctionDeclAttrs) (hx : x.function = some f) :
    ∃ f', (applyAnnotation env id x a).1.function = some f' ∧
      f'.returnValuePolicy = policyAfter [a] f.returnValuePolicy := by
  have hf : Applies .keepAlive (env.info id) := sh.function.1 (by simp [hx])
  by_cases hd : Documented (env.info id) a
  · obtain ⟨he, -, -⟩ := apply_documented env id a x sh hd
    generalize (applyAnnotation env id x a).1 = y at he
    cases hr : responsible a.kind 10 with
    | false =>
      refine ⟨f, by rw [effect_frame_function env _ a x y he hr, hx], ?_⟩
      rw [policyAfter_other]
      · rfl
      · rintro t rfl
        simp [responsible] at hr
    | true =>
      obtain ⟨k, args⟩ := a
      cases k <;> simp [responsible] at hr
      case keepAlive =>
        simp only [Effect] at he
        obtain ⟨s, t, rfl, h1, h2⟩ := he
        by_cases hs : s ∈ keepAliveNames (env.info id) ∧ t ∈ keepAliveNames (env.info id)
        · obtain ⟨i, hi⟩ := firstAt_of_mem hs.1
          obtain ⟨j, hj⟩ := firstAt_of_mem hs.2
          have := h1 i j hi hj
          subst this
          exact ⟨{ f with keepAlive := f.keepAlive ++ [(i, j)] }, by simp [hx], rfl⟩
        · have := h2 (by
            by_cases h : s ∈ keepAliveNames (env.info id)
            · exact .inr fun ht => hs ⟨h, ht⟩
            · exact .inl h)
          subst this
          exact ⟨f, hx, rfl⟩
      case noconvert =>
        simp only [Effect] at he
        obtain ⟨f0, f', h0, rfl, hf', hadd⟩ := he
        rw [hx] at h0; cases h0
        exact ⟨f', rfl, by rw [hf']; rfl⟩
      case required =>
        simp only [Effect] at he
        obtain ⟨f0, f', h0, rfl, hf', hadd⟩ := he
        rw [hx] at h0; cases h0
        exact ⟨f', rfl, by rw [hf']; rfl⟩
      case returnValuePolicy =>
        simp only [Effect] at he
        obtain ⟨s, rfl, rfl⟩ := he
        exact ⟨_, by simp [hx]; rfl, rfl⟩
  · refine ⟨f, by rw [(apply_undocumented env id a x sh hd).1, hx], ?_⟩
    rw [policyAfter_other]
    · rfl
    · rintro t rfl
      exact hd ⟨hf, trivial, .one .string, by simp [forms], by simp [Form.Accepts, LiteralValue.kind]⟩

theorem policyAfter_cons (a : Annotation) (as : List Annotation) (s : Str) :
    policyAfter (a :: as) s = policyAfter as (policyAfter [a] s) := by
  by_cases h : ∃ t, a = ⟨.returnValuePolicy, [.string t]⟩
  · obtain ⟨t, rfl⟩ := h
    rfl
  · have h' : ∀ t, a ≠ ⟨.returnValuePolicy, [.string t]⟩ := fun t e => h ⟨t, e⟩
    rw [policyAfter_other _ _ _ h', policyAfter_other _ _ _ h']
    rfl

theorem applyAll_policy (env : DeclEnv) (id : Nat) (as : List Annotation) (x : DeclAttrs)
    (sh : Shape (env.info id) x) (f : FunctionDeclAttrs) (hx : x.function = some f) :
    ∃ f', (applyAnnotations env id x as).1.function = some f' ∧
      f'.returnValuePolicy = policyAfter as f.returnValuePolicy := by
  induction as generalizing x f with
  | nil => exact ⟨f, by simpa [applyAnnotations] using hx, rfl⟩
  | cons a as ih =>
    obtain ⟨g, hg, h1⟩ := apply_policy env id a x sh f hx
    obtain ⟨h, hh, h2⟩ := ih _ (shape_apply env id a x sh) g hg
    refine ⟨h, by simpa [applyAnnotations] using hh, ?_⟩
    rw [policyAfter_cons, ← h1, h2]

theorem policyAfter_iff (as : List Annotation) (s p : Str) :
    policyAfter as s = p ↔ LastPolicy as p ∨ (s = p ∧ ∀ t, ⟨.returnValuePolicy, [.string t]⟩ ∉ as) := by
  induction as generalizing s with
  | nil =>
    simp only [policyAfter, List.not_mem_nil, not_false_eq_true, implies_true, and_true]
    constructor
    · exact .inr
    · rintro (⟨b, a, h, -⟩ | h)
      · simp at h
      · exact h
  | cons x as ih =>
    have hcons : ∀ q, LastPolicy (x :: as) q ↔ LastPolicy as q ∨
        (x = ⟨.returnValuePolicy, [.string q]⟩ ∧ ∀ t, ⟨.returnValuePolicy, [.string t]⟩ ∉ as) := by
      intro q
      constructor
      · rintro ⟨b, a, h, hn⟩
        cases b with
        | nil =>
          simp only [List.nil_append, List.cons.injEq] at h
          obtain ⟨rfl, rfl⟩ := h
          exact .inr ⟨rfl, hn⟩
        | cons y b =>
          simp only [List.cons_append, List.cons.injEq] at h
          exact .inl ⟨b, a, h.2, hn⟩
      · rintro (⟨b, a, rfl, hn⟩ | ⟨rfl, hn⟩)
        · exact ⟨x :: b, a, rfl, hn⟩
        · exact ⟨[], as, rfl, hn⟩
    rw [hcons]
    by_cases h : ∃ t, x = ⟨.returnValuePolicy, [.string t]⟩
    · obtain ⟨t, rfl⟩ := h
      rw [policyAfter, ih]
      constructor
      · rintro (h | ⟨rfl, h⟩)
        · exact .inl (.inl h)
        · exact .inl (.inr ⟨rfl, h⟩)
      · rintro ((h | ⟨h, hn⟩) | ⟨-, h⟩)
        · exact .inl h
        · simp only [Annotation.mk.injEq, List.cons.injEq, LiteralValue.string.injEq, and_true, true_and] at h
          exact .inr ⟨h, hn⟩
        · exact absurd List.mem_cons_self (h t)
    · have h' : ∀ t, x ≠ ⟨.returnValuePolicy, [.string t]⟩ := fun t e => h ⟨t, e⟩
      rw [policyAfter_other _ _ _ h', ih]
      constructor
      · rintro (h | ⟨rfl, h⟩)
        · exact .inl (.inl h)
        · refine .inr ⟨rfl, fun t ht => ?_⟩
          rcases List.mem_cons.1 ht with e | e
          · exact h' t e.symm
          · exact h t e
      · rintro ((h | ⟨h, -⟩) | ⟨rfl, h⟩)
        · exact .inl h
        · exact absurd h (h' _)
        · exact .inr ⟨rfl, fun t ht => h t (List.mem_cons_of_mem _ ht)⟩

theorem insert_policy (env : DeclEnv) (id : Nat) (hf : Applies .keepAlive (env.info id))
    (f : FunctionDeclAttrs) (h : (firstInsert env id).1.function = some f) :
    f.returnValuePolicy = policyAfter (parseAllTexts id [] (env.info id).attrTexts).1 [] := by
  have hsome := (shape_start env id ((env.info id).kind ≠ .namespace ∧
    hasAnnotations (env.info id) (allowEmpty := false) = true) (some true)).function.2 hf
  obtain ⟨f0, hf0⟩ := Option.isSome_iff_exists.1 hsome
  obtain ⟨f', hf', hstep⟩ := applyAll_policy env id (parseAllTexts id [] (env.info id).attrTexts).1
    _ (shape_start env id _ _) f0 hf0
  have he : f0 = {} := by
    have : ∀ x : DeclAttrs, x.function = some f0 → x.function = (freshAttrs (env.info id)).function →
        f0 = {} := by
      intro x h1 h2
      rw [h1] at h2
      simp only [freshAttrs] at h2
      split at h2 <;> cases h2
      rfl
    exact this _ hf0 (by split <;> rfl)
  subst he
  have : some f = some f' := h.symm.trans hf'
  cases this
  exact hstep

/-- Arguments and policies as derived from a function's own annotations. -/
theorem signature_eq (w : EmitWorld) (ok : EmitOK w) (s : Storage) (hd : Derived w s) (d : Nat)
    (a : DeclAttrs) (ha : attrsOf w s d = some a) (f : FunctionDeclAttrs) (hf : a.function = some f) :
    Signature w d (getDocstring w d) (emitParameters f ((w.fn d).params.map (·.param))).1
      (emitPolicies f) := by
  have sh := attrsOf_shape w s hd d a ha
  have happ : Applies .keepAlive (w.info d) := sh.function.1 (by rw [hf]; rfl)
  obtain ⟨hs, n, rfl⟩ := attrsOf_base w s hd d a ha
  have hf1 : (firstInsert w.toDeclEnv d).1.function = some f := hf
  have hent : ∀ y, (Storage.empty.insert w.toDeclEnv d).1.entries d = some y →
      y = (firstInsert w.toDeclEnv d).1 := by
    intro y hy
    rw [insert_eq w.toDeclEnv .empty d hs rfl] at hy
    simp only [Storage.set, if_pos, Option.some.injEq] at hy
    exact hy.symm
  constructor
  · exact documentation_eq w d
  · intro hno
    refine C38_names f _ ?_
    by_cases he : (emitParameters f ((w.fn d).params.map (·.param))).2 = []
    · exact he
    · exact absurd ((C38_error_iff_partial f _).1 he) hno
  · intro n p hn hpre
    obtain ⟨y, f', o, hy, hf', ho, hname, h1, h2⟩ := C19_flags_partial w.toDeclEnv .empty d
      (paramsOf w d) happ rfl (by rw [ok.params d]; simp [paramsOf, Function.comp_def]) n p hn hpre
    rw [hent y hy, hf1] at hf'
    cases hf'
    exact ⟨o, ho, hname, h1, h2⟩
  · intro p
    have hp := insert_policy w.toDeclEnv d happ f hf1
    unfold emitPolicies
    have : PolicyOut.returnValuePolicy p ∈ ((if f.returnValuePolicy.isEmpty then []
        else [.returnValuePolicy f.returnValuePolicy]) ++ f.keepAlive.map fun p => .keepAlive p.1 p.2) ↔
        p ≠ [] ∧ f.returnValuePolicy = p := by
      cases hr : f.returnValuePolicy with
      | nil =>
        simp
      | cons c l =>
        simp
        constructor
        · rintro rfl
          simp
        · exact fun h => h.2.symm
    rw [this]
    refine and_congr_right fun hne => ?_
    rw [hp, policyAfter_iff]
    constructor
    · rintro (h | ⟨rfl, -⟩)
      · exact h
      · exact absurd rfl hne
    · exact .inl
  · intro hns hret hthis
    obtain ⟨y, f', hy, hf', h⟩ := C18_keep_alive_partial w.toDeclEnv .empty d false happ rfl
      (fun _ => rfl) hret hthis
    rw [hent y hy, hf1] at hf'
    cases hf'
    exact h

/-- Where a statement of a context comes from. -/
theorem stmt_origin (w : EmitWorld) (vis : Visibilities) (s : Storage) (e : Exposer)
    (he : ∀ x, e ≠ .enum x) (c : Nat) (t : Stmt)
    (h : t ∈ (exposeContext w vis s e c).emitted.stmts) :
    (∃ d a, attrsOf w s d = some a ∧ t ∈ declStmts w e a d) ∨
      ∃ m, t ∈ finalStmts w s m e := by
  rw [(exposeContext_eq w vis s e c fun x hx => absurd hx (he x)).1] at h
  rcases List.mem_append.1 h with h | h
  · obtain ⟨d, -, hd⟩ := List.mem_flatMap.1 h
    unfold declOutput at hd
    split at hd
    · rename_i a ha
      split at hd
      · exact .inl ⟨d, a, ha, hd⟩
      · cases hd
    · cases hd
  · exact .inr ⟨_, h⟩

end Verif
