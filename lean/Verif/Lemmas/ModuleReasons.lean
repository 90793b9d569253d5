import Verif.Lemmas.SourceReasons
/-!
# Lemmas: diagnostics reported for the structure of the module and the contents of contexts
-/
namespace Verif
open Spec

/-! ### Parameters -/

theorem loop_said (f : FunctionDeclAttrs) (ps : List Param) (index : Nat) (last : Option Nat) (g : Diag)
    (hg : g ∈ (emitParametersLoop f index last ps).2) :
    (∃ k mid q post, last = some k ∧ ps = mid ++ q :: post ∧ (∀ r ∈ mid, r.argsType = some .args) ∧
      q.argsType = none ∧ g = ⟨k, .trailingParameters, []⟩) ∨
    ∃ pre p mid q post, ps = pre ++ p :: (mid ++ q :: post) ∧ p.argsType = some .kwargs ∧
      (∀ r ∈ mid, r.argsType = some .args) ∧ q.argsType = none ∧ g = ⟨p.id, .trailingParameters, []⟩ := by
  induction ps generalizing index last with
  | nil => simp [emitParametersLoop] at hg
  | cons p ps ih =>
    have shift : (∃ pre p mid q post, ps = pre ++ p :: (mid ++ q :: post) ∧ p.argsType = some .kwargs ∧
        (∀ r ∈ mid, r.argsType = some .args) ∧ q.argsType = none ∧ g = ⟨p.id, .trailingParameters, []⟩) →
        ∃ pre p' mid q post, p :: ps = pre ++ p' :: (mid ++ q :: post) ∧ p'.argsType = some .kwargs ∧
        (∀ r ∈ mid, r.argsType = some .args) ∧ q.argsType = none ∧
        g = ⟨p'.id, .trailingParameters, []⟩ := by
      rintro ⟨pre, p', mid, q, post, rfl, h⟩
      exact ⟨p :: pre, p', mid, q, post, rfl, h⟩
    simp only [emitParametersLoop] at hg
    split at hg
    · rename_i hk
      rcases ih _ _ hg with ⟨k, mid, q, post, h1, rfl, h⟩ | h
      · simp only [Option.some.injEq] at h1
        subst h1
        exact .inr ⟨[], p, mid, q, post, rfl, hk, h⟩
      · exact .inr (shift h)
    · rename_i hk
      split at hg
      · rename_i hs
        have ha : p.argsType = some .args := by
          cases hp : p.argsType with
          | none => rw [hp] at hs; cases hs
          | some t =>
            cases t with
            | args => rfl
            | kwargs => exact absurd hp hk
        rcases ih _ _ hg with ⟨k, mid, q, post, h1, rfl, h2, h⟩ | h
        · refine .inl ⟨k, p :: mid, q, post, h1, rfl, fun r hr => ?_, h⟩
          rcases List.mem_cons.1 hr with rfl | hr
          · exact ha
          · exact h2 r hr
        · exact .inr (shift h)
      · rename_i hs
        have hn : p.argsType = none := by
          cases hp : p.argsType with
          | none => rfl
          | some t => rw [hp] at hs; exact absurd rfl hs
        cases last with
        | some k =>
          simp only [List.mem_singleton] at hg
          exact .inl ⟨k, [], p, ps, rfl, rfl, by simp, hn, hg⟩
        | none =>
          rcases ih _ _ hg with ⟨k, mid, q, post, h1, h⟩ | h
          · cases h1
          · exact .inr (shift h)

theorem parameters_said (f : FunctionDeclAttrs) (ps : List FnParam) (g : Diag)
    (hg : g ∈ (emitParameters f (ps.map (·.param))).2) :
    ∃ (m n : Nat) (p q : FnParam), m < n ∧ ps[m]? = some p ∧ ps[n]? = some q ∧
      p.param.argsType = some .kwargs ∧ q.param.argsType = none ∧
      (∀ (k : Nat) (r : FnParam), m < k → k < n → ps[k]? = some r → r.param.argsType = some .args) ∧
      g = ⟨p.param.id, .trailingParameters, []⟩ := by
  rcases loop_said f _ _ _ g hg with ⟨k, _, _, _, h, _⟩ | ⟨pre, k, mid, q, post, he, hk, hmid, hq, rfl⟩
  · cases h
  · obtain ⟨pre', rest, rfl, rfl, h1⟩ := List.map_eq_append_iff.1 he
    obtain ⟨p, rest', rfl, rfl, h2⟩ := List.map_eq_cons_iff.1 h1
    obtain ⟨mid', rest'', rfl, rfl, h3⟩ := List.map_eq_append_iff.1 h2
    obtain ⟨q', post', rfl, rfl, h4⟩ := List.map_eq_cons_iff.1 h3
    refine ⟨pre'.length, pre'.length + 1 + mid'.length, p, q', by omega, by simp, ?_, hk, hq, ?_, rfl⟩
    · rw [List.getElem?_append_right (by omega),
        show pre'.length + 1 + mid'.length - pre'.length = mid'.length + 1 by omega,
        List.getElem?_cons_succ]
      simp
    · intro k r hk1 hk2 hr
      rw [List.getElem?_append_right (by omega)] at hr
      obtain ⟨j, hj⟩ : ∃ j, k - pre'.length = j + 1 := ⟨k - pre'.length - 1, by omega⟩
      rw [hj, List.getElem?_cons_succ, List.getElem?_append_left (by omega)] at hr
      exact hmid _ (List.mem_map_of_mem (List.mem_of_getElem? hr))

/-! ### Declarations -/

/-- What is reported for a declaration once its annotations have been read. -/
def DeclSaid (w : EmitWorld) (s : Storage) (x d : Nat) (g : Diag) : Prop :=
  (((w.info x).kind ≠ .enum ∧ FunctionIn w s x d ∨ (w.info x).kind = .record ∧ callable w x d = true) ∧
    ∃ f, g ∈ (emitParameters f ((w.fn d).params.map (·.param))).2) ∨
  (w.info x).kind = .record ∧ overloadsOperator (w.info d) = true ∧ (w.fn d).isDeleted = false ∧
    (w.info d).kind.isMethod = false ∧ (w.info d).operator = some .lessLess ∧
    (w.fn d).firstPointee = .unnamed ∧ g = ⟨d, .assertion, []⟩

/-- What is reported for a function. -/
theorem generic_said (w : EmitWorld) (s : Storage) (hd : Derived w s) (d : Nat) (a : DeclAttrs)
    (ha : attrsOf w s d = some a) (hc : (w.info d).kind ≠ .constructor) (hf : (w.info d).kind ≠ .field)
    (g : Diag) (hg : g ∈ (handleDeclGeneric w a d).diags) :
    isPlainFunction (w.info d) = true ∧ (w.fn d).isDeleted = false ∧ isAccessor w s d = false ∧
      ∃ f, g ∈ (emitParameters f ((w.fn d).params.map (·.param))).2 := by
  have sh := attrsOf_shape w s hd d a ha
  have hacc : isAccessor w s d = a.method.any fun m => !m.getterFor.isEmpty || !m.setterFor.isEmpty := by
    unfold isAccessor
    rw [ha]
    rfl
  have hcn : a.constructor.isSome = false := by
    cases h : a.constructor.isSome with
    | false => rfl
    | true => exact absurd (sh.constructor.1 h) hc
  unfold handleDeclGeneric at hg
  rw [hcn, if_neg (by simp)] at hg
  cases ht : a.typedefName with
  | some t =>
    rw [ht] at hg
    dsimp only at hg
    split at hg
    · cases hg
    · cases h : w.aliasTag d <;> (rw [h] at hg; cases hg)
  | none =>
    rw [ht] at hg
    dsimp only at hg
    cases hv : a.fieldOrVar with
    | some v =>
      rw [hv] at hg
      dsimp only at hg
      cases hm : v.manualBindings with
      | some l => rw [hm] at hg; dsimp only at hg; split at hg <;> cases hg
      | none => rw [hm] at hg; dsimp only at hg; rw [if_neg hf] at hg; cases hg
    | none =>
      rw [hv] at hg
      dsimp only at hg
      cases hfn : a.function with
      | none =>
        rw [hfn] at hg
        dsimp only at hg
        exfalso
        repeat' split at hg
        all_goals cases hg
      | some f =>
        rw [hfn] at hg
        dsimp only at hg
        have hp : isPlainFunction (w.info d) = true := by
          have := sh.function.1 (by rw [hfn]; rfl)
          unfold isPlainFunction
          rcases this with h | h | h | h
          · simp [h]
          · simp [h]
          · exact absurd h hc
          · simp [h]
        have key : ∀ b : Bool, b = isAccessor w s d → g ∈ (if b = true then Emitted.none
            else if (w.fn d).isDeleted = true then Emitted.none else
            ({ stmts := [.function d ((w.info d).kind.isMethod && (w.fn d).isStatic)
              (emitSpelling (w.info d) a.named (if (w.info d).operator = some .call then t%"__call__" else []))
              (emitFunctionPointer w d) (getDocstring w d)
              (emitParameters f ((w.fn d).params.map (·.param))).1 (emitPolicies f)]
               diags := (emitParameters f ((w.fn d).params.map (·.param))).2 } : Emitted)).diags →
            isPlainFunction (w.info d) = true ∧ (w.fn d).isDeleted = false ∧ isAccessor w s d = false ∧
              ∃ f, g ∈ (emitParameters f ((w.fn d).params.map (·.param))).2 := by
          intro b hb hg
          cases b with
          | true => cases hg
          | false =>
            simp only [Bool.false_eq_true, if_false] at hg
            cases hdel : (w.fn d).isDeleted with
            | true => rw [hdel] at hg; cases hg
            | false =>
              rw [hdel] at hg
              exact ⟨hp, rfl, hb.symm, f, hg⟩
        refine key _ ?_ hg
        rw [hacc]
        cases a.method <;> rfl

/-- Where the diagnostics for a declaration come from. -/
theorem decl_said (w : EmitWorld) (ok : EmitOK w) (s : Storage) (hd : Derived w s) (x d : Nat) (a : DeclAttrs)
    (ha : attrsOf w s d = some a)
    (hclass : (w.info d).kind = .constructor ∨ (w.info d).kind = .field → (w.info x).kind = .record)
    (hunit : (w.info d).kind = .var → (w.info d).inTranslationUnit = true → (w.info x).kind ≠ .record)
    (g : Diag) (hg : g ∈ declDiags w (Exposer.create w s x) a d) : DeclSaid w s x d g := by
  have sh := attrsOf_shape w s hd d a ha
  have hgen : (w.info x).kind ≠ .record → (w.info x).kind ≠ .enum → g ∈ (handleDeclGeneric w a d).diags →
      DeclSaid w s x d g := by
    intro hr hen hg
    obtain ⟨h1, h2, h3, h4⟩ := generic_said w s hd d a ha (fun h => hr (hclass (.inl h)))
      (fun h => hr (hclass (.inr h))) g hg
    exact .inl ⟨.inl ⟨hen, h1, h2, h3, fun hr' => absurd hr' hr⟩, h4⟩
  unfold declDiags at hg
  by_cases hr : (w.info x).kind = .record
  · have hcr : Exposer.create w s x = .record x (createFromAnnotations s (w.hierarchy x) x) := by
      unfold Exposer.create
      rw [hr]
    rw [hcr] at hg
    dsimp only at hg
    by_cases hc : (w.info d).kind = .constructor
    · obtain ⟨c, hac⟩ := Option.isSome_iff_exists.1 (sh.constructor.2 hc)
      have hnacc : accessorAttrs w a d = none := by
        unfold accessorAttrs
        rw [hac]
        rfl
      rw [hnacc] at hg
      dsimp only at hg
      unfold handleDeclRecord at hg
      rw [hac] at hg
      dsimp only at hg
      have hcall : callable w x d = !((w.fn d).isMoveConstructor || (w.fn d).isDeleted || w.isAbstract x) := by
        unfold callable
        simp [hc, Bool.and_assoc]
      cases hm : ((w.fn d).isMoveConstructor || (w.fn d).isDeleted || w.isAbstract x) with
      | true => rw [hm] at hg; cases hg
      | false =>
        rw [hm] at hg hcall
        simp only [Bool.false_eq_true, if_false] at hg
        refine .inl ⟨.inr ⟨hr, hcall⟩, a.function.getD {}, ?_⟩
        by_cases hi : c.implicitConversion = true
        · rw [if_pos hi] at hg
          obtain ⟨_, n, hbase⟩ := attrsOf_base w s hd d a ha
          have hcok := firstInsert_ctor w.toDeclEnv d c (by rw [← hac, hbase]) hi
          have hlen := hcok.1
          rw [ok.params d, List.length_map] at hlen
          cases hps : (w.fn d).params with
          | nil => rw [hps] at hlen; cases hlen
          | cons p ps => rw [hps] at hg; exact hg
        · rw [if_neg hi] at hg
          exact hg
    · have hcn : a.constructor = none := by
        cases h : a.constructor with
        | none => rfl
        | some c => exact absurd (sh.constructor.1 (by rw [h]; rfl)) hc
      by_cases ho : supportsOperator (w.info d) = true
      · have hnacc : accessorAttrs w a d = none := by
          unfold accessorAttrs
          rw [ho]
          simp
        rw [hnacc] at hg
        dsimp only at hg
        unfold handleDeclRecord at hg
        rw [hcn] at hg
        dsimp only at hg
        rw [if_pos ho] at hg
        have hover : overloadsOperator (w.info d) = true := by
          unfold supportsOperator at ho
          unfold overloadsOperator isOperator
          cases hop : (w.info d).operator with
          | none => rw [hop] at ho; simp at ho
          | some o => rw [hop] at ho; simpa [hc] using ho
        cases hdel : (w.fn d).isDeleted with
        | true => rw [hdel] at hg; cases hg
        | false =>
          rw [hdel] at hg
          simp only [Bool.false_eq_true, if_false] at hg
          cases hop : (w.info d).operator with
          | none => unfold supportsOperator at ho; rw [hop] at ho; simp at ho
          | some o =>
            rw [hop] at hg
            dsimp only at hg
            unfold isOstreamOperator at hg
            rw [hop] at hg
            by_cases hst : ((w.info d).kind.isMethod || (some o ≠ some OperatorKind.lessLess)) = true
            · rw [if_pos hst] at hg
              dsimp only at hg
              exfalso
              split at hg <;> cases hg
            · rw [if_neg hst] at hg
              simp only [Bool.or_eq_true, decide_eq_true_eq, not_or, Bool.not_eq_true, ne_eq, Decidable.not_not] at hst
              cases hpt : (w.fn d).firstPointee with
              | none =>
                rw [hpt] at hg
                dsimp only at hg
                exfalso
                split at hg <;> cases hg
              | unnamed =>
                rw [hpt] at hg
                dsimp only at hg
                refine .inr ⟨hr, hover, hdel, hst.1, by rw [hop]; exact hst.2, hpt, ?_⟩
                simpa [Emitted.fail] using hg
              | named b =>
                rw [hpt] at hg
                exfalso
                cases b
                · dsimp only at hg
                  split at hg <;> cases hg
                · dsimp only at hg
                  split at hg <;> cases hg
      · have ho' : supportsOperator (w.info d) = false := by simpa using ho
        have hnover : overloadsOperator (w.info d) = false := by
          unfold supportsOperator at ho'
          unfold overloadsOperator isOperator
          cases hop : (w.info d).operator with
          | none => simp
          | some o => rw [hop] at ho'; simp at ho' ⊢; intro h _; exact ho' h
        have hacc : isAccessor w s d = (!(a.method.getD {}).getterFor.isEmpty ||
            !(a.method.getD {}).setterFor.isEmpty) := by
          unfold isAccessor
          rw [ha]
          show a.method.any _ = _
          cases a.method <;> rfl
        have haa : accessorAttrs w a d = if isAccessor w s d = true then some (a.method.getD {}) else none := by
          unfold accessorAttrs
          rw [hcn, ho', hacc]
          rfl
        rw [haa] at hg
        cases hia : isAccessor w s d with
        | true => rw [hia] at hg; cases hg
        | false =>
          rw [hia] at hg
          simp only [Bool.false_eq_true, if_false] at hg
          unfold handleDeclRecord at hg
          rw [hcn] at hg
          dsimp only at hg
          rw [if_neg ho, if_neg (by rw [← hacc, hia]; simp)] at hg
          cases hv : a.fieldOrVar with
          | none =>
            rw [hv] at hg
            dsimp only at hg
            have hkf : (w.info d).kind ≠ .field := by
              intro hk
              have := sh.fieldOrVar.2 (.inl hk)
              rw [hv] at this
              cases this
            obtain ⟨h1, h2, h3, h4⟩ := generic_said w s hd d a ha hc hkf g hg
            refine .inl ⟨.inl ⟨by rw [hr]; simp, h1, h2, h3, fun _ => ?_⟩, h4⟩
            unfold overloadsOperator at hnover
            have hfun : (w.info d).kind.isFunction = true := by
              unfold isPlainFunction at h1
              revert h1
              cases (w.info d).kind <;> simp [DeclKind.isFunction]
            rw [hfun] at hnover
            simpa [hc] using hnover
          | some v =>
            rw [hv] at hg
            dsimp only at hg
            exfalso
            obtain ⟨hs1, hs2⟩ := attrs_settings w s hd d a ha v hv
            cases hmb : v.manualBindings with
            | none => rw [hmb] at hg; cases hg
            | some l =>
              rw [hmb] at hg
              dsimp only at hg
              cases hpa : v.postamble with
              | false => rw [hpa] at hg; cases hg
              | true => exact absurd hr (hunit (hs1 l hmb) (hs2 hpa))
  · by_cases hen : (w.info x).kind = .enum
    · have : Exposer.create w s x = .enum x := by
        unfold Exposer.create
        rw [hen]
      rw [this] at hg
      cases hg
    · have hg' := hgen hr hen
      cases he : Exposer.create w s x with
      | plain => rw [he] at hg; exact hg' hg
      | «namespace» y => rw [he] at hg; exact hg' hg
      | enum y => exact absurd ((create_kind w s x).1 y he).2 hen
      | record y p => exact absurd ((create_kind w s x).2 y p he).2 hr

/-! ### Contexts -/

theorem insert_members (w : EmitWorld) (s : Storage) (d : Nat) (hs : shouldSkip (w.info d) = false) (g : Diag)
    (hg : g ∈ (s.insert w.toDeclEnv d).2) : g ∈ (firstInsert w.toDeclEnv d).2 := by
  cases hh : s.has d with
  | false => rwa [insert_eq _ _ _ hs hh] at hg
  | true =>
    unfold Storage.insert at hg
    rw [if_neg (by simp [hs]), if_pos hh] at hg
    cases hg

/-- Where the diagnostics of the loop over declarations come from, apart from properties. -/
theorem loop_members (w : EmitWorld) (s : Storage) (vis : Visibilities) (e : Exposer) (c : Nat) (l : List Nat)
    (hl : ∀ d ∈ l, shouldSkip (w.info d) = false) (g : Diag)
    (hg : g ∈ otherDiags (l.foldl (e.propose w ((vis c).getD false)) { storage := s }).emitted.diags) :
    ∃ d ∈ l, g ∈ (firstInsert w.toDeclEnv d).2 ∨ ∃ a, attrsOf w s d = some a ∧
      a.named.visible.getD ((vis c).getD false) = true ∧ g ∈ declDiags w e a d := by
  suffices key : ∀ (l pre : List Nat) (st : Exposing), Looped w s vis e c pre st →
      (∀ d ∈ l, shouldSkip (w.info d) = false) →
      g ∈ otherDiags (l.foldl (e.propose w ((vis c).getD false)) st).emitted.diags →
      g ∈ otherDiags st.emitted.diags ∨ ∃ d ∈ l, g ∈ (firstInsert w.toDeclEnv d).2 ∨
        ∃ a, attrsOf w s d = some a ∧ a.named.visible.getD ((vis c).getD false) = true ∧
          g ∈ declDiags w e a d by
    rcases key l [] { storage := s } ⟨fun _ => rfl, fun _ _ => rfl, rfl, rfl, rfl⟩ hl hg with h | h
    · simp [otherDiags, Emitted.none] at h
    · exact h
  intro l
  induction l with
  | nil => exact fun _ _ _ _ h => .inl h
  | cons d l ih =>
    intro pre st hL hs h
    rcases ih (pre ++ [d]) _ (looped_step w s vis e c pre st hL d) (fun x hx => hs x (by simp [hx])) h
      with h | ⟨x, hx, h⟩
    · have hs' := hs d (by simp)
      have hins : g ∈ otherDiags (st.emitted.diags ++ (st.storage.insert w.toDeclEnv d).2) →
          g ∈ otherDiags st.emitted.diags ∨ g ∈ (firstInsert w.toDeclEnv d).2 := by
        rw [other_append, List.mem_append]
        rintro (h | h)
        · exact .inl h
        · exact .inr (insert_members w _ d hs' g (List.mem_filter.1 h).1)
      have hend : g ∈ otherDiags st.emitted.diags ∨ g ∈ (firstInsert w.toDeclEnv d).2 ∨
          ∃ a, attrsOf w s d = some a ∧ a.named.visible.getD ((vis c).getD false) = true ∧
            g ∈ declDiags w e a d := by
        change g ∈ otherDiags (Exposer.handleDecl w e ((vis c).getD false) _ d).emitted.diags at h
        unfold Exposer.handleDecl at h
        dsimp only at h
        rw [insert_self, hL.attrs] at h
        cases ha : attrsOf w s d with
        | none =>
          rw [ha] at h
          exact (hins h).imp_right .inl
        | some a =>
          rw [ha] at h
          dsimp only at h
          by_cases hv : a.named.visible.getD ((vis c).getD false) = true
          · rw [if_pos hv, impl_other, List.mem_append] at h
            rcases h with h | h
            · exact (hins h).imp_right .inl
            · exact .inr (.inr ⟨a, rfl, hv, h⟩)
          · rw [if_neg hv] at h
            exact (hins h).imp_right .inl
      rcases hend with h | h
      · exact .inl h
      · exact .inr ⟨d, by simp, h⟩
    · exact .inr ⟨x, by simp [hx], h⟩

/-- Where the diagnostics for the contents of a context come from. -/
def ContextSaid (w : EmitWorld) (s : Storage) (vis : Visibilities) (x : Nat) (g : Diag) : Prop :=
  let ds := proposedDecls w (Exposer.create w s x) x
  (∃ d ∈ ds, g ∈ (firstInsert w.toDeclEnv d).2) ∨
  (∃ d ∈ ds, ∃ a, attrsOf w s d = some a ∧ a.named.visible.getD ((vis x).getD false) = true ∧
    g ∈ declDiags w (Exposer.create w s x) a d) ∨
  (w.info x).kind = .record ∧ ∃ n,
    (∃ d ∈ (getters w s vis x ds n).tail, g = ⟨d, .propertyAlreadyDefined, [n, t%"0"]⟩) ∨
    (∃ d ∈ (setters w s vis x ds n).tail, g = ⟨d, .propertyAlreadyDefined, [n, t%"1"]⟩) ∨
    (∃ d, (d ∈ (getters w s vis x ds n).dropLast ∨ d ∈ (setters w s vis x ds n).dropLast) ∧
      g = ⟨d, .notePreviousDefinition, []⟩) ∨
    (∃ d ∈ setters w s vis x ds n, getters w s vis x ds n = [] ∧ g = ⟨d, .propertyHasNoGetter, [n]⟩)

theorem context_said (w : EmitWorld) (ok : EmitOK w) (s s' : Storage) (hd : Derived w s) (hq : Equiv w s s')
    (vis : Visibilities) (x : Nat) (g : Diag)
    (hg : g ∈ (exposeContext w vis s' (Exposer.create w s x) x).emitted.diags) : ContextSaid w s vis x g := by
  have hd' := derived_equiv hq hd
  have hget : ∀ ds n, getters w s' vis x ds n = getters w s vis x ds n := by
    intro ds n
    unfold getters shown
    simp only [hq.attrs]
  have hset : ∀ ds n, setters w s' vis x ds n = setters w s vis x ds n := by
    intro ds n
    unfold setters shown
    simp only [hq.attrs]
  have hfin : ∀ e : Exposer, ∀ st : Exposing, otherDiags (e.finalizeDefinition w st).emitted.diags =
      otherDiags st.emitted.diags := by
    intro e st
    unfold Exposer.finalizeDefinition
    cases e with
    | enum y => dsimp only; rw [emit_diags, enum_diags, List.append_nil]
    | record y p =>
      dsimp only
      rw [emit_diags, other_append]
      have : otherDiags (emitProperties w st.properties).diags = [] := by
        unfold otherDiags
        rw [List.filter_eq_nil_iff]
        intro g hg
        obtain ⟨_, _, _, _, _, _, rfl⟩ := (emitProperties_diags ..).1 hg
        simp [isPropertyDiag]
      rw [this, List.append_nil]
    | _ => dsimp only; rw [emit_diags, List.append_nil]
  cases hp : isPropertyDiag g with
  | false =>
    have ho : g ∈ otherDiags (exposeContext w vis s' (Exposer.create w s x) x).emitted.diags :=
      List.mem_filter.2 ⟨hg, by simp [hp]⟩
    unfold exposeContext at ho
    rw [hfin] at ho
    obtain ⟨d, hdm, h | ⟨a, ha, hv, h⟩⟩ := loop_members w s' vis _ x _
      (fun d hm => proposed_not_skip w ok _ _ _ hm) g ho
    · exact .inl ⟨d, hdm, h⟩
    · exact .inr (.inl ⟨d, hdm, a, by rw [← hq.attrs]; exact ha, hv, h⟩)
  | true =>
    by_cases hk : (w.info x).kind = .record
    · refine .inr (.inr ⟨hk, ?_⟩)
      have hcr : Exposer.create w s x = .record x (createFromAnnotations s (w.hierarchy x) x) := by
        unfold Exposer.create
        rw [hk]
      rw [hcr] at hg ⊢
      obtain ⟨gd, gk, ga⟩ := g
      have hp' := hp
      unfold isPropertyDiag at hp'
      simp only [Bool.or_eq_true, decide_eq_true_eq] at hp'
      rcases hp' with (rfl | rfl) | rfl
      · obtain ⟨n, ⟨h1, h2⟩ | ⟨h1, h2⟩⟩ := (C36_duplicates w s' hd' vis x _ x _ rfl).1 hg
        · rw [hget] at h2
          exact ⟨n, .inl ⟨gd, h2, by cases h1; rfl⟩⟩
        · rw [hset] at h2
          exact ⟨n, .inr (.inl ⟨gd, h2, by cases h1; rfl⟩)⟩
      · obtain ⟨h1, n, h2⟩ := (C36_notes w s' hd' vis x _ x _ rfl).1 hg
        rw [hget, hset] at h2
        exact ⟨n, .inr (.inr (.inl ⟨gd, h2, by cases h1; rfl⟩))⟩
      · obtain ⟨n, h1, h2, h3⟩ := (C36_no_getter w s' hd' vis x _ x _ rfl).1 hg
        rw [hget] at h2
        rw [hset] at h3
        exact ⟨n, .inr (.inr (.inr ⟨gd, List.mem_of_getLast? h3, h2, by cases h1; rfl⟩))⟩
    · exfalso
      have hgen : ∀ e : Exposer, (∀ y p, e ≠ .record y p) → (∀ y, e = .enum y → y ∉ proposedDecls w e x) →
          (exposeContext w vis s' e x).emitted.diags.filter isPropertyDiag = [] := by
        intro e he hc
        rw [(exposeContext_eq w vis s' e x hc).2.2.2]
        have hacc : accessors w s' vis e x = [] := by
          unfold accessors
          rw [List.filterMap_eq_nil_iff]
          intro d _
          cases e with
          | record y p => exact absurd rfl (he y p)
          | _ => rfl
        rw [hacc]
        cases e with
        | record y p => exact absurd rfl (he y p)
        | _ => rfl
      have := hgen _ (fun y p he => hk ((create_kind w s x).2 y p he).2) (enum_not_proposed w ok s x)
      rw [List.filter_eq_nil_iff] at this
      exact this g hg hp

theorem items_said (w : EmitWorld) (ok : EmitOK w) (g : Graph) (vis : Visibilities) (streams count : Nat)
    (s : Storage) (hd : Derived w s) (items : List WorklistItem)
    (hi : ∀ item ∈ items, item.exposer = Exposer.create w s item.context) (q : Diag) :
    ∀ (d : Defining) (index : Nat), Equiv w s d.storage →
      q ∈ (defineItems w g vis streams count d index items).diags →
      q ∈ d.diags ∨ ∃ x ∈ items.map (·.context), ContextSaid w s vis x q := by
  induction items with
  | nil => exact fun _ _ _ h => .inl h
  | cons item items ih =>
    intro d index hq h
    have he := hi item (by simp)
    obtain ⟨_, hq'⟩ := exposeContext_congr w ok vis s d.storage item.context hq
    rw [← he] at hq'
    rw [defineItems] at h
    rcases ih (fun x hx => hi x (by simp [hx])) _ _ hq' h with h | ⟨x, hx, h⟩
    · change q ∈ d.diags ++ (exposeContext w vis d.storage item.exposer item.context).emitted.diags at h
      rcases List.mem_append.1 h with h | h
      · exact .inl h
      · rw [he] at h
        exact .inr ⟨item.context, by simp, context_said w ok s d.storage hd hq vis _ q h⟩
    · exact .inr ⟨x, by simp [hx], h⟩

/-! ### Getters and setters -/

theorem method_plain (w : EmitWorld) (s : Storage) (hd : Derived w s) (d : Nat) (a : DeclAttrs)
    (m : MethodDeclAttrs) (ha : attrsOf w s d = some a) (hm : a.method = some m) :
    overloadsOperator (w.info d) = false := by
  have := (attrsOf_shape w s hd d a ha).method.1 (by rw [hm]; rfl)
  unfold overloadsOperator isOperator
  rcases this.2 with h | h <;> simp [h]

theorem filter_method (w : EmitWorld) (s : Storage) (hd : Derived w s) (vis : Visibilities) (x : Nat)
    (q : MethodDeclAttrs → Bool) (d : Nat)
    (h : (shown w s vis x d && ((attrsOf w s d).bind (·.method)).any q) = true) :
    overloadsOperator (w.info d) = false := by
  simp only [Bool.and_eq_true] at h
  obtain ⟨m, hm, _⟩ := (Option.any_eq_true ..).1 h.2
  obtain ⟨a, ha, ham⟩ := Option.bind_eq_some_iff.1 hm
  exact method_plain w s hd d a m ha ham

theorem getters_iff (w : EmitWorld) (lk : LookupOK w) (s : Storage) (hd : Derived w s) (vis : Visibilities)
    (g : Graph) (x : Nat) (hv : ∀ d, shown w s vis x d = true ↔ VisibleIn w s g x d) (n : Str) (d : Nat) :
    d ∈ getters w s vis x (proposedDecls w (Exposer.create w s x) x) n ↔ GetterIn w s g x n d := by
  unfold getters GetterIn Offers
  simp only [List.mem_filter, Bool.and_eq_true, hv]
  constructor
  · rintro ⟨h1, h2, h3⟩
    obtain ⟨m, hm, hc⟩ := (Option.any_eq_true ..).1 h3
    obtain ⟨a, ha, ham⟩ := Option.bind_eq_some_iff.1 hm
    exact ⟨⟨(proposed_iff w lk s x d fun _ => method_plain w s hd d a m ha ham).1 h1, h2⟩, a, m, ha, ham,
      by simpa using hc⟩
  · rintro ⟨⟨h1, h2⟩, a, m, ha, ham, hc⟩
    refine ⟨(proposed_iff w lk s x d fun _ => method_plain w s hd d a m ha ham).2 h1, h2, ?_⟩
    rw [ha]
    simp only [Option.bind_some, ham, Option.any_some]
    simpa using hc

theorem setters_iff (w : EmitWorld) (lk : LookupOK w) (s : Storage) (hd : Derived w s) (vis : Visibilities)
    (g : Graph) (x : Nat) (hv : ∀ d, shown w s vis x d = true ↔ VisibleIn w s g x d) (n : Str) (d : Nat) :
    d ∈ setters w s vis x (proposedDecls w (Exposer.create w s x) x) n ↔ SetterIn w s g x n d := by
  unfold setters SetterIn Offers
  simp only [List.mem_filter, Bool.and_eq_true, hv]
  constructor
  · rintro ⟨h1, h2, h3⟩
    obtain ⟨m, hm, hc⟩ := (Option.any_eq_true ..).1 h3
    obtain ⟨a, ha, ham⟩ := Option.bind_eq_some_iff.1 hm
    exact ⟨⟨(proposed_iff w lk s x d fun _ => method_plain w s hd d a m ha ham).1 h1, h2⟩, a, m, ha, ham,
      by simpa using hc⟩
  · rintro ⟨⟨h1, h2⟩, a, m, ha, ham, hc⟩
    refine ⟨(proposed_iff w lk s x d fun _ => method_plain w s hd d a m ha ham).2 h1, h2, ?_⟩
    rw [ha]
    simp only [Option.bind_some, ham, Option.any_some]
    simpa using hc

theorem tail_other (l : List Nat) (hn : l.Nodup) (d : Nat) (h : d ∈ l.tail) : d ∈ l ∧ ∃ d' ∈ l, d ≠ d' := by
  cases l with
  | nil => cases h
  | cons a l =>
    refine ⟨List.mem_cons_of_mem _ h, a, by simp, ?_⟩
    rintro rfl
    exact (List.nodup_cons.1 hn).1 h

theorem dropLast_other (l : List Nat) (hn : l.Nodup) (d : Nat) (h : d ∈ l.dropLast) :
    d ∈ l ∧ ∃ d' ∈ l, d ≠ d' := by
  have hne : l ≠ [] := by rintro rfl; cases h
  have hl := List.dropLast_concat_getLast hne
  refine ⟨(List.dropLast_sublist l).mem h, _, List.getLast_mem hne, ?_⟩
  intro he
  rw [← hl] at hn
  exact (List.nodup_append.1 hn).2.2 d h _ (List.mem_singleton.2 rfl) he

/-! ### The module -/

/-- What is reported for the contents of a context is justified. -/
theorem contents_reason (i : ToolInput) (ok : InputOK i) (lk : LookupOK i.world) (mo : MembersOK i.world)
    (name : Str) (g : Graph) (b : Building) (h : buildGraph i.world.toWorld i.tree = (some g, b)) (x : Nat)
    (hx : WrittenOut i name b.storage g x) (q : Diag)
    (hq : ContextSaid i.world b.storage (analyze i.world.toWorld b.storage i.members name g).vis x q) :
    ModuleReason i name b.storage g q := by
  have hcg := C23_graphs i.world.toWorld i.tree ok.unit g b h
  have hd := derived_built i.world i.tree ok.unit g b h
  have hv := fun d => shown_iff i.world b.storage i.members name g hcg x d hx.1.1 hx.1.2.1
  have hget := getters_iff i.world lk b.storage hd _ g x hv
  have hset := setters_iff i.world lk b.storage hd _ g x hv
  rcases hq with ⟨d, hdm, hq⟩ | ⟨d, hdm, a, ha, hvis, hq⟩ | ⟨hk, n, hq⟩
  · exact .member x d q hx ((considered_iff i.world lk b.storage x d).1 hdm) (insert_said _ _ _ hq)
  · have hc := (considered_iff i.world lk b.storage x d).1 hdm
    have hvd : VisibleIn i.world b.storage g x d := by
      rw [← hv]
      unfold shown
      rw [ha]
      exact hvis
    have hclass : (i.world.info d).kind = .constructor ∨ (i.world.info d).kind = .field →
        (i.world.info x).kind = .record := by
      intro hkd
      rcases hc with ⟨m, ⟨f, hf, _, rfl, _⟩, hdm⟩ | ⟨hk, _⟩
      · exact mo.ofClass x f hf d hdm hkd
      · exact hk
    have hunit : (i.world.info d).kind = .var → (i.world.info d).inTranslationUnit = true →
        (i.world.info x).kind ≠ .record := by
      intro hkd hu
      rcases hc with ⟨m, ⟨f, hf, _, rfl, _⟩, hdm⟩ | ⟨_, y, hy, hyd, _⟩
      · exact mo.ofUnit x f hf d hdm hkd hu
      · have := lk.operators x y hy d hyd
        simp [overloadsOperator, hkd, DeclKind.isFunction] at this
    rcases decl_said i.world ok.emit b.storage hd x d a ha hclass hunit q hq with
      ⟨hf, f, hp⟩ | ⟨h1, h2, h3, h4, h5, h6, rfl⟩
    · obtain ⟨m, n, p, r, h1, h2, h3, h4, h5, h6, rfl⟩ := parameters_said f _ q hp
      exact .parameter x d m n p r hx hc hvd hf h1 h2 h3 h4 h5 h6
    · exact .unnamed x d hx hc hvd h1 h2 h3 h4 h5 h6
  · have hgn : (getters i.world b.storage (analyze i.world.toWorld b.storage i.members name g).vis x
        (proposedDecls i.world (Exposer.create i.world b.storage x) x) n).Nodup :=
      proposed_once i.world lk mo b.storage x hk _ (filter_method i.world b.storage hd _ x _)
    have hsn : (setters i.world b.storage (analyze i.world.toWorld b.storage i.members name g).vis x
        (proposedDecls i.world (Exposer.create i.world b.storage x) x) n).Nodup :=
      proposed_once i.world lk mo b.storage x hk _ (filter_method i.world b.storage hd _ x _)
    rcases hq with ⟨d, hd', rfl⟩ | ⟨d, hd', rfl⟩ | ⟨d, hd', rfl⟩ | ⟨d, hd', hn, rfl⟩
    · obtain ⟨h1, d', h2, h3⟩ := tail_other _ hgn d hd'
      exact .getter x n d d' hx hk ((hget ..).1 h1) ((hget ..).1 h2) h3
    · obtain ⟨h1, d', h2, h3⟩ := tail_other _ hsn d hd'
      exact .setter x n d d' hx hk ((hset ..).1 h1) ((hset ..).1 h2) h3
    · rcases hd' with hd' | hd'
      · obtain ⟨h1, d', h2, h3⟩ := dropLast_other _ hgn d hd'
        exact .replaced x n d d' hx hk (.inl ⟨(hget ..).1 h1, (hget ..).1 h2⟩) h3
      · obtain ⟨h1, d', h2, h3⟩ := dropLast_other _ hsn d hd'
        exact .replaced x n d d' hx hk (.inr ⟨(hset ..).1 h1, (hset ..).1 h2⟩) h3
    · refine .unreadable x n d hx hk ((hset ..).1 hd') ?_
      rintro ⟨d', hd''⟩
      have := (hget ..).2 hd''
      rw [hn] at this
      cases this

/-- What is reported while the module is written is justified. -/
theorem emit_reason (i : ToolInput) (ok : InputOK i) (lk : LookupOK i.world) (mo : MembersOK i.world)
    (name : Str) (g : Graph) (b : Building) (h : buildGraph i.world.toWorld i.tree = (some g, b))
    (streams : Nat) (q : Diag)
    (hq : q ∈ (emitModule i.world b.storage (analyze i.world.toWorld b.storage i.members name g).pruned
      (analyze i.world.toWorld b.storage i.members name g).vis i.pick
      (i.iterate (analyze i.world.toWorld b.storage i.members name g).pruned) streams name).diags) :
    ModuleReason i name b.storage g q := by
  have hcg := C23_graphs i.world.toWorld i.tree ok.unit g b h
  have hd := derived_built i.world i.tree ok.unit g b h
  have hi := emitInput i ok g b h name
  have hk := kept_nodes i.world.toWorld b.storage i.members name g hcg
  unfold emitModule at hq
  dsimp only at hq
  cases hs : declContextsSortedByDependencies i.world.toWorld i.world.bases i.pick
      (i.iterate (analyze i.world.toWorld b.storage i.members name g).pruned)
      (analyze i.world.toWorld b.storage i.members name g).pruned
      (findEnclosingScopes i.world.toWorld b.storage
        (analyze i.world.toWorld b.storage i.members name g).pruned) with
  | mk order r =>
    rw [hs] at hq
    cases r with
    | some cycle =>
      simp only [List.mem_singleton] at hq
      subst hq
      obtain ⟨⟨c, h1, h2⟩, _⟩ := C32_reported_partial i.world.toWorld b.storage _ hi.graph i.world.bases
        hi.bases i.pick hi.picks _ hi.perm order cycle hs
      exact .dependency c cycle h1 h2
    | none =>
      dsimp only at hq
      have hv := C29_order i.world.toWorld b.storage _ hi.graph i.world.bases hi.bases i.pick hi.picks _
        hi.perm order hs
      have hnd : order.Nodup := hv.perm.nodup_iff.2 hi.graph.nodup
      have hnm := named_all i.world b.storage order hnd
      rcases items_said i.world ok.emit _ _ _ _ b.storage hd _ hnm.exposers q _ 0
        ⟨fun _ => rfl, fun _ _ => rfl⟩ hq with hq | ⟨x, hx, hq⟩
      · cases hq
      · rw [hnm.contexts] at hx
        exact contents_reason i ok lk mo name g b h x
          ((hk x).1 (hv.perm.mem_iff.1 (List.mem_filter.1 hx).1)) q hq

/-- Everything that is reported during a run is justified. -/
theorem run_reason (i : ToolInput) (ok : InputOK i) (lk : LookupOK i.world) (mo : MembersOK i.world)
    (name : Str) (outputs : List Str) (q : Diag) (hq : q ∈ (handleTranslationUnit i name outputs).diags) :
    SourceReason i.world.toWorld i.tree q ∨ ∃ g b, buildGraph i.world.toWorld i.tree = (some g, b) ∧
      ModuleReason i name b.storage g q := by
  have hbuild := build_reason i.world.toWorld i.tree ok.unit q
  unfold handleTranslationUnit at hq
  dsimp only at hq
  cases hr : buildGraph i.world.toWorld i.tree with
  | mk r b =>
    rw [hr] at hq hbuild
    cases r with
    | none => exact .inl (hbuild hq)
    | some g =>
      dsimp only at hq hbuild
      have hb := built i.world.toWorld i.tree ok.unit g b hr
      have hcg := C23_graphs i.world.toWorld i.tree ok.unit g b hr
      have hperm := ok.iterate g
      have hcyc : q ∈ (reportExposeHereCycles i.world.toWorld (i.iterate g) (reachableDeclContexts
          (deriveEffectiveVisibility i.world.toWorld b.storage g)) b.relocated).2 →
          ModuleReason i name b.storage g q := by
        intro hq
        have hq' := hq
        simp only [reportExposeHereCycles, List.mem_map] at hq'
        obtain ⟨a, _, rfl⟩ := hq'
        obtain ⟨x, h1, h2⟩ := (C22_reported i.world.toWorld i.tree ok.unit g b hr (i.iterate g) hperm a).1
          ⟨_, hq, rfl, rfl⟩
        exact .cycle a x h1 h2
      have hunr : q ∈ reportUnreachable i.world.toWorld
          (analyze i.world.toWorld b.storage i.members name g).pruned
          ((i.iterate g).filter (analyze i.world.toWorld b.storage i.members name g).contexts) b.relocated →
          ModuleReason i name b.storage g q := by
        intro hq
        have hq' := hq
        simp only [reportUnreachable, List.mem_map] at hq'
        obtain ⟨y, _, rfl⟩ := hq'
        obtain ⟨x, hx, hn, h1, h2⟩ := (mem_reportUnreachable ..).1 ⟨_, hq, rfl⟩
        obtain ⟨h3, h4, h5⟩ := (contexts_analysis hcg x).1 (List.mem_filter.1 hx).2
        refine .hidden x y h3 ?_ h4 h5
          (fun hw => h1 ((kept_nodes i.world.toWorld b.storage i.members name g hcg x).2 hw)) ?_
        · rintro rfl
          rw [hcg.root_kind] at hn
          cases hn
        · cases hrel : b.relocated x with
          | some a =>
            rw [hrel] at h2
            have h2 : y = a := h2
            subst h2
            exact .inl ((relocated_iff hb _ x).1 hrel)
          | none =>
            rw [hrel] at h2
            refine .inr ⟨h2, ?_⟩
            rintro ⟨a, ha⟩
            rw [(relocated_iff hb a x).2 ha] at hrel
            cases hrel
      have hbase : q ∈ b.diags ++ (reportExposeHereCycles i.world.toWorld (i.iterate g) (reachableDeclContexts
          (deriveEffectiveVisibility i.world.toWorld b.storage g)) b.relocated).2 ++
          reportUnreachable i.world.toWorld (analyze i.world.toWorld b.storage i.members name g).pruned
          ((i.iterate g).filter (analyze i.world.toWorld b.storage i.members name g).contexts) b.relocated →
          SourceReason i.world.toWorld i.tree q ∨ ∃ g' b', (some g, b) = (some g', b') ∧
            ModuleReason i name b'.storage g' q := by
        intro hq
        rcases List.mem_append.1 hq with hq | hq
        · rcases List.mem_append.1 hq with hq | hq
          · exact .inl (hbuild hq)
          · exact .inr ⟨g, b, rfl, hcyc hq⟩
        · exact .inr ⟨g, b, rfl, hunr hq⟩
      split at hq
      · rcases List.mem_append.1 hq with hq | hq
        · exact .inl (hbuild hq)
        · exact .inr ⟨g, b, rfl, hcyc hq⟩
      · split at hq
        · exact hbase hq
        · split at hq
          · exact hbase hq
          · rcases List.mem_append.1 hq with hq | hq
            · exact hbase hq
            · exact .inr ⟨g, b, rfl, emit_reason i ok lk mo name g b hr _ q hq⟩

end Verif
