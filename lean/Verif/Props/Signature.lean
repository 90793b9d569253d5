import Verif.Lemmas.Signature
import Verif.Props.Exposer
/-!
# C66: documentation, named arguments and call policies
-/
namespace Verif
open Spec

theorem generic_signature (w : EmitWorld) (ok : EmitOK w) (s : Storage) (hd : Derived w s) (x : Nat)
    (a : DeclAttrs) (ha : attrsOf w s x = some a) (t : Stmt) (ht : t ∈ (handleDeclGeneric w a x).stmts) :
    (∀ d b n p doc args policies, t = .function d b n p doc args policies →
      d = x ∧ Signature w d doc args policies) ∧
    (∀ d types doc args policies, t ≠ .init d types doc args policies) ∧
    (∀ d n l doc, t ≠ .operator d n l doc) := by
  unfold handleDeclGeneric at ht
  split at ht
  · cases ht
  split at ht
  · split at ht
    · cases ht
    · split at ht
      · cases ht
      · simp only [List.mem_singleton] at ht
        subst ht
        exact ⟨by nofun, by nofun, by nofun⟩
  split at ht
  · split at ht
    · split at ht
      · cases ht
      · simp only [List.mem_singleton] at ht
        subst ht
        exact ⟨by nofun, by nofun, by nofun⟩
    · split at ht
      · cases ht
      · simp only [List.mem_singleton] at ht
        subst ht
        exact ⟨by nofun, by nofun, by nofun⟩
  cases hf : a.function with
  | none =>
    rw [hf] at ht
    cases hm : a.method with
    | none => rw [hm] at ht; cases ht
    | some m =>
      rw [hm] at ht
      dsimp only at ht
      split at ht <;> cases ht
  | some f =>
    have ht : t = .function x ((w.info x).kind.isMethod && (w.fn x).isStatic)
        (emitSpelling (w.info x) a.named (if (w.info x).operator = some .call then t%"__call__" else []))
        (emitFunctionPointer w x) (getDocstring w x)
        (emitParameters f ((w.fn x).params.map (·.param))).1 (emitPolicies f) := by
      rw [hf] at ht
      cases hm : a.method with
      | none =>
        rw [hm] at ht
        simp only [Bool.false_eq_true, if_false] at ht
        split at ht
        · cases ht
        · exact List.mem_singleton.1 ht
      | some m =>
        rw [hm] at ht
        dsimp only at ht
        split at ht
        · cases ht
        · split at ht
          · cases ht
          · exact List.mem_singleton.1 ht
    subst ht
    refine ⟨?_, by nofun, by nofun⟩
    intro d b n p doc args policies e
    simp only [Stmt.function.injEq] at e
    obtain ⟨rfl, -, -, -, rfl, rfl, rfl⟩ := e
    exact ⟨rfl, signature_eq w ok s hd _ a ha f hf⟩

theorem record_signature (w : EmitWorld) (ok : EmitOK w) (s : Storage) (hd : Derived w s) (r x : Nat)
    (a : DeclAttrs) (ha : attrsOf w s x = some a) (t : Stmt)
    (ht : t ∈ (handleDeclRecord w r [] a x).2.stmts) :
    (∀ d b n p doc args policies, t = .function d b n p doc args policies → Signature w d doc args policies) ∧
    (∀ d types doc args policies, t = .init d types doc args policies → Signature w d doc args policies) ∧
    (∀ d n l doc, t = .operator d n l doc → Documentation w d doc) := by
  have sh := attrsOf_shape w s hd x a ha
  unfold handleDeclRecord at ht
  cases hc : a.constructor with
  | some c =>
    rw [hc] at ht
    dsimp only at ht
    obtain ⟨f, hf⟩ : ∃ f, a.function = some f := by
      refine Option.isSome_iff_exists.1 (sh.function.2 ?_)
      have := sh.constructor.1 (by rw [hc]; rfl)
      exact .inr (.inr (.inl this))
    rw [hf, Option.getD_some] at ht
    have hsig := signature_eq w ok s hd x a ha f hf
    split at ht
    · cases ht
    have : ∀ u : Stmt, u = .init x ((w.fn x).params.map (·.originalType)) (getDocstring w x)
          (emitParameters f ((w.fn x).params.map (·.param))).1 (emitPolicies f) →
        (∀ d b n p doc args policies, u = .function d b n p doc args policies →
          Signature w d doc args policies) ∧
        (∀ d types doc args policies, u = .init d types doc args policies → Signature w d doc args policies) ∧
        (∀ d n l doc, u = .operator d n l doc → Documentation w d doc) := by
      rintro u rfl
      refine ⟨by nofun, ?_, by nofun⟩
      intro d types doc args policies e
      simp only [Stmt.init.injEq] at e
      obtain ⟨rfl, -, rfl, rfl, rfl⟩ := e
      exact hsig
    split at ht
    · split at ht
      · cases ht
      · simp only [List.mem_cons, List.not_mem_nil, or_false] at ht
        rcases ht with rfl | rfl
        · exact ⟨by nofun, by nofun, by nofun⟩
        · exact this _ rfl
    · simp only [List.mem_singleton] at ht
      exact this _ ht
  | none =>
    rw [hc] at ht
    dsimp only at ht
    split at ht
    · split at ht
      · cases ht
      split at ht
      · cases ht
      split at ht
      · cases ht
      · split at ht
        · cases ht
        · simp only [List.mem_singleton] at ht
          subst ht
          exact ⟨by nofun, by nofun, by nofun⟩
      · split at ht
        · cases ht
        · simp only [List.mem_singleton] at ht
          subst ht
          refine ⟨by nofun, by nofun, ?_⟩
          intro d n l doc e
          simp only [Stmt.operator.injEq] at e
          obtain ⟨rfl, -, -, rfl⟩ := e
          exact documentation_eq w _
    · split at ht
      · cases ht
      · split at ht
        · split at ht
          · split at ht
            · cases ht
            · simp only [List.mem_singleton] at ht
              subst ht
              exact ⟨by nofun, by nofun, by nofun⟩
          · simp only [List.mem_singleton] at ht
            subst ht
            exact ⟨by nofun, by nofun, by nofun⟩
        · obtain ⟨h1, h2, h3⟩ := generic_signature w ok s hd x a ha t ht
          exact ⟨fun d b n p doc args policies e => (h1 d b n p doc args policies e).2,
            fun d types doc args policies e => absurd e (h2 _ _ _ _ _),
            fun d n l doc e => absurd e (h3 _ _ _ _)⟩

theorem properties_only (w : EmitWorld) (m : PropertyMap) : ∀ t ∈ (emitProperties w m).stmts,
    ∃ n g st, t = .property n g st := by
  induction m with
  | nil => intro t ht; cases ht
  | cons p m ih =>
    obtain ⟨name, p⟩ := p
    intro t ht
    unfold emitProperties at ht
    dsimp only at ht
    split at ht
    · split at ht
      · exact ih t ht
      · exact ih t ht
    · rcases List.mem_cons.1 ht with rfl | ht
      · exact ⟨_, _, _, rfl⟩
      · exact ih t ht

theorem context_signature (w : EmitWorld) (ok : EmitOK w) (s : Storage) (hd : Derived w s)
    (vis : Visibilities) (e : Exposer) (he : ∀ x, e ≠ .enum x) (c : Nat) (t : Stmt)
    (ht : t ∈ (exposeContext w vis s e c).emitted.stmts) :
    (∀ d b n p doc args policies, t = .function d b n p doc args policies → Signature w d doc args policies) ∧
    (∀ d types doc args policies, t = .init d types doc args policies → Signature w d doc args policies) ∧
    (∀ d n l doc, t = .operator d n l doc → Documentation w d doc) := by
  rcases stmt_origin w vis s e he c t ht with ⟨x, a, ha, hx⟩ | ⟨m, hm⟩
  · have hgen : t ∈ (handleDeclGeneric w a x).stmts →
        (∀ d b n p doc args policies, t = .function d b n p doc args policies →
          Signature w d doc args policies) ∧
        (∀ d types doc args policies, t = .init d types doc args policies → Signature w d doc args policies) ∧
        (∀ d n l doc, t = .operator d n l doc → Documentation w d doc) := by
      intro ht
      obtain ⟨h1, h2, h3⟩ := generic_signature w ok s hd x a ha t ht
      exact ⟨fun d b n p doc args policies e => (h1 d b n p doc args policies e).2,
        fun d types doc args policies e => absurd e (h2 _ _ _ _ _),
        fun d n l doc e => absurd e (h3 _ _ _ _)⟩
    cases e with
    | plain => exact hgen hx
    | «namespace» y => exact hgen hx
    | enum y => exact absurd rfl (he y)
    | record r p => exact record_signature w ok s hd r x a ha t hx
  · cases e with
    | plain =>
      simp only [finalStmts, List.mem_singleton] at hm
      subst hm
      exact ⟨by nofun, by nofun, by nofun⟩
    | «namespace» y =>
      simp only [finalStmts, List.mem_singleton] at hm
      subst hm
      exact ⟨by nofun, by nofun, by nofun⟩
    | enum y => exact absurd rfl (he y)
    | record r p =>
      obtain ⟨n, g, st, rfl⟩ := properties_only w m t hm
      exact ⟨by nofun, by nofun, by nofun⟩

/-- C66: the documentation, arguments and policies of an exposed function are those of
its own comment, parameters and annotations. -/
theorem C66_function (w : EmitWorld) (ok : EmitOK w) (s : Storage) (hd : Derived w s)
    (vis : Visibilities) (e : Exposer) (he : ∀ x, e ≠ .enum x) (c : Nat) (d : Nat) (isStatic : Bool)
    (name : Str) (p : FnPtr) (doc : Str) (args : List ArgOut) (policies : List PolicyOut)
    (h : .function d isStatic name p doc args policies ∈ (exposeContext w vis s e c).emitted.stmts) :
    Signature w d doc args policies :=
  (context_signature w ok s hd vis e he c _ h).1 _ _ _ _ _ _ _ rfl

/-- C66: so are those of an exposed constructor. -/
theorem C66_constructor (w : EmitWorld) (ok : EmitOK w) (s : Storage) (hd : Derived w s)
    (vis : Visibilities) (e : Exposer) (he : ∀ x, e ≠ .enum x) (c : Nat) (d : Nat) (types : List Str)
    (doc : Str) (args : List ArgOut) (policies : List PolicyOut)
    (h : .init d types doc args policies ∈ (exposeContext w vis s e c).emitted.stmts) :
    Signature w d doc args policies :=
  (context_signature w ok s hd vis e he c _ h).2.1 _ _ _ _ _ rfl

/-- C66: operators are documented, too (but have no named arguments or policies). -/
theorem C66_operator (w : EmitWorld) (ok : EmitOK w) (s : Storage) (hd : Derived w s)
    (vis : Visibilities) (e : Exposer) (he : ∀ x, e ≠ .enum x) (c : Nat) (d : Nat) (name : Str)
    (l : OpLambda) (doc : Str)
    (h : .operator d name l doc ∈ (exposeContext w vis s e c).emitted.stmts) :
    Documentation w d doc :=
  (context_signature w ok s hd vis e he c _ h).2.2 _ _ _ _ rfl

/-- `exEmit` with a function template 40 that has been instantiated as 33, where
`/// Text.` is in front of the template and `return_value_policy(copy),
return_value_policy(move), noconvert(x)` annotates it. -/
def exDoc : EmitWorld :=
  { exEmit with
    info := fun d => if d = 33 then
        { kind := .function, name := t%"f", params := [t%"x"], minRequired := 1
          attrTexts := [lozenge ++
            t%"visible, return_value_policy(copy), return_value_policy(move), noconvert(x)"] }
      else exEmit.info d
    fn := fun d => if d = 33 then { exPlain t%"f" 1 with primary := some 40 } else exEmit.fn d
    brief := fun d => if d = 40 then t%"Text." else [] }

theorem exDoc_stmt : Stmt.function 33 false t%"f" ⟨33, [t%"int"], t%"f", false⟩ t%"Text."
    [⟨t%"x", true, false, none⟩] [.returnValuePolicy t%"move"] ∈
    (exposeContext exDoc exAll .empty .plain 0).emitted.stmts := by decide +kernel

theorem exDoc_ok : EmitOK exDoc := by
  refine ⟨fun t l hl => by simp [exDoc, exEmit] at hl, fun r f hf => by simp [exDoc, exEmit] at hf, ?_, fun _ _ => rfl⟩
  intro d
  by_cases h : d = 33
  · subst h; rfl
  · have := exEmit_ok.params d
    simp only [exDoc, if_neg h]
    exact this

example : Signature exDoc 33 t%"Text." [⟨t%"x", true, false, none⟩] [.returnValuePolicy t%"move"] :=
  C66_function exDoc exDoc_ok .empty (empty_derived _) exAll .plain (by simp) 0 _ _ _ _ _ _ _ exDoc_stmt

/-- C66: the hypotheses are met by constructor 2 and operator 12 of `exEmit`. -/
example : Stmt.init 2 [t%"int"] [] [⟨t%"x", false, false, none⟩] [] ∈
    (exposeContext exEmit exAll .empty (.record 1 ⟨[], []⟩) 1).emitted.stmts := by decide +kernel
example : (exposeContext exEmit exAll .empty (.record 1 ⟨[], []⟩) 1).emitted.stmts.filterMap (fun
    | .operator d n _ doc => some (d, n, doc)
    | _ => none) = [(12, t%"__add__", [])] := by decide +kernel

end Verif
