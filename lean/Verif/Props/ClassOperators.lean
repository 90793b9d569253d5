import Verif.Props.Exposer
import Verif.Props.Operators
import Verif.Spec.ClassOperators
/-!
# C59, C60: the operators of a class
-/
namespace Verif
open Spec

theorem overloads_iff (d : DeclInfo) : overloadsOperator d =
    (supportsOperator d && decide (d.kind ≠ .constructor)) := by
  unfold overloadsOperator supportsOperator isOperator
  cases d.kind <;> cases d.operator <;> simp [DeclKind.isFunction]

theorem shape_constructor {d : DeclInfo} {a : DeclAttrs} (sh : Shape d a) :
    a.constructor.isSome = decide (d.kind = .constructor) := by
  rw [Bool.eq_iff_iff, sh.constructor]
  simp

theorem isOstream_eq (w : EmitWorld) (d : Nat) (h : (w.fn d).firstPointee ≠ .unnamed) :
    isOstreamOperator w d = some (printsToStream w d) := by
  unfold isOstreamOperator printsToStream
  by_cases h1 : (w.info d).kind.isMethod = true
  · simp [h1]
  · simp only [h1]
    by_cases h2 : (w.info d).operator = some .lessLess
    · simp only [h2]
      cases hp : (w.fn d).firstPointee with
      | unnamed => exact absurd hp h
      | none => simp
      | named b => cases b <;> simp
    · simp [h2]

theorem operands_eq (w : EmitWorld) (r d : Nat) : operandTypes w r d =
    (selfParam w r d).toList ++ (w.fn d).params.map (·.type) := by
  unfold operandTypes selfParam
  split <;> rfl

/-- The name and definition of an operator. -/
def operatorFor (w : EmitWorld) (r d : Nat) : Option (Str × OpLambda) :=
  (w.info d).operator.bind fun k =>
    emitOperator r k (selfParam w r d) ((w.fn d).params.map (·.type)) (w.fn d).returnType

theorem noCounterpart_iff (r : Nat) (k : OperatorKind) (self : Option CppType) (ps : List CppType) (ret : Str) :
    (emitOperator r k self ps ret).isSome = !noCounterpart k (self.toList ++ ps).length := by
  unfold emitOperator
  generalize (self.toList ++ ps) = types
  have h1 : neverExposed k = [.new, .delete, .arrayNew, .arrayDelete, .equal, .spaceship, .ampAmp,
      .pipePipe, .plusPlus, .minusMinus, .comma, .arrow, .arrowStar, .call, .subscript].contains k :=
    forall_kinds (P := fun k => neverExposed k = [.new, .delete, .arrayNew, .arrayDelete, .equal,
      .spaceship, .ampAmp, .pipePipe, .plusPlus, .minusMinus, .comma, .arrow, .arrowStar, .call,
      .subscript].contains k) (by decide +kernel) k
  unfold noCounterpart
  rw [← h1]
  cases neverExposed k with
  | true => rfl
  | false =>
    dsimp only
    by_cases hl : types.length = 1 <;> by_cases hs : k = .star <;> by_cases ha : k = .amp <;>
      simp [hl, hs, ha]

/-- What is written for an operator. -/
theorem record_operator (w : EmitWorld) (s : Storage) (hd : Derived w s) (r : Nat) (d : Nat)
    (a : DeclAttrs) (ha : attrsOf w s d = some a) (hp : (w.fn d).firstPointee ≠ .unnamed) :
    (handleDeclRecord w r [] a d).2.stmts.filterMap operatorOf =
      (if definesOperator w r d then (operatorFor w r d).map (d, ·) else none).toList ∧
    (handleDeclRecord w r [] a d).2.stmts.filterMap streamOf =
      (if overloadsOperator (w.info d) = true ∧ (w.fn d).isDeleted = false ∧
          printsToStream w d = true ∧ a.named.spelling ≠ []
        then some (d, a.named.spelling, w.typeName r) else none).toList := by
  have sh := attrsOf_shape w s hd d a ha
  have hc := shape_constructor sh
  unfold handleDeclRecord
  cases hcs : a.constructor with
  | some c =>
    rw [hcs] at hc
    have hk : (w.info d).kind = .constructor := by simpa using hc.symm
    have ho : overloadsOperator (w.info d) = false := by simp [overloadsOperator, hk]
    dsimp only
    simp only [definesOperator, ho, Bool.false_and, Bool.false_eq_true, if_false, false_and]
    constructor <;> repeat' (first | rfl | split)
  | none =>
    rw [hcs] at hc
    have hk : (w.info d).kind ≠ .constructor := by simpa using hc.symm
    have ho : overloadsOperator (w.info d) = supportsOperator (w.info d) := by
      rw [overloads_iff]
      simp [hk]
    dsimp only
    rw [isOstream_eq w d hp]
    unfold definesOperator
    rw [ho, operands_eq]
    cases hs : supportsOperator (w.info d) with
    | true =>
      simp only [if_true, Bool.true_and, true_and]
      cases hdel : (w.fn d).isDeleted with
      | true => simp [Emitted.none]
      | false =>
        simp only [Bool.false_eq_true, if_false, Bool.not_false, Bool.true_and, true_and]
        cases hop : (w.info d).operator with
        | none =>
          exfalso
          unfold supportsOperator at hs
          rw [hop] at hs
          simp at hs
        | some k =>
          dsimp only
          cases hpr : printsToStream w d with
          | true =>
            simp only [Bool.not_true, Bool.false_and, Bool.false_eq_true, if_false, true_and]
            cases hsp : a.named.spelling with
            | nil => exact ⟨rfl, rfl⟩
            | cons x l =>
              refine ⟨rfl, ?_⟩
              simp [streamOf]
          | false =>
            simp only [Bool.not_false, Bool.true_and, Bool.false_eq_true, false_and, if_false]
            have hn := noCounterpart_iff r k (selfParam w r d) ((w.fn d).params.map (·.type))
              (w.fn d).returnType
            simp only [Option.any_some]
            unfold operatorFor
            simp only [hop, Option.bind_some]
            revert hn
            generalize emitOperator r k (selfParam w r d) ((w.fn d).params.map (·.type))
              (w.fn d).returnType = e
            generalize noCounterpart k _ = b
            intro hn
            cases e <;> cases b <;> simp_all [operatorOf, streamOf, Emitted.none]
    | false =>
      simp only [Bool.false_eq_true, if_false, Bool.false_and, false_and]
      have hg : ∀ {γ : Type} (sel : Stmt → Option γ), (∀ d n t, sel (.typeAttr d n t) = none) →
          (∀ d l, sel (.manual d l) = none) → (∀ d n q, sel (.valueAttr d n q) = none) →
          (∀ d b n p doc as ps, sel (.function d b n p doc as ps) = none) →
          (handleDeclGeneric w a d).stmts.filterMap sel = [] := by
        intro γ sel h1 h2 h3 h4
        unfold handleDeclGeneric
        have one : ∀ st ds, sel st = none → ({ stmts := [st], diags := ds } : Emitted).stmts.filterMap sel = [] := by
          intro st ds h
          simp [h]
        split
        · rfl
        · split
          · split
            · rfl
            · split
              · rfl
              · exact one _ _ (h1 _ _ _)
          · split
            · split
              · split
                · rfl
                · exact one _ _ (h2 _ _)
              · split
                · rfl
                · exact one _ _ (h3 _ _ _)
            · have : ∀ c : Bool, (if c = true then Emitted.none else match a.function with
                | some f =>
                  if (w.fn d).isDeleted then Emitted.none
                  else
                    let fallback := if (w.info d).operator = some .call then t%"__call__" else []
                    let args := emitParameters f ((w.fn d).params.map (·.param))
                    { stmts := [.function d ((w.info d).kind.isMethod && (w.fn d).isStatic)
                        (emitSpelling (w.info d) a.named fallback) (emitFunctionPointer w d)
                        (getDocstring w d) args.1 (emitPolicies f)]
                      diags := args.2 }
                | none => Emitted.none).stmts.filterMap sel = [] := by
                intro c
                split
                · rfl
                · split
                  · split
                    · rfl
                    · exact one _ _ (h4 _ _ _ _ _ _ _)
                  · rfl
              exact this _
      constructor
      · split
        · rfl
        · split
          · split
            · split <;> rfl
            · rfl
          · exact hg _ (fun _ _ _ => rfl) (fun _ _ => rfl) (fun _ _ _ => rfl) (fun _ _ _ _ _ _ _ => rfl)
      · split
        · rfl
        · split
          · split
            · split <;> rfl
            · rfl
          · exact hg _ (fun _ _ _ => rfl) (fun _ _ => rfl) (fun _ _ _ => rfl) (fun _ _ _ _ _ _ _ => rfl)

/-- All operators of a class, in order. -/
theorem operators_written (w : EmitWorld) (s : Storage) (hd : Derived w s) (vis : Visibilities) (r : Nat)
    (p : InliningPolicy) (c : Nat) (hp : ∀ d, (w.fn d).firstPointee ≠ .unnamed) :
    (exposeContext w vis s (.record r p) c).emitted.stmts.filterMap operatorOf =
      ((proposedDecls w (.record r p) c).filter (shown w s vis c)).filterMap fun d =>
        if definesOperator w r d then (operatorFor w r d).map (d, ·) else none := by
  refine selected w vis s (.record r p) c operatorOf _ (fun x hx => by cases hx)
    (fun m => properties_select operatorOf (fun _ _ _ => rfl) w m) ?_
  intro d a ha _
  exact (record_operator w s hd r d a ha (hp d)).1

theorem defines_some (w : EmitWorld) (r d : Nat) (h : definesOperator w r d = true) :
    ∃ k q, (w.info d).operator = some k ∧ operatorFor w r d = some q ∧
      emitOperator r k (selfParam w r d) ((w.fn d).params.map (·.type)) (w.fn d).returnType = some q := by
  unfold definesOperator at h
  simp only [Bool.and_eq_true, Bool.not_eq_true'] at h
  cases hop : (w.info d).operator with
  | none =>
    have := h.1.1.1
    unfold overloadsOperator isOperator at this
    rw [hop] at this
    simp at this
  | some k =>
    have h4 := h.2
    rw [hop, operands_eq] at h4
    have hn := noCounterpart_iff r k (selfParam w r d) ((w.fn d).params.map (·.type)) (w.fn d).returnType
    simp only [Option.any_some] at h4
    rw [h4] at hn
    obtain ⟨q, hq⟩ := Option.isSome_iff_exists.1 (by simpa using hn)
    refine ⟨k, q, rfl, ?_, hq⟩
    unfold operatorFor
    rw [hop]
    exact hq

theorem mem_expand (w : EmitWorld) (l : List Nat) (d : Nat) :
    d ∈ expandTemplates w l ↔ ∃ f ∈ l, d ∈ specializationsOf w f := by
  unfold expandTemplates specializationsOf
  rw [List.mem_flatMap]
  constructor
  · rintro ⟨f, hf, h⟩
    refine ⟨f, hf, ?_⟩
    cases hs : w.specializations f <;> rw [hs] at h <;> exact h
  · rintro ⟨f, hf, h⟩
    refine ⟨f, hf, ?_⟩
    cases hs : w.specializations f <;> rw [hs] at h <;> exact h

theorem mem_specializations_self (w : EmitWorld) (hs : ∀ t l, w.specializations t = some l → ∀ d ∈ l, w.specializations d = none)
    (f d x : Nat) (hd : d ∈ specializationsOf w f) : x ∈ specializationsOf w d ↔ x = d := by
  have : w.specializations d = none := by
    unfold specializationsOf at hd
    cases h : w.specializations f with
    | some l =>
      rw [h] at hd
      exact hs f l h d hd
    | none =>
      rw [h] at hd
      simp only [Option.getD_none, List.mem_singleton] at hd
      subst hd
      exact h
  unfold specializationsOf
  rw [this]
  simp

/-- What is considered for a class: its members, and operators with an operand of the
class. -/
theorem mem_proposed (w : EmitWorld) (r : Nat) (hk : (w.info r).kind = .record) (p : InliningPolicy)
    (hs : ∀ t l, w.specializations t = some l → ∀ d ∈ l, w.specializations d = none) (d : Nat) :
    d ∈ proposedDecls w (.record r p) r ↔ isMember w p r d ∨ isFreeOperator w r d := by
  unfold proposedDecls
  rw [mem_expand]
  simp only [List.mem_append, hk, if_true, Exposer.inliningPolicy]
  constructor
  · rintro ⟨f, hf | hf, h⟩
    · left
      have h1 := (mem_sortDecls ..).1 hf
      unfold collectVisibleDecls at h1
      obtain ⟨x, hx, hfx⟩ := List.mem_filterMap.1 h1
      exact ⟨x, hx, f, hfx, h⟩
    · right
      unfold collectOperators at hf
      obtain ⟨h1, h2⟩ := List.mem_filter.1 hf
      obtain ⟨y, hy, hyf⟩ := (mem_expand ..).1 h1
      have hdf := (mem_specializations_self w hs y f d hyf).1 h
      subst hdf
      refine ⟨y, hy, hyf, ?_⟩
      simpa using h2
  · rintro (⟨x, hx, m, hm, h⟩ | ⟨y, hy, h, q, hq, hr⟩)
    · refine ⟨m, .inl ((mem_sortDecls ..).2 ?_), h⟩
      exact List.mem_filterMap.2 ⟨x, hx, hm⟩
    · refine ⟨d, .inr ?_, (mem_specializations_self w hs y d d h).2 rfl⟩
      unfold collectOperators
      refine List.mem_filter.2 ⟨(mem_expand ..).2 ⟨y, hy, h⟩, ?_⟩
      simp only [List.any_eq_true]
      exact ⟨q, hq, by simpa using hr⟩

/-- C59: the functions exposed as operators of a class are exactly its visible operator
members and the visible free operators with an operand of the class, unless they are
deleted, print to a stream or have no counterpart in Python. -/
theorem C59_operators (w : EmitWorld) (s : Storage) (hd : Derived w s) (vis : Visibilities) (r : Nat)
    (hk : (w.info r).kind = .record) (ok : OperatorsOK w r) (p : InliningPolicy) (d : Nat) :
    (∃ name l, (d, name, l) ∈ (exposeContext w vis s (.record r p) r).emitted.stmts.filterMap operatorOf) ↔
      (isMember w p r d ∨ isFreeOperator w r d) ∧ shown w s vis r d = true ∧
        definesOperator w r d = true := by
  rw [operators_written w s hd vis r p r ok.pointee]
  simp only [List.mem_filterMap, List.mem_filter]
  constructor
  · rintro ⟨name, l, x, ⟨hx, hsh⟩, h⟩
    split at h
    · rename_i hdef
      obtain ⟨q, _, hq⟩ := Option.map_eq_some_iff.1 h
      simp only [Prod.mk.injEq] at hq
      obtain ⟨rfl, _⟩ := hq
      exact ⟨(mem_proposed w r hk p ok.specialized x).1 hx, hsh, hdef⟩
    · cases h
  · rintro ⟨hm, hsh, hdef⟩
    obtain ⟨k, ⟨name, l⟩, _, hq, _⟩ := defines_some w r d hdef
    refine ⟨name, l, d, ⟨(mem_proposed w r hk p ok.specialized d).2 hm, hsh⟩, ?_⟩
    rw [if_pos hdef, hq]
    rfl

/-- What is known about an operator that is written. -/
theorem written_operator (w : EmitWorld) (ok : EmitOK w) (s : Storage) (hd : Derived w s) (vis : Visibilities)
    (r : Nat) (hk : (w.info r).kind = .record) (oo : OperatorsOK w r) (p : InliningPolicy) (d : Nat)
    (name : Str) (l : OpLambda)
    (h : (d, name, l) ∈ (exposeContext w vis s (.record r p) r).emitted.stmts.filterMap operatorOf) :
    ∃ k, (w.info d).operator = some k ∧
      emitOperator r k (selfParam w r d) ((w.fn d).params.map (·.type)) (w.fn d).returnType =
        some (name, l) ∧
      ∃ t ∈ operandTypes w r d, t.record = some r := by
  have hiff := (C59_operators w s hd vis r hk oo p d).1 ⟨name, l, h⟩
  rw [operators_written w s hd vis r p r oo.pointee] at h
  obtain ⟨x, _, hx⟩ := List.mem_filterMap.1 h
  split at hx
  · rename_i hdef
    obtain ⟨q, hq, he⟩ := Option.map_eq_some_iff.1 hx
    simp only [Prod.mk.injEq] at he
    obtain ⟨rfl, rfl⟩ := he
    obtain ⟨k, q', h1, h2, h3⟩ := defines_some w r x hdef
    rw [hq] at h2
    cases h2
    refine ⟨k, h1, h3, ?_⟩
    have ho : overloadsOperator (w.info x) = true := by
      unfold definesOperator at hdef
      simp only [Bool.and_eq_true] at hdef
      exact hdef.1.1.1
    rcases hiff.1 with hm | ⟨f, _, _, q, hq, hr⟩
    · have hmeth := oo.member p x hm ho
      refine ⟨w.selfType r (w.fn x).isConst, ?_, ok.self _ _⟩
      unfold operandTypes
      simp [hmeth]
    · refine ⟨q.type, ?_, hr⟩
      unfold operandTypes
      exact List.mem_append_right _ (List.mem_map.2 ⟨q, hq, rfl⟩)
  · cases hx

/-- C59: a binary operator of a class, applied to `a` and `b` in Python, calls the
method written for it with the operands of the declared types, and evaluates the
operator of C++ on `a` and `b`. -/
theorem C59_binary {V : Type} (apply : OperatorKind → List V → V) (w : EmitWorld) (ok : EmitOK w)
    (s : Storage) (hd : Derived w s) (vis : Visibilities)
    (r : Nat) (hk : (w.info r).kind = .record) (oo : OperatorsOK w r) (p : InliningPolicy) (d : Nat)
    (name : Str) (l : OpLambda)
    (h : (d, name, l) ∈ (exposeContext w vis s (.record r p) r).emitted.stmts.filterMap operatorOf)
    (t0 t1 : CppType) (ht : operandTypes w r d = [t0, t1]) (hn : name ≠ []) (a b : V) :
    ∃ k, (w.info d).operator = some k ∧ ∃ x y tx ty, Calls k.spelling a b name x y ∧
      evalLambda apply l [x, y] = some (apply k [a, b]) ∧
      l.params.map (·.1) = [tx.text, ty.text] ∧ tx.record = some r ∧
      (x = a ∧ y = b ∧ tx = t0 ∧ ty = t1 ∨ x = b ∧ y = a ∧ tx = t1 ∧ ty = t0) := by
  obtain ⟨k, h1, h2, t, ht', hr⟩ := written_operator w ok s hd vis r hk oo p d name l h
  refine ⟨k, h1, C39_binary apply r k _ _ _ name l t0 t1 h2 (by rw [← operands_eq]; exact ht) ?_ hn a b⟩
  rw [ht] at ht'
  simp only [List.mem_cons, List.not_mem_nil, or_false] at ht'
  rcases ht' with rfl | rfl
  · exact .inl hr
  · exact .inr hr

/-- C59: unary operators of a class. -/
theorem C59_unary {V : Type} (apply : OperatorKind → List V → V) (w : EmitWorld) (ok : EmitOK w)
    (s : Storage) (hd : Derived w s) (vis : Visibilities)
    (r : Nat) (hk : (w.info r).kind = .record) (oo : OperatorsOK w r) (p : InliningPolicy) (d : Nat)
    (name : Str) (l : OpLambda)
    (h : (d, name, l) ∈ (exposeContext w vis s (.record r p) r).emitted.stmts.filterMap operatorOf)
    (t0 : CppType) (ht : operandTypes w r d = [t0]) (hn : name ≠ []) (a : V) :
    t0.record = some r ∧ ∃ k, (w.info d).operator = some k ∧ CallsUnary k.spelling name ∧
      evalLambda apply l [a] = some (apply k [a]) ∧ l.params.map (·.1) = [t0.text] := by
  obtain ⟨k, h1, h2, t, ht', hr⟩ := written_operator w ok s hd vis r hk oo p d name l h
  rw [ht] at ht'
  simp only [List.mem_singleton] at ht'
  subst ht'
  exact ⟨hr, k, h1, C39_unary apply r k _ _ _ name l t h2 (by rw [← operands_eq]; exact ht) hn a⟩

/-- C60: a function printing to a stream becomes a method if and only if it is given a
name; the method is for the class itself. -/
theorem C60_stream (w : EmitWorld) (s : Storage) (hd : Derived w s) (vis : Visibilities) (r : Nat)
    (hk : (w.info r).kind = .record) (ok : OperatorsOK w r) (p : InliningPolicy) (d : Nat)
    (name type : Str) :
    (d, name, type) ∈ (exposeContext w vis s (.record r p) r).emitted.stmts.filterMap streamOf ↔
      (isMember w p r d ∨ isFreeOperator w r d) ∧ shown w s vis r d = true ∧
        overloadsOperator (w.info d) = true ∧ (w.fn d).isDeleted = false ∧ printsToStream w d = true ∧
        name ≠ [] ∧ (attrsOf w s d).map (·.named.spelling) = some name ∧ type = w.typeName r := by
  rw [selected w vis s (.record r p) r streamOf (fun d => if overloadsOperator (w.info d) = true ∧
      (w.fn d).isDeleted = false ∧ printsToStream w d = true ∧
      ((attrsOf w s d).map (·.named.spelling)).getD [] ≠ []
      then some (d, ((attrsOf w s d).map (·.named.spelling)).getD [], w.typeName r) else none)
    (fun x hx => by cases hx) (fun m => properties_select streamOf (fun _ _ _ => rfl) w m)
    (by
      intro d a ha _
      rw [ha]
      exact (record_operator w s hd r d a ha (ok.pointee d)).2)]
  simp only [List.mem_filterMap, List.mem_filter]
  constructor
  · rintro ⟨x, ⟨hx, hsh⟩, h⟩
    split at h
    · rename_i hc
      simp only [Option.some.injEq, Prod.mk.injEq] at h
      obtain ⟨rfl, rfl, rfl⟩ := h
      refine ⟨(mem_proposed w r hk p ok.specialized x).1 hx, hsh, hc.1, hc.2.1, hc.2.2.1, hc.2.2.2, ?_, rfl⟩
      cases ha : attrsOf w s x with
      | none =>
        have := hc.2.2.2
        rw [ha] at this
        exact absurd rfl this
      | some a => rfl
    · cases h
  · rintro ⟨hm, hsh, h1, h2, h3, h4, h5, rfl⟩
    refine ⟨d, ⟨(mem_proposed w r hk p ok.specialized d).2 hm, hsh⟩, ?_⟩
    rw [h5]
    simp [h1, h2, h3, h4]

theorem record_decl (w : EmitWorld) (r d : Nat) (a : DeclAttrs) (st : Stmt)
    (h : st ∈ (handleDeclRecord w r [] a d).2.stmts) : declOf st = some d ∧
      (overloadsOperator (w.info d) = true → a.constructor = none →
        (operatorOf st).isSome = true ∨ (streamOf st).isSome = true) := by
  have one : ∀ {st' : Stmt} {ds : List Diag}, declOf st' = some d →
      st ∈ ({ stmts := [st'], diags := ds } : Emitted).stmts → declOf st = some d := by
    intro st' ds h1 h2
    simp only [List.mem_singleton] at h2
    rw [h2]
    exact h1
  unfold handleDeclRecord at h
  cases hc : a.constructor with
  | some c =>
    rw [hc] at h
    dsimp only at h
    refine ⟨?_, fun _ h => by cases h⟩
    split at h
    · cases h
    · split at h
      · split at h
        · cases h
        · simp only [List.mem_cons, List.not_mem_nil, or_false] at h
          rcases h with rfl | rfl <;> rfl
      · exact one rfl h
  | none =>
    rw [hc] at h
    dsimp only at h
    cases hs : supportsOperator (w.info d) with
    | true =>
      rw [hs] at h
      simp only [if_true] at h
      split at h
      · cases h
      · split at h
        · cases h
        · split at h
          · cases h
          · split at h
            · cases h
            · simp only [List.mem_singleton] at h
              subst h
              exact ⟨rfl, fun _ _ => .inr rfl⟩
          · split at h
            · cases h
            · simp only [List.mem_singleton] at h
              subst h
              exact ⟨rfl, fun _ _ => .inl rfl⟩
    | false =>
      rw [hs] at h
      simp only [Bool.false_eq_true, if_false] at h
      refine ⟨?_, fun ho => by rw [overloads_iff, hs] at ho; cases ho⟩
      split at h
      · cases h
      · split at h
        · split at h
          · split at h
            · cases h
            · exact one rfl h
          · exact one rfl h
        · unfold handleDeclGeneric at h
          split at h
          · cases h
          · split at h
            · split at h
              · cases h
              · split at h
                · cases h
                · exact one rfl h
            · split at h
              · split at h
                · split at h
                  · cases h
                  · exact one rfl h
                · split at h
                  · cases h
                  · exact one rfl h
              · repeat' split at h
                all_goals first
                  | exact one rfl h
                  | cases h

/-- C59, C60: nothing else is written for an operator of a class. -/
theorem C59_nothing_else (w : EmitWorld) (s : Storage) (hd : Derived w s) (vis : Visibilities) (r : Nat)
    (p : InliningPolicy) (c d : Nat) (ho : overloadsOperator (w.info d) = true) (st : Stmt)
    (h : st ∈ (exposeContext w vis s (.record r p) c).emitted.stmts) (hst : declOf st = some d) :
    (operatorOf st).isSome = true ∨ (streamOf st).isSome = true := by
  rw [(exposeContext_eq w vis s (.record r p) c (fun x hx => by cases hx)).1] at h
  rcases List.mem_append.1 h with h | h
  · obtain ⟨x, _, hx⟩ := List.mem_flatMap.1 h
    unfold declOutput at hx
    split at hx
    · rename_i a ha
      split at hx
      · obtain ⟨h1, h2⟩ := record_decl w r x a st hx
        rw [hst] at h1
        cases h1
        refine h2 ho ?_
        have hc := shape_constructor (attrsOf_shape w s hd d a ha)
        unfold overloadsOperator at ho
        simp only [Bool.and_eq_true, decide_eq_true_eq] at ho
        cases hcs : a.constructor with
        | none => rfl
        | some c =>
          rw [hcs] at hc
          exact absurd (by simpa using hc.symm) ho.1.2
      · cases hx
    · cases hx
  · unfold finalStmts at h
    dsimp only at h
    rw [emitProperties_stmts] at h
    obtain ⟨q, _, hq⟩ := List.mem_filterMap.1 h
    cases hg : q.2.getter with
    | none =>
      rw [hg] at hq
      cases hq
    | some g =>
      rw [hg] at hq
      simp only [Option.map_some, Option.some.injEq] at hq
      subst hq
      cases hst

/-! ### Examples -/

/-- A parameter of class 1 or of type `int`. -/
def exOperand (isClass : Bool) : FnParam :=
  ⟨{ id := 0, name := t%"x" }, if isClass then ⟨t%"const ::S &", some 1⟩ else ⟨t%"int", none⟩, t%"int"⟩

/-- In addition to `exEmit`: `S operator-(int, const S &)` (40), a template of
`int operator*(const S &, T)` (41) with specialization 42, `int operator*(int, E)` (43),
a deleted `operator==` (44), `operator<<(std::ostream &, const S &)` with and without
name (45, 46), and `S &operator*()` in the class (47). -/
def exOperators : EmitWorld := { exEmit with
  info := fun
    | 40 => { kind := .function, name := t%"operator-", nameIsIdentifier := false, operator := some .minus,
              params := [t%"x", t%"x"], minRequired := 2 }
    | 41 => { kind := .other, name := t%"operator*", nameIsIdentifier := false }
    | 42 => { kind := .function, name := t%"operator*", nameIsIdentifier := false, operator := some .star,
              params := [t%"x", t%"x"], minRequired := 2 }
    | 43 => { kind := .function, name := t%"operator*", nameIsIdentifier := false, operator := some .star,
              params := [t%"x", t%"x"], minRequired := 2 }
    | 44 => { kind := .function, name := t%"operator==", nameIsIdentifier := false,
              operator := some .equalEqual, params := [t%"x", t%"x"], minRequired := 2 }
    | 45 => { kind := .function, name := t%"operator<<", nameIsIdentifier := false,
              operator := some .lessLess, params := [t%"x", t%"x"], minRequired := 2
              attrTexts := [lozenge ++ t%"expose_as(__str__)"] }
    | 46 => { kind := .function, name := t%"operator<<", nameIsIdentifier := false,
              operator := some .lessLess, params := [t%"x", t%"x"], minRequired := 2 }
    | 47 => { kind := .method, name := t%"operator*", nameIsIdentifier := false, operator := some .star }
    | d => exEmit.info d
  fn := fun
    | 40 => { exPlain t%"operator-" with params := [exOperand false, exOperand true] }
    | 42 => { exPlain t%"operator*" with params := [exOperand true, exOperand false] }
    | 43 => { exPlain t%"operator*" with params := [exOperand false, exOperand false] }
    | 44 => { exPlain t%"operator==" with params := [exOperand true, exOperand true], isDeleted := true }
    | 45 => { exPlain t%"operator<<" with params := [exOperand false, exOperand true]
                                          firstPointee := .named true }
    | 46 => { exPlain t%"operator<<" with params := [exOperand false, exOperand true]
                                          firstPointee := .named true }
    | d => exEmit.fn d
  specializations := fun d => if d = 41 then some [42] else none
  found := fun
    | 1 => [12, 47].map fun d => ⟨d, none, false, .public, false, false, some 1, none⟩
    | _ => []
  associated := fun d => if d = 1 then [40, 41, 43, 44, 45, 46] else [] }

/-- `S + int`, `int - S` and `S * int`. -/
example : (exposeContext exOperators exAll .empty (.record 1 ⟨[], []⟩) 1).emitted.stmts.filterMap operatorOf =
    [(12, t%"__add__", ⟨[(t%"::S", .lhs), (t%"int", .rhs)], t%"int", .binary .lhs .plus .rhs⟩),
     (40, t%"__rsub__", ⟨[(t%"const ::S &", .lhs), (t%"int", .rhs)], t%"int", .binary .rhs .minus .lhs⟩),
     (42, t%"__mul__", ⟨[(t%"const ::S &", .lhs), (t%"int", .rhs)], t%"int", .binary .lhs .star .rhs⟩)] := by
  decide +kernel
example : (exposeContext exOperators exAll .empty (.record 1 ⟨[], []⟩) 1).emitted.stmts.filterMap streamOf =
    [(45, t%"__str__", t%"::S")] := by decide +kernel

theorem exOperators_ok : OperatorsOK exOperators 1 := by
  refine ⟨?_, ?_, ?_⟩
  · intro t l h d hd
    simp only [exOperators] at h
    split at h
    · simp only [Option.some.injEq] at h
      subst h
      simp only [List.mem_singleton] at hd
      subst hd
      rfl
    · cases h
  · rintro p d ⟨f, hf, m, hm, hd⟩ _
    have hf' : f.decl = 12 ∧ f.shadows = none ∨ f.decl = 47 ∧ f.shadows = none := by
      simp only [exOperators, List.map_cons, List.map_nil, List.mem_cons, List.not_mem_nil, or_false] at hf
      rcases hf with rfl | rfl
      · exact .inl ⟨rfl, rfl⟩
      · exact .inr ⟨rfl, rfl⟩
    have hm' : m = 12 ∨ m = 47 := by
      unfold foundDecl at hm
      split at hm
      · cases hm
      · split at hm
        · cases hm
        · dsimp only at hm
          split at hm
          · cases hm
          · split at hm
            · cases hm
            · rcases hf' with ⟨h1, h2⟩ | ⟨h1, h2⟩ <;> rw [h1, h2] at hm <;> simp at hm <;> omega
    rcases hm' with rfl | rfl <;>
      simp [specializationsOf, exOperators] at hd <;> subst hd <;> rfl
  · intro d
    simp only [exOperators]
    repeat' split
    all_goals first
      | (intro h; cases h)
      | (simp only [exEmit, exPlain]; split <;> intro h <;> cases h)

theorem exOperators_emit : EmitOK exOperators := by
  refine ⟨?_, ?_, ?_, fun _ _ => rfl⟩
  · intro t l h d hd
    simp only [exOperators] at h
    split at h
    · simp only [Option.some.injEq] at h
      subst h
      simp only [List.mem_singleton] at hd
      subst hd
      rfl
    · cases h
  · intro r f hf hs
    simp only [exOperators] at hf
    split at hf
    · simp only [List.mem_cons, List.not_mem_nil, or_false] at hf
      rcases hf with rfl | rfl | rfl | rfl | rfl | rfl
      all_goals first
        | rfl
        | (simp [exOperators] at hs)
    · cases hf
  · intro d
    have h := exEmit_ok.params d
    simp only [exOperators]
    repeat' split
    all_goals first
      | rfl
      | exact h
      | simp_all
    all_goals rfl

/-- C59 for `3 - s`: the method `__rsub__` of `s` is called with 3. -/
example (apply : OperatorKind → List Int → Int) : ∃ k, (exOperators.info 40).operator = some k ∧
    ∃ x y tx ty, Calls k.spelling (3 : Int) 5 t%"__rsub__" x y ∧
      evalLambda apply ⟨[(t%"const ::S &", .lhs), (t%"int", .rhs)], t%"int", .binary .rhs .minus .lhs⟩ [x, y] =
        some (apply k [3, 5]) ∧
      [t%"const ::S &", t%"int"] = [tx.text, ty.text] ∧ tx.record = some 1 ∧
      (x = 3 ∧ y = 5 ∧ tx = (exOperand false).type ∧ ty = (exOperand true).type ∨
        x = 5 ∧ y = 3 ∧ tx = (exOperand true).type ∧ ty = (exOperand false).type) :=
  C59_binary apply exOperators exOperators_emit .empty (empty_derived _) exAll 1 rfl exOperators_ok
    ⟨[], []⟩ 40 t%"__rsub__" _ (by decide +kernel) _ _ rfl (by decide) 3 5

/-- If the first parameter of `operator<<` refers to a class without a name, its
identifier is a null pointer. -/
theorem C60_unnamed : isOstreamOperator
    { exOperators with fn := fun d => { exOperators.fn d with firstPointee := .unnamed } } 46 = none := by
  decide +kernel

end Verif
