import Verif.Props.Call
import Verif.Spec.Evaluate
/-!
# C102: operator expressions in Python
-/
namespace Verif
open Spec

/-- What has been executed to define operators. -/
theorem executed_operators (i : ToolInput) (ok : InputOK i)
    (oo : ∀ r, (i.world.info r).kind = .record → OperatorsOK i.world r)
    (name : Str) (g : Graph) (b : Building) (order : List Nat) (place : Nat → List Str)
    (pl : Placement i name g b order place) (object : List Str) (d : Nat) (n : Str) (l : OpLambda) :
    Has (executed i name g b order place) object operatorOf (d, n, l) ↔
      ∃ x, Fills i.world.toWorld b.storage i.members name g place x object ∧
        OperatorIn i.world b.storage g x d ∧ operatorFor i.world x d = some (n, l) := by
  have hcg := C23_graphs i.world.toWorld i.tree ok.unit g b pl.graph
  have hder := derived_built i.world i.tree ok.unit g b pl.graph
  rw [contents_iff i ok.unit name g b order place pl operatorOf (fun _ _ => rfl) _
    (fun x => OperatorIn i.world b.storage g x d ∧ operatorFor i.world x d = some (n, l))]
  · intro x hx
    unfold OperatorIn
    by_cases hk : (i.world.info x).kind = .record
    · have hc : Exposer.create i.world b.storage x =
          .record x (createFromAnnotations b.storage (i.world.hierarchy x) x) := by
        unfold Exposer.create
        rw [hk]
      have hcol := collected_iff i.world b.storage x
      rw [hc] at hcol ⊢
      have hmem : (∃ m, FoundIn i.world b.storage x m ∧ d ∈ specializationsOf i.world m) ↔
          isMember i.world (createFromAnnotations b.storage (i.world.hierarchy x) x) x d := by
        unfold isMember
        constructor
        · rintro ⟨m, hm, hd⟩
          obtain ⟨f, hf, he⟩ := List.mem_filterMap.1 ((hcol m).2 hm)
          exact ⟨f, hf, m, he, hd⟩
        · rintro ⟨f, hf, m, he, hd⟩
          exact ⟨m, (hcol m).1 (List.mem_filterMap.2 ⟨f, hf, he⟩), hd⟩
      rw [hmem, ← shown_iff i.world b.storage i.members name g hcg x d hx.1 hx.2.1]
      rw [operators_written i.world b.storage hder _ x _ x (oo x hk).pointee]
      simp only [List.mem_filterMap, List.mem_filter]
      constructor
      · rintro ⟨y, ⟨hy, hsh⟩, h⟩
        split at h
        · rename_i hdef
          obtain ⟨q, hq, he⟩ := Option.map_eq_some_iff.1 h
          simp only [Prod.mk.injEq] at he
          obtain ⟨rfl, rfl⟩ := he
          exact ⟨⟨hk, (mem_proposed i.world x hk _ (oo x hk).specialized y).1 hy, hsh, hdef⟩, hq⟩
        · cases h
      · rintro ⟨⟨_, hm, hsh, hdef⟩, hq⟩
        refine ⟨d, ⟨(mem_proposed i.world x hk _ (oo x hk).specialized d).2 hm, hsh⟩, ?_⟩
        rw [if_pos hdef, hq]
        rfl
    · rw [only_classes i.world ok.emit b.storage _ operatorOf (fun _ _ _ _ _ => rfl) rfl rfl ?_ x hk]
      · simp [hk]
      · intro a d
        unfold handleDeclGeneric
        repeat' (first | rfl | split | (dsimp only; split))
  · rintro x y hxy _ _ ⟨⟨h, _⟩, _⟩
    rw [hxy.1] at h
    cases h

theorem definition_length (k : OperatorKind) (types : List CppType) (ret : Str) (r : Bool) :
    (emitOperatorDefinition k types ret r).params.length ≤ types.length := by
  unfold emitOperatorDefinition
  cases r <;> simp <;> omega

/-- What is known about an operator with two operands. -/
theorem binary_operator (w : EmitWorld) (ok : EmitOK w) (s : Storage) (g : Graph) (x d : Nat)
    (oo : OperatorsOK w x) (hm : ∀ d k, (w.info d).operator = some k → ValidArity k (operandTypes w x d).length)
    (ho : OperatorIn w s g x d) (n : Str) (l : OpLambda) (hl : operatorFor w x d = some (n, l))
    (h2 : l.params.length = 2) :
    ∃ k t0 t1, operandTypes w x d = [t0, t1] ∧ (w.info d).operator = some k ∧
      n = pythonBinaryOperatorName k (t0.record ≠ some x) ∧
      l = { params := if t0.record ≠ some x then [(t1.text, .lhs), (t0.text, .rhs)]
              else [(t0.text, .lhs), (t1.text, .rhs)]
            returnType := (w.fn d).returnType
            body := if t0.record ≠ some x then .binary .rhs k .lhs else .binary .lhs k .rhs } := by
  obtain ⟨k, q, hk, hq, he⟩ := defines_some w x d ho.2.2.2
  rw [hl] at hq
  cases hq
  have hne : neverExposed k = false := by
    unfold emitOperator at he
    split at he
    · cases he
    · rename_i h
      simpa using h
  have hlen := arity_bounds k _ (hm d k hk) hne
  have hlp : l.params.length ≤ (operandTypes w x d).length := by
    unfold emitOperator at he
    rw [← operands_eq] at he
    rw [if_neg (by simp [hne])] at he
    dsimp only at he
    split at he
    · cases he
    · simp only [Option.some.injEq, Prod.mk.injEq] at he
      rw [← he.2]
      exact definition_length k _ _ _
  match ht : operandTypes w x d with
  | [] => rw [ht] at hlp; simp only [List.length_nil] at hlp; omega
  | [_] => rw [ht] at hlp; simp only [List.length_cons, List.length_nil] at hlp; omega
  | [t0, t1] =>
    obtain ⟨h3, h4⟩ := emitOperator_binary he (by rw [← operands_eq]; exact ht)
    exact ⟨k, t0, t1, rfl, hk, h3, h4⟩
  | _ :: _ :: _ :: _ => rw [ht] at hlen; simp at hlen

/-- Calling a method written for an operator evaluates the operator, on the operands in the same order
or reversed. -/
theorem operator_performs {V : Type} (apply : OperatorKind → List V → V) (O : PyOperands V) (w : EmitWorld)
    (ok : EmitOK w) (s : Storage) (g : Graph) (x d : Nat) (oo : OperatorsOK w x)
    (hm : ∀ d k, (w.info d).operator = some k → ValidArity k (operandTypes w x d).length)
    (ho : OperatorIn w s g x d) (n : Str) (l : OpLambda) (hl : operatorFor w x d = some (n, l))
    (convert : Bool) (a b v : V) (ht : takesOperands O convert [a, b] l = true)
    (hv : evalLambda apply l [a, b] = some v) :
    ∃ k, (n = pythonBinaryOperatorName k false ∧ Performs apply O w x d k a b v) ∨
      n = pythonBinaryOperatorName k true ∧ Performs apply O w x d k b a v := by
  unfold takesOperands at ht
  simp only [List.length_cons, List.length_nil, Bool.and_eq_true, decide_eq_true_eq] at ht
  obtain ⟨k, t0, t1, h1, h2, h3, h4⟩ := binary_operator w ok s g x d oo hm ho n l hl ht.1
  subst h4
  refine ⟨k, ?_⟩
  by_cases hr : t0.record = some x
  · refine .inl ⟨by simpa [hr] using h3, t0, t1, convert, h1, h2, ?_⟩
    simp only [hr, ne_eq, not_true_eq_false, if_false, eval_forward, Option.some.injEq] at hv ht
    simp only [List.zip_cons_cons, List.zip_nil_left, List.all_cons, List.all_nil, Bool.and_true,
      Bool.and_eq_true] at ht
    exact ⟨ht.2.1, ht.2.2, hv.symm⟩
  · refine .inr ⟨by simpa [hr] using h3, t0, t1, convert, h1, h2, ?_⟩
    simp only [hr, ne_eq, not_false_eq_true, if_true, eval_reverse, Option.some.injEq] at hv ht
    simp only [List.zip_cons_cons, List.zip_nil_left, List.all_cons, List.all_nil, Bool.and_true,
      Bool.and_eq_true] at ht
    exact ⟨ht.2.2, ht.2.1, hv.symm⟩

theorem chosen_takes {V : Type} (O : PyOperands V) (args : List V) (ls : List (Nat × Str × OpLambda))
    (l : Nat × Str × OpLambda) (h : chooseOperator O args ls = some l) :
    l ∈ ls ∧ ∃ convert, takesOperands O convert args l.2.2 = true := by
  unfold chooseOperator at h
  split at h
  · split at h
    · cases h
      exact ⟨List.mem_singleton.2 rfl, true, by assumption⟩
    · cases h
  · rcases Option.or_eq_some_iff.1 h with h | ⟨_, h⟩
    · exact ⟨List.mem_of_find?_eq_some h, false, by simpa using List.find?_some h⟩
    · exact ⟨List.mem_of_find?_eq_some h, true, by simpa using List.find?_some h⟩

theorem chosen_some {V : Type} (O : PyOperands V) (args : List V) (ls : List (Nat × Str × OpLambda))
    (l : Nat × Str × OpLambda) (hl : l ∈ ls) (h : takesOperands O true args l.2.2 = true) :
    ∃ l', chooseOperator O args ls = some l' := by
  unfold chooseOperator
  split
  · simp only [List.mem_singleton] at hl
    subst hl
    exact ⟨l, by rw [if_pos h]⟩
  · cases hf : ls.find? (fun l => takesOperands O false args l.2.2) with
    | some l' => exact ⟨l', rfl⟩
    | none =>
      cases ht : ls.find? (fun l => takesOperands O true args l.2.2) with
      | some l' => exact ⟨l', by simp⟩
      | none =>
        rw [List.find?_eq_none] at ht
        exact absurd h (ht l hl)

/-- Where the result of a method comes from. -/
theorem call_origin {V : Type} (apply : OperatorKind → List V → V) (O : PyOperands V)
    (mro : List Str → List (List Str)) (names : PyNames) (n : Str) (u u' : V) (e : Evaluated V)
    (h : callOperator apply O mro names n u u' = some e) :
    (∃ v, e = .elsewhere v ∧ OtherMethod O mro names n u) ∨
      ∃ d v c object overloads l n', e = .computed d v ∧ O.typeOf u = some c ∧
      object ∈ c :: mro c ∧ names object n = some (.functions true overloads) ∧
      (∃ s ∈ overloads, operatorOf s = some (d, n', l)) ∧
      (∃ convert, takesOperands O convert [u, u'] l = true) ∧ evalLambda apply l [u, u'] = some v := by
  unfold callOperator at h
  unfold OtherMethod
  split at h
  · rename_i hc
    obtain ⟨v, _, rfl⟩ := Option.map_eq_some_iff.1 h
    exact .inl ⟨v, rfl, fun c h => by rw [hc] at h; cases h⟩
  · rename_i c hc
    split at h
    · cases h
    · rename_i overloads hf
      split at h
      · obtain ⟨⟨d, n', l⟩, hl, h⟩ := Option.bind_eq_some_iff.1 h
        obtain ⟨v, hv, rfl⟩ := Option.map_eq_some_iff.1 h
        obtain ⟨hmem, ht⟩ := chosen_takes O _ _ _ hl
        obtain ⟨object, ho, hn⟩ := List.exists_of_findSome?_eq_some hf
        exact .inr ⟨d, v, c, object, overloads, l, n', rfl, hc, ho, hn,
          List.mem_filterMap.1 hmem, ht, hv⟩
      · rename_i hall
        obtain ⟨v, _, rfl⟩ := Option.map_eq_some_iff.1 h
        refine .inl ⟨v, rfl, fun c' h' => ?_⟩
        rw [hc] at h'
        cases h'
        refine ⟨_, hf, fun l hl => ?_⟩
        cases hl
        simpa [List.all_eq_true] using hall
    · rename_i a hne hf
      obtain ⟨v, _, rfl⟩ := Option.map_eq_some_iff.1 h
      refine .inl ⟨v, rfl, fun c' h' => ?_⟩
      rw [hc] at h'
      cases h'
      exact ⟨_, hf, fun l hl => absurd (hl ▸ rfl) (hne l)⟩

/-- What is known about the attributes of the objects: functions come from what has been executed. -/
structure NamesFrom (i : ToolInput) (name : Str) (g : Graph) (b : Building) (order : List Nat)
    (place : Nat → List Str) (isClass : List Str → Bool) (names : PyNames) : Prop where
  origin : ∀ object n m overloads, names object n = some (.functions m overloads) → ∀ s ∈ overloads,
    ∃ e ∈ executed i name g b order place, e.object = object ∧ e.stmt = s ∧
      definedBy isClass object s = some ⟨object, n, .function m, s⟩

theorem names_from (i : ToolInput) (name : Str) (g : Graph) (b : Building) (order : List Nat)
    (place : Nat → List Str) (isClass : List Str → Bool) (types modules : List (List Str))
    (mro : List Str → List (List Str)) (names : PyNames)
    (h : PyNames.run mro (.start types modules)
      (definitions isClass [] (executed i name g b order place)) = .ok names) :
    NamesFrom i name g b order place isClass names := by
  refine ⟨fun object n m overloads hattr s hs => ?_⟩
  obtain ⟨d, hd, rfl, rfl, hw, rfl⟩ := run_origin mro _ _ _ _ h (fun _ h => h)
    (by
      intro o n m ss h
      rcases start_cases _ _ _ _ _ h with h | h <;> cases h) object n m overloads hattr s hs
  obtain ⟨e, he, hde⟩ := definitions_functions _ _ _ d hd m hw
  have hobj : e.object = d.object ∧ e.stmt = d.stmt := by
    unfold definedBy at hde
    split at hde <;> cases hde <;> exact ⟨rfl, by first | rfl | assumption⟩
  refine ⟨e, he, hobj.1, hobj.2, ?_⟩
  rw [← hobj.1, ← hobj.2, hde, hobj.1, hobj.2, ← hw]

/-- Hypotheses about operators: those of valid C++. -/
structure ValidOperators (i : ToolInput) : Prop where
  ok : ∀ r, (i.world.info r).kind = .record → OperatorsOK i.world r
  arity : ∀ x d k, (i.world.info d).operator = some k → ValidArity k (operandTypes i.world x d).length

/-- Calling a method evaluates an operator. -/
theorem call_performs {V : Type} (apply : OperatorKind → List V → V) (O : PyOperands V)
    (mro : List Str → List (List Str)) (names : PyNames) (i : ToolInput) (ok : InputOK i) (vo : ValidOperators i)
    (name : Str) (g : Graph) (b : Building) (order : List Nat) (place : Nat → List Str)
    (pl : Placement i name g b order place) (isClass : List Str → Bool)
    (hn : NamesFrom i name g b order place isClass names) (n : Str) (u u' : V) (e : Evaluated V)
    (h : callOperator apply O mro names n u u' = some e) :
    (∃ v, e = .elsewhere v ∧ OtherMethod O mro names n u) ∨
      ∃ d v x k, e = .computed d v ∧ OperatorFor O mro i name g b place x d [u] ∧
        ((n = pythonBinaryOperatorName k false ∧ Performs apply O i.world x d k u u' v) ∨
          n = pythonBinaryOperatorName k true ∧ Performs apply O i.world x d k u' u v) := by
  rcases call_origin apply O mro names n u u' e h with h | ⟨d, v, c, object, overloads, l, n', rfl, hc, ho, hf,
    ⟨s, hs, hop⟩, ⟨convert, ht⟩, hv⟩
  · exact .inl h
  · obtain ⟨e, he, heo, hes, hdef⟩ := hn.origin _ _ _ _ hf s hs
    obtain ⟨x, hx, hin, hlam⟩ := (executed_operators i ok vo.ok name g b order place pl object d n' l).1
      ⟨e, he, heo, by rw [hes]; exact hop⟩
    have hnn : n' = n := by
      unfold operatorOf at hop
      split at hop
      · cases hop
        simp only [definedBy, Option.some.injEq, Definition.mk.injEq] at hdef
        exact hdef.2.1
      · cases hop
    subst hnn
    obtain ⟨k, hk⟩ := operator_performs apply O i.world ok.emit b.storage g x d (vo.ok x hin.1) (vo.arity x) hin _ l
      hlam convert u u' v ht hv
    exact .inr ⟨d, v, x, k, rfl, ⟨object, c, hx, hin, ⟨u, List.mem_singleton.2 rfl, hc⟩, ho⟩, hk⟩

theorem operatorFor_mono {V : Type} {O : PyOperands V} {mro : List Str → List (List Str)} {i : ToolInput}
    {name : Str} {g : Graph} {b : Building} {place : Nat → List Str} {x d : Nat} {vs ws : List V}
    (h : OperatorFor O mro i name g b place x d vs) (hs : ∀ v ∈ vs, v ∈ ws) :
    OperatorFor O mro i name g b place x d ws := by
  obtain ⟨object, c, h1, h2, ⟨v, hv, h3⟩, h4⟩ := h
  exact ⟨object, c, h1, h2, ⟨v, hs v hv, h3⟩, h4⟩

theorem method_explains {V : Type} (apply : OperatorKind → List V → V) (O : PyOperands V) (w : EmitWorld)
    (op : PyOp) (x d : Nat) (k : OperatorKind) (a b v : V)
    (h : (op.method = pythonBinaryOperatorName k false ∧ Performs apply O w x d k a b v) ∨
      op.method = pythonBinaryOperatorName k true ∧ Performs apply O w x d k b a v) :
    Explains apply O w op.symbol x d a b v := by
  rcases h with ⟨hn, h⟩ | ⟨hn, h⟩
  · rcases uses_method k false (by simp) op hn with ⟨_, hk⟩ | ⟨hf, _⟩
    · exact ⟨k, .inl ⟨hk.symm, h⟩⟩
    · cases hf
  · rcases uses_method k true (by simp) op hn with ⟨hf, _⟩ | ⟨_, _, hk⟩
    · cases hf
    · obtain ⟨m, hm, hs⟩ := Option.map_eq_some_iff.1 hk
      exact ⟨k, .inr ⟨m, hm, hs, h⟩⟩

theorem reflected_explains {V : Type} (apply : OperatorKind → List V → V) (O : PyOperands V) (w : EmitWorld)
    (op : PyOp) (x d : Nat) (k : OperatorKind) (a b v : V)
    (h : (op.reflected = pythonBinaryOperatorName k false ∧ Performs apply O w x d k b a v) ∨
      op.reflected = pythonBinaryOperatorName k true ∧ Performs apply O w x d k a b v) :
    Explains apply O w op.symbol x d a b v := by
  rcases h with ⟨hn, h⟩ | ⟨hn, h⟩
  · rcases uses_reflected k false (by simp) op hn with ⟨hf, _⟩ | ⟨_, _, hk⟩
    · cases hf
    · obtain ⟨m, hm, hs⟩ := Option.map_eq_some_iff.1 hk
      exact ⟨k, .inr ⟨m, hm, hs, h⟩⟩
  · rcases uses_reflected k true (by simp) op hn with ⟨_, hk⟩ | ⟨hf, _⟩
    · exact ⟨k, .inl ⟨hk.symm, h⟩⟩
    · cases hf

theorem only_ne : ∀ op : PyOp, (op.method = t%"__ne__" → op = .ne) ∧ (op.reflected = t%"__ne__" → op = .ne) :=
  forall_ops (by decide +kernel)

theorem not_inplace : ∀ op : PyOp, op.inplace ≠ some t%"__ne__" :=
  forall_ops (by decide +kernel)

/-- C102: operators in Python evaluate the operators of C++. -/
theorem C102_expression {V : Type} (apply : OperatorKind → List V → V) (O : PyOperands V)
    (mro : List Str → List (List Str)) (names : PyNames) (i : ToolInput) (ok : InputOK i) (vo : ValidOperators i)
    (name : Str) (g : Graph) (bu : Building) (order : List Nat) (place : Nat → List Str)
    (pl : Placement i name g bu order place) (isClass : List Str → Bool)
    (hn : NamesFrom i name g bu order place isClass names) (op : PyOp) (a b : V) (e : Evaluated V)
    (h : evaluateExpr apply O mro names op a b = some e) :
    Meant apply O mro names i name g bu place op a b e := by
  -- both methods
  have forward : ∀ (op : PyOp) e, callOperator apply O mro names op.method a b = some e →
      (∃ v, e = .elsewhere v ∧ OtherMethod O mro names op.method a) ∨
      ∃ d v x, e = .computed d v ∧ OperatorFor O mro i name g bu place x d [a, b] ∧
        Explains apply O i.world op.symbol x d a b v := by
    intro op e h
    rcases call_performs apply O mro names i ok vo name g bu order place pl isClass hn _ _ _ _ h with
      h | ⟨d, v, x, k, rfl, hf, hk⟩
    · exact .inl h
    · exact .inr ⟨d, v, x, rfl, operatorFor_mono hf (by simp), method_explains apply O i.world op x d k a b v hk⟩
  have reflected : ∀ (op : PyOp) e, callOperator apply O mro names op.reflected b a = some e →
      (∃ v, e = .elsewhere v ∧ OtherMethod O mro names op.reflected b) ∨
      ∃ d v x, e = .computed d v ∧ OperatorFor O mro i name g bu place x d [a, b] ∧
        Explains apply O i.world op.symbol x d a b v := by
    intro op e h
    rcases call_performs apply O mro names i ok vo name g bu order place pl isClass hn _ _ _ _ h with
      h | ⟨d, v, x, k, rfl, hf, hk⟩
    · exact .inl h
    · exact .inr ⟨d, v, x, rfl, operatorFor_mono hf (by simp), reflected_explains apply O i.world op x d k a b v hk⟩
  obtain ⟨t, ht, hc⟩ := List.exists_of_findSome?_eq_some h
  have htt : t = (op.method, a, b) ∨ t = (op.reflected, b, a) := by
    unfold tries at ht
    dsimp only at ht
    repeat' split at ht
    all_goals
      simp only [List.mem_cons, List.not_mem_nil, or_false] at ht
      first
        | exact ht
        | exact ht.symm
        | exact .inl ht
  have finish : ∀ e, ((∃ v, e = .elsewhere v ∧
        (OtherMethod O mro names (PyOp.method .eq) a ∨ OtherMethod O mro names (PyOp.reflected .eq) b)) ∨
      ∃ d v x, e = Evaluated.computed d v ∧ OperatorFor O mro i name g bu place x d [a, b] ∧
        Explains apply O i.world (PyOp.symbol .eq) x d a b v) → op = .ne →
      (∃ d v x, op = .ne ∧ e.negate O = .negated d (O.negate v) ∧
        OperatorFor O mro i name g bu place x d [a, b] ∧
        Explains apply O i.world (PyOp.symbol .eq) x d a b v) ∨
      (∃ v, e.negate O = .elsewhere v ∧ ∃ op', (op' = op ∨ op = .ne ∧ op' = .eq) ∧
        (OtherMethod O mro names op'.method a ∨ OtherMethod O mro names op'.reflected b)) := by
    rintro e (⟨v, rfl, h⟩ | ⟨d, v, x, rfl, h⟩) hop
    · exact .inr ⟨_, rfl, .eq, .inr ⟨hop, rfl⟩, h⟩
    · exact .inl ⟨d, v, x, hop, rfl, h⟩
  rcases htt with rfl | rfl
  · unfold callMethod at hc
    split at hc
    · rename_i hne
      obtain ⟨e', he', rfl⟩ := Option.map_eq_some_iff.1 hc
      refine .inr (finish e' ?_ ((only_ne op).1 hne.1))
      rcases forward .eq e' he' with ⟨v, h1, h2⟩ | h
      · exact .inl ⟨v, h1, .inl h2⟩
      · exact .inr h
    · rcases forward op e hc with ⟨v, h1, h2⟩ | h
      · exact .inr (.inr ⟨v, h1, op, .inl rfl, .inl h2⟩)
      · exact .inl h
  · unfold callMethod at hc
    split at hc
    · rename_i hne
      obtain ⟨e', he', rfl⟩ := Option.map_eq_some_iff.1 hc
      refine .inr (finish e' ?_ ((only_ne op).2 hne.1))
      rcases reflected .eq e' he' with ⟨v, h1, h2⟩ | h
      · exact .inl ⟨v, h1, .inr h2⟩
      · exact .inr h
    · rcases reflected op e hc with ⟨v, h1, h2⟩ | h
      · exact .inr (.inr ⟨v, h1, op, .inl rfl, .inr h2⟩)
      · exact .inl h

/-- C102: augmented assignment evaluates compound assignment. -/
theorem C102_assignment {V : Type} (apply : OperatorKind → List V → V) (O : PyOperands V)
    (mro : List Str → List (List Str)) (names : PyNames) (i : ToolInput) (ok : InputOK i) (vo : ValidOperators i)
    (name : Str) (g : Graph) (bu : Building) (order : List Nat) (place : Nat → List Str)
    (pl : Placement i name g bu order place) (isClass : List Str → Bool)
    (hn : NamesFrom i name g bu order place isClass names) (op : PyOp) (a b : V) (e : Evaluated V)
    (h : evaluateAssignment apply O mro names op a b = some e) :
    MeantAssignment apply O mro names i name g bu place op a b e := by
  unfold evaluateAssignment at h
  rcases Option.or_eq_some_iff.1 h with h | ⟨_, h⟩
  · obtain ⟨n, hi, h⟩ := Option.bind_eq_some_iff.1 h
    unfold callMethod at h
    rw [if_neg (by rintro ⟨rfl, _⟩; exact not_inplace op hi)] at h
    rcases call_performs apply O mro names i ok vo name g bu order place pl isClass hn _ _ _ _ h with
      ⟨v, h1, h2⟩ | ⟨d, v, x, k, rfl, hf, hk⟩
    · exact .inr (.inl ⟨v, n, h1, hi, h2⟩)
    · rcases hk with ⟨rfl, hk⟩ | ⟨rfl, hk⟩
      · have := uses_inplace k false (by simp) op hi
        refine .inl ⟨d, v, x, k, rfl, hf, this.2.symm, ?_, hk⟩
        have hc : ∀ k : OperatorKind, ∀ op : PyOp, op.inplace = some (pythonBinaryOperatorName k false) →
            isCompoundAssignment k :=
          forall_kinds fun k hk => forall_ops (by unfold isCompoundAssignment; revert k; decide +kernel)
        exact hc k op hi
      · have := uses_inplace k true (by simp) op hi
        cases this.1
  · exact .inr (.inr (C102_expression apply O mro names i ok vo name g bu order place pl isClass hn op a b e h))

/-- C102 for runs of the tool: whatever operators are applied to objects after a generated module has been
imported. -/
theorem C102_run (o : ToolOptions) (i : ToolInput) (ok : InputOK i) (vo : ValidOperators i) (files : Files)
    (r : ToolResult) (hr : runTool o i files = some r) (hx : o.expectFailure = false) (h0 : r.exitCode = 0)
    (hnd : o.outputFiles.Nodup) :
    ∃ name g b order place, moduleNameFor o.moduleName i.mainFile = some name ∧
      Placement i name g b order place ∧
      ∃ lines : List (List Line), lines.length = o.outputFiles.length ∧
        (∀ (k : Nat) path ls, o.outputFiles[k]? = some path → lines[k]? = some ls →
          (path ≠ ['-'] → r.files path = some (fileText i ls)) ∧
          (path = ['-'] → r.printed = [fileText i ls])) ∧
        ∀ st, importModule lines = .ok st → ∀ mro names,
          PyNames.run mro (.start (st.types.map (·.2)) st.modules)
            (definitions (fun x => decide (x ∈ st.types.map (·.2))) [] st.executed) = .ok names →
          ∀ (V : Type) (apply : OperatorKind → List V → V) (O : PyOperands V) (op : PyOp) (u v : V) e,
            (evaluateExpr apply O mro names op u v = some e → Meant apply O mro names i name g b place op u v e) ∧
            (evaluateAssignment apply O mro names op u v = some e →
              MeantAssignment apply O mro names i name g b place op u v e) := by
  obtain ⟨name, g, b, order, place, hn, hb, hv, hp, lines, h1, h2, _, h4⟩ :=
    C69_module o i ok files r hr hx h0 hnd
  have pl : Placement i name g b order place := ⟨hb, hv, hp⟩
  refine ⟨name, g, b, order, place, hn, pl, lines, h1, h2, ?_⟩
  intro st hst mro names hrun V apply O op u v e
  rw [show st.executed = executed i name g b order place from (h4 st hst).1] at hrun
  have hf := names_from i name g b order place _ _ _ mro names hrun
  exact ⟨C102_expression apply O mro names i ok vo name g b order place pl _ hf op u v e,
    C102_assignment apply O mro names i ok vo name g b order place pl _ hf op u v e⟩

/-! ### No `TypeError` -/

theorem spelled : ∀ k : OperatorKind, ∀ op : PyOp, k.spelling = op.symbol →
    pythonBinaryOperatorName k false = op.method ∧ pythonBinaryOperatorName k true = op.reflected :=
  forall_kinds fun k hk => forall_ops (by revert k; decide +kernel)

theorem executed_operator_defined (isClass : List Str → Bool) (l : List Execution) (object : List Str)
    (d : Nat) (n : Str) (la : OpLambda) (h : Has l object operatorOf (d, n, la)) :
    ∃ e ∈ l, operatorOf e.stmt = some (d, n, la) ∧
      (⟨object, n, .function (isClass object), e.stmt⟩ : Definition) ∈ definitions isClass [] l := by
  obtain ⟨e, he, ho, hop⟩ := h
  refine ⟨e, he, hop, ?_⟩
  refine (defined_sublist isClass l []).subset (List.mem_filterMap.2 ⟨e, he, ?_⟩)
  rw [ho]
  unfold operatorOf at hop
  split at hop
  · rename_i hs
    cases hop
    rw [hs]
    rfl
  · cases hop

/-- The method of an exposed operator takes its operands. -/
theorem call_some {V : Type} (apply : OperatorKind → List V → V) (O : PyOperands V)
    (mro : List Str → List (List Str)) (types modules : List (List Str)) (isClass : List Str → Bool)
    (i : ToolInput) (ok : InputOK i) (vo : ValidOperators i)
    (name : Str) (g : Graph) (bu : Building) (order : List Nat) (place : Nat → List Str)
    (pl : Placement i name g bu order place)
    (hnc : NoClash mro (.start types modules) (definitions isClass [] (executed i name g bu order place)))
    (names : PyNames) (hrun : PyNames.run mro (.start types modules)
      (definitions isClass [] (executed i name g bu order place)) = .ok names)
    (x d : Nat) (object c : List Str) (hx : Fills i.world.toWorld bu.storage i.members name g place x object)
    (hcl : isClass object = true) (hd : OperatorIn i.world bu.storage g x d)
    (k : OperatorKind) (hk : (i.world.info d).operator = some k)
    (t0 t1 : CppType) (ht : operandTypes i.world x d = [t0, t1]) (u u' : V) (n : Str)
    (hn : n = pythonBinaryOperatorName k (t0.record ≠ some x))
    (hl : if t0.record = some x then O.loads t0.text true u = true ∧ O.loads t1.text true u' = true
      else O.loads t1.text true u = true ∧ O.loads t0.text true u' = true)
    (hc : O.typeOf u = some c) (how : ownerOf mro names c n = some object)
    (hops : ∀ m overloads, names object n = some (.functions m overloads) →
      ∀ s ∈ overloads, operatorOf s ≠ none) :
    ∃ e, callMethod apply O mro names n u u' = some e := by
  have hnames : names = expectedNames (.start types modules)
      (definitions isClass [] (executed i name g bu order place)) := by
    have := C73_names mro types modules _ hnc
    rw [hrun] at this
    exact Except.ok.inj this
  obtain ⟨k', ⟨n', l⟩, hk', hlam, hemit⟩ := defines_some i.world x d hd.2.2.2
  rw [hk] at hk'
  cases hk'
  obtain ⟨hn', hlam'⟩ := emitOperator_binary hemit (by rw [← operands_eq]; exact ht)
  rw [← hn] at hn'
  subst hn'
  obtain ⟨e, he, hop, hdef⟩ := executed_operator_defined isClass _ object d n' l
    ((executed_operators i ok vo.ok name g bu order place pl object d n' l).2 ⟨x, hx, hd, hlam⟩)
  rw [hcl] at hdef
  -- the attribute
  obtain ⟨overloads, hf, hmem⟩ : ∃ overloads, names object n' = some (.functions true overloads) ∧
      e.stmt ∈ overloads := by
    have hfresh := hnc.fresh _ hdef
    dsimp only at hfresh
    have hin := (mem_definitionsOf _ object n' _).2 ⟨hdef, rfl, rfl⟩
    rw [hnames]
    unfold expectedNames
    rw [hfresh]
    dsimp only
    cases hds : definitionsOf (definitions isClass [] (executed i name g bu order place)) object n' with
    | nil => rw [hds] at hin; cases hin
    | cons f fs =>
      have hff := (mem_definitionsOf _ object n' f).1 (by rw [hds]; exact List.mem_cons_self)
      have hw : f.what = .function true := by
        rcases hnc.names _ hdef f hff.1 hff.2.1.symm hff.2.2.symm with h | ⟨m, h1, h2⟩
        · rw [← h]
        · cases h1
          exact h2
      dsimp only
      rw [hw]
      rw [hds] at hin
      exact ⟨_, rfl, List.mem_map.2 ⟨_, hin, rfl⟩⟩
  have hfind : names.find mro c n' = some (.functions true overloads) := by
    unfold PyNames.find
    unfold ownerOf at how
    obtain ⟨_, as, bs, hsplit, hnone⟩ := List.find?_eq_some_iff_append.1 how
    rw [hsplit, List.findSome?_append]
    rw [List.findSome?_eq_none_iff.2 (fun o ho => by simpa using hnone o ho)]
    rw [List.findSome?_cons, hf]
    rfl
  have hall : (overloads.all fun s => (operatorOf s).isSome) = true := by
    rw [List.all_eq_true]
    intro s hs
    exact Option.isSome_iff_ne_none.2 (hops _ _ hf s hs)
  have htakes : takesOperands O true [u, u'] l = true := by
    unfold takesOperands
    rw [hlam']
    by_cases hr : t0.record = some x
    · rw [if_pos hr] at hl
      simp [hr, hl]
    · rw [if_neg hr] at hl
      simp [hr, hl]
  obtain ⟨⟨d', n'', l'⟩, hch⟩ := chosen_some O [u, u'] (overloads.filterMap operatorOf) (d, n', l)
    (List.mem_filterMap.2 ⟨_, hmem, hop⟩) htakes
  obtain ⟨hmem', convert, ht'⟩ := chosen_takes O _ _ _ hch
  -- it can be evaluated
  obtain ⟨v, hv⟩ : ∃ v, evalLambda apply l' [u, u'] = some v := by
    obtain ⟨s, hs, hso⟩ := List.mem_filterMap.1 hmem'
    obtain ⟨e', he', heo, hes, _⟩ := (names_from i name g bu order place isClass types modules mro names hrun).origin
      _ _ _ _ hf s hs
    obtain ⟨x', hx', hin', hlam''⟩ := (executed_operators i ok vo.ok name g bu order place pl object d' n'' l').1
      ⟨e', he', heo, by rw [hes]; exact hso⟩
    unfold takesOperands at ht'
    simp only [List.length_cons, List.length_nil, Bool.and_eq_true, decide_eq_true_eq] at ht'
    obtain ⟨k', s0, s1, _, _, _, h4⟩ := binary_operator i.world ok.emit bu.storage g x' d' (vo.ok x' hin'.1)
      (vo.arity x') hin' n'' l' hlam'' ht'.1
    rw [h4]
    by_cases hr : s0.record = some x'
    · simp only [hr, ne_eq, not_true_eq_false, if_false, eval_forward]
      exact ⟨_, rfl⟩
    · simp only [hr, ne_eq, not_false_eq_true, if_true, eval_reverse]
      exact ⟨_, rfl⟩
  refine ⟨.computed d' v, ?_⟩
  unfold callMethod
  rw [if_neg (by
    rintro ⟨_, h⟩
    unfold hasAttribute at h
    rw [hc] at h
    dsimp only at h
    rw [hfind] at h
    cases h)]
  unfold callOperator
  rw [hc]
  dsimp only
  rw [hfind]
  dsimp only
  rw [if_pos hall, hch]
  simp only [Option.bind_some, hv, Option.map_some]

/-- C102: no `TypeError` if the class of the left operand (or the first of its bases that has the method) has an
exposed operator with this symbol that takes the operands and is for the class on its left. -/
theorem C102_left {V : Type} (apply : OperatorKind → List V → V) (O : PyOperands V)
    (mro : List Str → List (List Str)) (types modules : List (List Str)) (isClass : List Str → Bool)
    (i : ToolInput) (ok : InputOK i) (vo : ValidOperators i)
    (name : Str) (g : Graph) (bu : Building) (order : List Nat) (place : Nat → List Str)
    (pl : Placement i name g bu order place)
    (hnc : NoClash mro (.start types modules) (definitions isClass [] (executed i name g bu order place)))
    (names : PyNames) (hrun : PyNames.run mro (.start types modules)
      (definitions isClass [] (executed i name g bu order place)) = .ok names)
    (x d : Nat) (object c : List Str) (hx : Fills i.world.toWorld bu.storage i.members name g place x object)
    (hcl : isClass object = true) (hd : OperatorIn i.world bu.storage g x d)
    (op : PyOp) (k : OperatorKind) (hk : (i.world.info d).operator = some k) (hs : k.spelling = op.symbol)
    (t0 t1 : CppType) (ht : operandTypes i.world x d = [t0, t1]) (hr : t0.record = some x) (a b : V)
    (h0 : O.loads t0.text true a = true) (h1 : O.loads t1.text true b = true)
    (hc : O.typeOf a = some c) (how : ownerOf mro names c op.method = some object)
    (hops : ∀ m overloads, names object op.method = some (.functions m overloads) →
      ∀ s ∈ overloads, operatorOf s ≠ none) :
    evaluateExpr apply O mro names op a b ≠ none := by
  obtain ⟨e, he⟩ := call_some apply O mro types modules isClass i ok vo name g bu order place pl hnc names hrun x d
    object c hx hcl hd k hk t0 t1 ht a b op.method (by simp [hr, (spelled k op hs).1]) (by rw [if_pos hr]; exact ⟨h0, h1⟩)
    hc how hops
  intro h
  unfold evaluateExpr at h
  rw [List.findSome?_eq_none_iff] at h
  have := h (op.method, a, b) (by
    unfold tries
    dsimp only
    repeat' split
    all_goals simp)
  rw [he] at this
  cases this

/-- C102: the same for the right operand and operators with another type on their left.  For arithmetic, this
method is called only if the types of the operands differ. -/
theorem C102_right {V : Type} (apply : OperatorKind → List V → V) (O : PyOperands V)
    (mro : List Str → List (List Str)) (types modules : List (List Str)) (isClass : List Str → Bool)
    (i : ToolInput) (ok : InputOK i) (vo : ValidOperators i)
    (name : Str) (g : Graph) (bu : Building) (order : List Nat) (place : Nat → List Str)
    (pl : Placement i name g bu order place)
    (hnc : NoClash mro (.start types modules) (definitions isClass [] (executed i name g bu order place)))
    (names : PyNames) (hrun : PyNames.run mro (.start types modules)
      (definitions isClass [] (executed i name g bu order place)) = .ok names)
    (x d : Nat) (object c : List Str) (hx : Fills i.world.toWorld bu.storage i.members name g place x object)
    (hcl : isClass object = true) (hd : OperatorIn i.world bu.storage g x d)
    (op : PyOp) (k : OperatorKind) (hk : (i.world.info d).operator = some k) (hs : k.spelling = op.symbol)
    (t0 t1 : CppType) (ht : operandTypes i.world x d = [t0, t1]) (hr : t0.record ≠ some x) (a b : V)
    (h0 : O.loads t0.text true a = true) (h1 : O.loads t1.text true b = true)
    (hc : O.typeOf b = some c) (hne : O.typeOf a ≠ some c) (how : ownerOf mro names c op.reflected = some object)
    (hops : ∀ m overloads, names object op.reflected = some (.functions m overloads) →
      ∀ s ∈ overloads, operatorOf s ≠ none) :
    evaluateExpr apply O mro names op a b ≠ none := by
  obtain ⟨e, he⟩ := call_some apply O mro types modules isClass i ok vo name g bu order place pl hnc names hrun x d
    object c hx hcl hd k hk t0 t1 ht b a op.reflected (by simp [hr, (spelled k op hs).2]) (by rw [if_neg hr]; exact ⟨h1, h0⟩)
    hc how hops
  intro h
  unfold evaluateExpr at h
  rw [List.findSome?_eq_none_iff] at h
  have := h (op.reflected, b, a) (by
    unfold tries
    dsimp only
    have hsame : sameClass O a b = false := by
      unfold sameClass
      rw [hc]
      simp [hne]
    rw [hsame]
    repeat' split
    all_goals first | contradiction | simp)
  rw [he] at this
  cases this

/-! ### Examples -/

local macro "eval_run" : tactic => `(tactic| (
  simp only [handleTranslationUnit, emitModule, findEnclosingScopes, analyze, pruneGraph, hideNamespaces,
    declContextsWithVisibleNamedDecls, deriveEffectiveVisibility, dfs_fuel]
  decide +kernel))

def exMathFn (l : List CppType) : FnInfo :=
  { exPlain t%"f" with params := l.map fun t => ⟨{ id := 0, name := t%"x" }, t, t.text⟩ }

def exMathB : CppType := ⟨t%"const ::B &", some 1⟩
def exMathInt : CppType := ⟨t%"int", none⟩

/-- `struct visible B { bool operator==(const B &); }; struct visible D : B { D operator+(int); };
visible B operator+(const B &, const B &);
visible bool operator<(int, const B &); visible bool operator>(const B &, int);` -/
def exMath : EmitWorld := { exUnit with
  info := fun
    | 0 => { kind := .translationUnit }
    | 1 => { kind := .record, name := t%"B", attrTexts := [lozenge ++ t%"visible"] }
    | 2 => { kind := .function, name := t%"operator+", nameIsIdentifier := false, operator := some .plus,
             params := [t%"x", t%"x"], minRequired := 2, attrTexts := [lozenge ++ t%"visible"] }
    | 3 => { kind := .record, name := t%"D", attrTexts := [lozenge ++ t%"visible"], allBases := [1], bases := [1] }
    | 4 => { kind := .method, name := t%"operator+", nameIsIdentifier := false, operator := some .plus,
             params := [t%"x"], minRequired := 1 }
    | 5 => { kind := .method, name := t%"operator==", nameIsIdentifier := false, operator := some .equalEqual,
             params := [t%"x"], minRequired := 1 }
    | 6 => { kind := .function, name := t%"operator<", nameIsIdentifier := false, operator := some .less,
             params := [t%"x", t%"x"], minRequired := 2, attrTexts := [lozenge ++ t%"visible"] }
    | 7 => { kind := .function, name := t%"operator>", nameIsIdentifier := false, operator := some .greater,
             params := [t%"x", t%"x"], minRequired := 2, attrTexts := [lozenge ++ t%"visible"] }
    | _ => { kind := .other }
  ancestors := fun | 0 => [] | 4 => [3, 0] | 5 => [1, 0] | _ => [0]
  access := fun | 4 => .public | 5 => .public | _ => .none
  fn := fun
    | 2 => exMathFn [exMathB, exMathB]
    | 4 => exMathFn [exMathInt]
    | 5 => exMathFn [exMathB]
    | 6 => exMathFn [exMathInt, exMathB]
    | 7 => exMathFn [exMathB, exMathInt]
    | _ => exMathFn []
  typeName := fun | 1 => t%"::B" | _ => t%"::D"
  selfType := fun r _ => { text := if r = 1 then t%"::B" else t%"::D", record := some r }
  hierarchy := fun
    | 3 => .cons { id := 1, access := .public } .nil .nil
    | _ => .nil
  found := fun
    | 1 => [⟨5, none, false, .public, false, false, some 1, none⟩]
    | 3 => [⟨4, none, false, .public, false, false, some 3, none⟩,
        ⟨5, none, true, .public, false, false, some 1, none⟩]
    | _ => []
  associated := fun | 1 => [2, 6, 7] | 3 => [2, 6, 7] | _ => [] }

def exMathInput : ToolInput where
  mainFile := t%"/src/my-lib.h"
  world := exMath
  tree := .node 0 [.node 1 [.node 5 []], .node 2 [], .node 3 [.node 4 []], .node 6 [], .node 7 []]
  pick := fun _ => lastSmallest exMath.loc
  iterate := fun g => g.nodes

/-- An instance of each class, an integer, and results. -/
inductive ExTerm where
  | b | d | three
  | result (text : Str)
  deriving DecidableEq, Repr

def ExTerm.text : ExTerm → Str
  | .b => t%"b"
  | .d => t%"d"
  | .three => t%"3"
  | .result s => s

def exMathOperands : PyOperands ExTerm where
  typeOf := fun | .b => some [t%"B"] | .d => some [t%"D"] | _ => none
  loads := fun type _ v =>
    if type = t%"int" then v = .three else if type = t%"::D" then v = .d else v = .b || v = .d
  negate := fun v => .result (t%"not " ++ v.text)
  elsewhere := fun _ _ _ => none
  loads_more := fun _ _ h => h

def exMathApply (k : OperatorKind) (args : List ExTerm) : ExTerm :=
  .result ((t%" " ++ k.spelling ++ t%" ").intercalate (args.map ExTerm.text))

def exMathMro : List Str → List (List Str) := fun p => if p = [t%"D"] then [[t%"B"]] else []

/-- The operators in each class, and results of expressions. -/
def exMathResult : Option (List (List (Nat × Str)) × List (Option (Evaluated ExTerm)) ×
    Option (Evaluated ExTerm) × Option (Evaluated ExTerm)) :=
  let w := exMath
  let i := exMathInput
  let b := buildGraph w.toWorld i.tree
  match b.1 with
  | none => none
  | some graph =>
    let r := analyze w.toWorld b.2.storage i.members t%"my_lib" graph
    let m := emitModule w b.2.storage r.pruned r.vis i.pick r.pruned.nodes 1 t%"my_lib"
    match importModule [m.stream 0] with
    | .error _ => none
    | .ok st =>
      match PyNames.run exMathMro (.start (st.types.map (·.2)) st.modules)
          (definitions (fun x => decide (x ∈ st.types.map (·.2))) [] st.executed) with
      | .error _ => none
      | .ok names =>
        some ([[t%"B"], [t%"D"]].map fun o => st.executed.filterMap fun e =>
            if e.object = o then (operatorOf e.stmt).map fun q => (q.1, q.2.1) else none,
          [(PyOp.add, ExTerm.b, ExTerm.d), (.add, .d, .three), (.eq, .d, .b), (.ne, .b, .d), (.lt, .three, .d),
            (.sub, .b, .b)].map fun q => evaluateExpr exMathApply exMathOperands exMathMro names q.1 q.2.1 q.2.2,
          evaluateExpr exMathApply exMathOperands exMathMro names .gt .d .three,
          evaluateExpr exMathApply exMathOperands exMathMro names .add .d .b)

set_option maxRecDepth 8000 in
/-- `b + d` calls the operator for both; `d + 3` that of the derived class; `d == b` that of the base; `b != d` is
the negation of `d == b`, because the class of `d` is a subclass; `3 < d` is evaluated although the integer
comes first.  There is nothing for `b - b`. -/
theorem exMath_results : exMathResult.map (fun r => (r.1, r.2.1)) =
    some ([[(5, t%"__eq__"), (2, t%"__add__"), (6, t%"__gt__"), (7, t%"__gt__")], [(4, t%"__add__")]],
      [some (.computed 2 (.result t%"b + d")), some (.computed 4 (.result t%"d + 3")),
        some (.computed 5 (.result t%"d == b")), some (.negated 5 (.result t%"not d == b")),
        some (.computed 6 (.result t%"3 < d")), none]) := by
  unfold exMathResult
  eval_run

set_option maxRecDepth 8000 in
/-- C102: the mirrored comparison cannot be left out.  `d > 3` is computed as `3 < d` although there is an operator
for `d > 3`: both are overloads of `__gt__`, and the other one has been declared first. -/
theorem C102_mirrored : exMathResult.map (fun r => r.2.2.1) =
    some (some (.computed 6 (.result t%"3 < d"))) := by
  unfold exMathResult
  eval_run

set_option maxRecDepth 8000 in
/-- C102: the method has to be that of the class itself or of the first base with this method, as assumed in
`C102_left`.  `TypeError` is raised for `d + b`, although the operator for two instances of `B` takes them: the
method of `D` hides that of `B`. -/
theorem C102_hidden : exMathResult.map (fun r => r.2.2.2) = some none := by
  unfold exMathResult
  eval_run

theorem exMath_ok : InputOK exMathInput where
  unit := by
    refine ⟨rfl, fun id => ?_, by simp only [exMathInput]; decide +kernel, fun id p ps => ?_,
      fun id h => ?_, rfl,
      fun a x => ?_, fun a x => ?_, fun a => ?_⟩
    all_goals simp only [exMathInput, exMath]
    · split <;> simp_all [exUnit]
    · split <;> simp <;> rintro rfl rfl <;> rfl
    · split <;> simp_all [exMath, exUnit, exMathInput]
    · split <;> simp
    · split <;> simp
    · split <;> simp
  emit := by
    refine ⟨by simp [exMathInput, exMath, exUnit], ?_, ?_, fun _ _ => rfl⟩
    · intro r f hf _
      have hf : f ∈ exMath.associated r := hf
      have hf' : f = 2 ∨ f = 6 ∨ f = 7 := by
        unfold exMath at hf
        dsimp only at hf
        split at hf <;> simpa using hf
      rcases hf' with rfl | rfl | rfl <;> rfl
    intro d
    simp only [exMathInput, exMath]
    split <;> (try rfl) <;> (split <;> simp_all) <;> rfl
  bases := by
    intro x a
    simp only [exMathInput, exMath, exUnit, EmitWorld.bases]
    split <;> simp [Hierarchy.direct]
  picks := lastSmallest_ok _
  iterate := fun _ => .refl _

theorem exMath_valid : ValidOperators exMathInput where
  ok := by
    intro r _
    refine ⟨by simp [exMathInput, exMath, exUnit], ?_, ?_⟩
    · rintro p d ⟨f, hf, m, hm, hd⟩ _
      simp only [exMathInput, exMath] at hf
      have hf' : (f.decl = 4 ∨ f.decl = 5) ∧ f.shadows = none := by
        split at hf
        · simp at hf; subst hf; exact ⟨.inr rfl, rfl⟩
        · simp at hf
          rcases hf with rfl | rfl
          · exact ⟨.inl rfl, rfl⟩
          · exact ⟨.inr rfl, rfl⟩
        · cases hf
      have hm' : m = f.decl := by
        unfold foundDecl at hm
        repeat' (first | (dsimp only at hm; split at hm) | cases hm)
        all_goals simp_all
      have : d = m := by simpa [specializationsOf, exMathInput, exMath, exUnit] using hd
      subst this
      subst hm'
      rcases hf'.1 with h | h <;> rw [h] <;> rfl
    · intro d
      simp only [exMathInput, exMath]
      split <;> simp [exMathFn, exPlain]
  arity := by
    intro x d k h
    simp only [exMathInput, exMath] at h
    split at h <;> simp at h <;> subst h <;>
      simp [ValidArity, operandTypes, exMathInput, exMath, exMathFn, DeclKind.isMethod]

set_option maxRecDepth 8000 in
theorem exMath_quiet : (handleTranslationUnit exMathInput t%"my_lib" [t%"/a"]).diags = [] := by eval_run

set_option maxRecDepth 8000 in
theorem exMath_written : (handleTranslationUnit exMathInput t%"my_lib" [t%"/a"]).ioError = false := by eval_run

/-- The hypotheses of `C102_run` are met. -/
example : ∃ r, runTool { outputs := [t%"/a"] } exMathInput (fun _ => none) = some r ∧ r.exitCode = 0 ∧
    InputOK exMathInput ∧ ValidOperators exMathInput := by
  have hn : moduleNameFor [] exMathInput.mainFile = some t%"my_lib" :=
    (makeValidIdentifier_eq _).trans (by decide +kernel)
  unfold runTool
  dsimp only
  rw [hn]
  refine ⟨_, rfl, ?_, exMath_ok, exMath_valid⟩
  have h : errorOccurred exMathInput (handleTranslationUnit exMathInput t%"my_lib" [t%"/a"]) = false := by
    unfold errorOccurred
    rw [exMath_quiet, exMath_written]
    rfl
  dsimp only
  rw [show (ToolOptions.outputFiles { outputs := [t%"/a"] }) = [t%"/a"] from rfl, h]
  rfl

end Verif
