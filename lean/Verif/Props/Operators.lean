import Verif.Spec.Python
/-!
# Properties of exposed operators (C39, C40)

`record` is the class, `self` the type of `*this` for member functions, `params` the
types of the (explicit) parameters.  `apply` is what the C++ operators do.
-/
namespace Verif
open Spec

/-- All operators of C++. -/
def allKinds : List OperatorKind :=
  [.new, .delete, .arrayNew, .arrayDelete, .plus, .minus, .star, .slash, .percent, .caret, .amp, .pipe,
   .tilde, .exclaim, .equal, .less, .greater, .plusEqual, .minusEqual, .starEqual, .slashEqual,
   .percentEqual, .caretEqual, .ampEqual, .pipeEqual, .lessLess, .greaterGreater, .lessLessEqual,
   .greaterGreaterEqual, .equalEqual, .exclaimEqual, .lessEqual, .greaterEqual, .spaceship, .ampAmp,
   .pipePipe, .plusPlus, .minusMinus, .comma, .arrowStar, .arrow, .call, .subscript, .conditional,
   .coawait]

theorem mem_allKinds (k : OperatorKind) : k ∈ allKinds := by cases k <;> decide +kernel

/-- All operators of Python. -/
def allPyOps : List PyOp :=
  [.add, .sub, .mul, .truediv, .mod, .xor, .and, .or, .lshift, .rshift, .lt, .le, .eq, .ne, .gt, .ge]

theorem mem_allPyOps (o : PyOp) : o ∈ allPyOps := by cases o <;> decide +kernel

/-- A statement about all operators of C++ can be checked one by one. -/
theorem forall_kinds {P : OperatorKind → Prop} (h : ∀ k ∈ allKinds, P k) (k : OperatorKind) : P k :=
  h k (mem_allKinds k)

/-- A statement about all operators of Python can be checked one by one. -/
theorem forall_ops {P : PyOp → Prop} (h : ∀ k ∈ allPyOps, P k) (k : PyOp) : P k :=
  h k (mem_allPyOps k)

/-- The names for forward and reversed use are the ones called by Python for the
same symbol. -/
theorem names_called : ∀ k : OperatorKind, ∀ r ∈ [true, false], pythonBinaryOperatorName k r ≠ [] →
    (r = false ∧ ∃ o ∈ allPyOps, o.inplace = some (pythonBinaryOperatorName k r) ∧
      o.symbol ++ t%"=" = k.spelling) ∨
    ∃ o ∈ allPyOps, o.symbol = k.spelling ∧
      pythonBinaryOperatorName k r = (if r then o.reflected else o.method) :=
  forall_kinds (by decide +kernel)

/-- Uses of a name as method. -/
theorem uses_method : ∀ k : OperatorKind, ∀ r ∈ [true, false], ∀ o : PyOp,
    o.method = pythonBinaryOperatorName k r →
    (r = false ∧ o.symbol = k.spelling) ∨
    (r = true ∧ o.inplace = none ∧ (mirrored k).map OperatorKind.spelling = some o.symbol) :=
  forall_kinds fun k hk r hr => forall_ops (by revert k r; decide +kernel)

/-- Uses of a name as reflected method. -/
theorem uses_reflected : ∀ k : OperatorKind, ∀ r ∈ [true, false], ∀ o : PyOp,
    o.reflected = pythonBinaryOperatorName k r →
    (r = true ∧ o.symbol = k.spelling) ∨
    (r = false ∧ o.inplace = none ∧ (mirrored k).map OperatorKind.spelling = some o.symbol) :=
  forall_kinds fun k hk r hr => forall_ops (by revert k r; decide +kernel)

/-- Uses of a name for augmented assignment. -/
theorem uses_inplace : ∀ k : OperatorKind, ∀ r ∈ [true, false], ∀ o : PyOp,
    o.inplace = some (pythonBinaryOperatorName k r) → r = false ∧ o.symbol ++ t%"=" = k.spelling :=
  forall_kinds fun k hk r hr => forall_ops (by revert k r; decide +kernel)

/-- What is emitted for a binary operator. -/
theorem emitOperator_binary {record : Nat} {kind : OperatorKind} {self : Option CppType}
    {params : List CppType} {ret : Str} {name : Str} {l : OpLambda} {t0 t1 : CppType}
    (h : emitOperator record kind self params ret = some (name, l))
    (ht : self.toList ++ params = [t0, t1]) :
    name = pythonBinaryOperatorName kind (t0.record ≠ some record) ∧
    l = { params := if t0.record ≠ some record then [(t1.text, .lhs), (t0.text, .rhs)]
            else [(t0.text, .lhs), (t1.text, .rhs)]
          returnType := ret
          body := if t0.record ≠ some record then .binary .rhs kind .lhs
            else .binary .lhs kind .rhs } := by
  unfold emitOperator at h
  rw [ht] at h
  split at h
  · cases h
  · simp only [List.length_cons, List.length_nil, Nat.zero_add, Nat.reduceAdd, Nat.reduceEqDiff,
      decide_false, Bool.false_and, Bool.false_eq_true, if_false, Option.some.injEq,
      Prod.mk.injEq] at h
    obtain ⟨rfl, rfl⟩ := h
    refine ⟨rfl, ?_⟩
    unfold emitOperatorDefinition
    by_cases hr : t0.record = some record <;> simp [hr]

theorem eval_forward {V : Type} (apply : OperatorKind → List V → V) (s t ret : Str) (k : OperatorKind)
    (x y : V) : evalLambda apply ⟨[(s, .lhs), (t, .rhs)], ret, .binary .lhs k .rhs⟩ [x, y] =
      some (apply k [x, y]) := rfl

theorem eval_reverse {V : Type} (apply : OperatorKind → List V → V) (s t ret : Str) (k : OperatorKind)
    (x y : V) : evalLambda apply ⟨[(s, .lhs), (t, .rhs)], ret, .binary .rhs k .lhs⟩ [x, y] =
      some (apply k [y, x]) := rfl

/-- C39: the expression `a op b` of Python, written with the symbol of the C++
operator, can call the emitted method; this evaluates `a op b` in C++, and the types
of the lambda's parameters are the ones of the operands. -/
theorem C39_binary {V : Type} (apply : OperatorKind → List V → V) (record : Nat) (kind : OperatorKind)
    (self : Option CppType) (params : List CppType) (ret name : Str) (l : OpLambda) (t0 t1 : CppType)
    (h : emitOperator record kind self params ret = some (name, l))
    (ht : self.toList ++ params = [t0, t1])
    (hrec : t0.record = some record ∨ t1.record = some record) (hn : name ≠ []) (a b : V) :
    ∃ x y tx ty, Calls kind.spelling a b name x y ∧ evalLambda apply l [x, y] = some (apply kind [a, b]) ∧
      l.params.map (·.1) = [tx.text, ty.text] ∧ tx.record = some record ∧
      (x = a ∧ y = b ∧ tx = t0 ∧ ty = t1 ∨ x = b ∧ y = a ∧ tx = t1 ∧ ty = t0) := by
  obtain ⟨rfl, rfl⟩ := emitOperator_binary h ht
  by_cases hr : t0.record = some record
  · refine ⟨a, b, t0, t1, ?_, by simp [hr, eval_forward, eval_reverse], by simp [hr], hr, .inl ⟨rfl, rfl, rfl, rfl⟩⟩
    rcases names_called kind (decide (t0.record ≠ some record)) (by simp [hr]) hn with
      ⟨_, o, _, h1, h2⟩ | ⟨o, _, h1, h2⟩
    · rw [← h2]
      exact .inplace o _ a b h1
    · rw [← h1, h2]
      simp only [hr, ne_eq, not_true_eq_false, decide_false, Bool.false_eq_true, if_false]
      exact .forward o a b
  · have hr' := hrec.resolve_left hr
    refine ⟨b, a, t1, t0, ?_, by simp [hr, eval_forward, eval_reverse], by simp [hr], hr', .inr ⟨rfl, rfl, rfl, rfl⟩⟩
    rcases names_called kind (decide (t0.record ≠ some record)) (by simp [hr]) hn with
      ⟨h0, _⟩ | ⟨o, _, h1, h2⟩
    · simp [hr] at h0
    · rw [← h1, h2]
      simp only [hr, ne_eq, not_false_eq_true, decide_true, if_true]
      exact .reflected o a b

/-- C39: whichever operator expression of Python calls the emitted method, the result
is the one of the same operator applied to the operands in the same order.  The
exceptions are those of Python itself: if the mirrored comparison is used, the
operands are swapped, and `a op= b` is `a = a op b` without a method for it. -/
theorem C39_uses {V : Type} (apply : OperatorKind → List V → V) (record : Nat) (kind : OperatorKind)
    (self : Option CppType) (params : List CppType) (ret name : Str) (l : OpLambda) (t0 t1 : CppType)
    (h : emitOperator record kind self params ret = some (name, l))
    (ht : self.toList ++ params = [t0, t1])
    (symbol : Str) (a b x y : V) (hc : Calls symbol a b name x y) :
    (evalLambda apply l [x, y] = some (apply kind [a, b]) ∧
      (symbol = kind.spelling ∨ symbol = kind.spelling ++ t%"=")) ∨
    (evalLambda apply l [x, y] = some (apply kind [b, a]) ∧
      ∃ m, mirrored kind = some m ∧ symbol = m.spelling) := by
  obtain ⟨hn, rfl⟩ := emitOperator_binary h ht
  have hev : ∀ x y, evalLambda apply
      { params := if t0.record ≠ some record then [(t1.text, .lhs), (t0.text, .rhs)]
          else [(t0.text, .lhs), (t1.text, .rhs)]
        returnType := ret
        body := if t0.record ≠ some record then .binary .rhs kind .lhs else .binary .lhs kind .rhs }
      [x, y] = some (apply kind (if decide (t0.record ≠ some record) = true then [y, x] else [x, y])) := by
    intro x y
    by_cases hr : t0.record = some record <;> simp [hr, eval_forward, eval_reverse]
  rw [hev]
  generalize hrv : decide (t0.record ≠ some record) = r at hn
  clear hev hrv h
  have hr : r ∈ [true, false] := by cases r <;> simp
  cases hc with
  | forward o =>
    rcases uses_method kind r hr o hn with ⟨rfl, h1⟩ | ⟨rfl, _, h1⟩
    · exact .inl ⟨by simp, .inl h1⟩
    · obtain ⟨m, h2, h3⟩ := Option.map_eq_some_iff.1 h1
      exact .inr ⟨by simp, m, h2, h3.symm⟩
  | reflected o =>
    rcases uses_reflected kind r hr o hn with ⟨rfl, h1⟩ | ⟨rfl, _, h1⟩
    · exact .inl ⟨by simp, .inl h1⟩
    · obtain ⟨m, h2, h3⟩ := Option.map_eq_some_iff.1 h1
      exact .inr ⟨by simp, m, h2, h3.symm⟩
  | inplace o _ _ _ ho =>
    obtain ⟨rfl, h1⟩ := uses_inplace kind r hr o (by rw [ho, hn])
    exact .inl ⟨by simp, .inl h1⟩
  | inplaceForward o _ _ ho =>
    rcases uses_method kind r hr o hn with ⟨rfl, h1⟩ | ⟨rfl, h1, _⟩
    · exact .inl ⟨by simp, .inr (by rw [h1])⟩
    · rw [h1] at ho
      cases ho
  | inplaceReflected o _ _ ho =>
    rcases uses_reflected kind r hr o hn with ⟨rfl, h1⟩ | ⟨rfl, h1, _⟩
    · exact .inl ⟨by simp, .inr (by rw [h1])⟩
    · rw [h1] at ho
      cases ho

/-- C39: unary operators. -/
theorem C39_unary {V : Type} (apply : OperatorKind → List V → V) (record : Nat) (kind : OperatorKind)
    (self : Option CppType) (params : List CppType) (ret name : Str) (l : OpLambda) (t0 : CppType)
    (h : emitOperator record kind self params ret = some (name, l))
    (ht : self.toList ++ params = [t0]) (hn : name ≠ []) (a : V) :
    CallsUnary kind.spelling name ∧ evalLambda apply l [a] = some (apply kind [a]) ∧
      l.params.map (·.1) = [t0.text] := by
  unfold emitOperator at h
  rw [ht] at h
  split at h
  · cases h
  · simp only [List.length_cons, List.length_nil, Nat.zero_add, decide_true, Bool.true_and] at h
    split at h
    · cases h
    · simp only [if_true, Option.some.injEq, Prod.mk.injEq] at h
      obtain ⟨rfl, rfl⟩ := h
      refine ⟨?_, by simp [emitOperatorDefinition, evalLambda, List.lookup],
        by simp [emitOperatorDefinition]⟩
      revert hn
      cases kind <;> simp [pythonUnaryOperatorName]
      · exact .pos
      · exact .neg
      · exact .invert

/-- A member function, a friend with the class as second operand, and a comparison. -/
example : emitOperator 1 .minus (some ⟨t%"const ::T &", some 1⟩) [⟨t%"int", none⟩] t%"::T" =
    some (t%"__sub__", ⟨[(t%"const ::T &", .lhs), (t%"int", .rhs)], t%"::T", .binary .lhs .minus .rhs⟩) := by
  decide +kernel
example : emitOperator 1 .minus none [⟨t%"int", none⟩, ⟨t%"const ::T &", some 1⟩] t%"::T" =
    some (t%"__rsub__", ⟨[(t%"const ::T &", .lhs), (t%"int", .rhs)], t%"::T", .binary .rhs .minus .lhs⟩) := by
  decide +kernel
example : (emitOperator 1 .less none [⟨t%"int", none⟩, ⟨t%"const ::T &", some 1⟩] t%"bool").map
    (fun r => (r.1, r.2.emit)) =
    some (t%"__gt__", t%"[](const ::T & lhs, int rhs) -> bool { return rhs < lhs; }") := by
  decide +kernel
example : emitOperator 1 .tilde none [⟨t%"::T", some 1⟩] t%"::T" =
    some (t%"__invert__", ⟨[(t%"::T", .lhs)], t%"::T", .unary .tilde .lhs⟩) := by decide +kernel
example : Calls t%"<" 3 (5 : Nat) t%"__gt__" 5 3 := .reflected .lt 3 5

/-! ### C40 -/

instance (k : OperatorKind) (n : Nat) : Decidable (ValidArity k n) := by
  unfold ValidArity
  cases k <;> infer_instance

instance (k : OperatorKind) : Decidable (isCompoundAssignment k) := by
  unfold isCompoundAssignment
  infer_instance

theorem arity_bounds (k : OperatorKind) (n : Nat) (ha : ValidArity k n) (hn : neverExposed k = false) :
    n ≠ 0 ∧ n ≤ 2 := by
  revert ha hn
  cases k <;> simp [ValidArity, neverExposed] <;> omega

theorem compound_binary : ∀ k : OperatorKind, ValidArity k 1 → ¬ isCompoundAssignment k :=
  forall_kinds (by decide +kernel)

theorem unary_named : ∀ k : OperatorKind, ValidArity k 1 → neverExposed k = false →
    ¬ (k = .star ∨ k = .amp) →
    (pythonUnaryOperatorName k = [] ↔ k = .exclaim ∨ k = .coawait) :=
  forall_kinds (by decide +kernel)

theorem binary_named : ∀ k : OperatorKind, ∀ r ∈ [true, false], ValidArity k 2 →
    neverExposed k = false →
    (pythonBinaryOperatorName k r = [] ↔
      k = .exclaim ∨ k = .coawait ∨ (isCompoundAssignment k ∧ r = true)) :=
  forall_kinds (by decide +kernel)

/-- C40: the operators emitted without a name are `!`, `co_await`, and compound
assignments whose first operand is not of the class.

Partial: C40 claims that there are none; see `C40_nameless`. -/
theorem C40_named_partial (record : Nat) (kind : OperatorKind) (self : Option CppType)
    (params : List CppType) (ret name : Str) (l : OpLambda)
    (ha : ValidArity kind (self.toList ++ params).length)
    (h : emitOperator record kind self params ret = some (name, l)) :
    name = [] ↔ kind = .exclaim ∨ kind = .coawait ∨
      (isCompoundAssignment kind ∧ ∀ t ∈ (self.toList ++ params).head?, t.record ≠ some record) := by
  unfold emitOperator at h
  generalize self.toList ++ params = types at h ha
  split at h
  · cases h
  · rename_i hne
    dsimp only at h
    split at h
    · cases h
    · rename_i hun
      simp only [Option.some.injEq, Prod.mk.injEq] at h
      obtain ⟨rfl, -⟩ := h
      match types, ha with
      | [], ha => exact absurd ha (fun ha => arity_bounds kind 0 ha (by simpa using hne) |>.1 rfl)
      | [t], ha =>
        have hc : ¬ isCompoundAssignment kind := compound_binary kind ha
        rw [show (if [t].length = 1 then pythonUnaryOperatorName kind
          else pythonBinaryOperatorName kind _) = pythonUnaryOperatorName kind from rfl]
        rw [unary_named kind ha (by simpa using hne) (by simpa using hun)]
        simp [hc]
      | [t, u], ha =>
        rw [show (if [t, u].length = 1 then pythonUnaryOperatorName kind
          else pythonBinaryOperatorName kind (decide (t.record ≠ some record))) =
          pythonBinaryOperatorName kind (decide (t.record ≠ some record)) from rfl]
        rw [binary_named kind (decide (t.record ≠ some record)) (by
          by_cases hr : t.record = some record <;> simp [hr]) ha (by simpa using hne)]
        simp
      | _ :: _ :: _ :: _, ha => exact absurd ha (fun ha => by
          have := (arity_bounds kind _ ha (by simpa using hne)).2
          simp at this)

/-- C40 does not hold: `bool T::operator!() const`, `friend int &operator+=(int &, T)`. -/
theorem C40_nameless :
    (emitOperator 1 .exclaim (some ⟨t%"const ::T &", some 1⟩) [] t%"bool").map
      (fun r => (r.1, r.2.emit)) =
      some ([], t%"[](const ::T & lhs) -> bool { return !lhs; }") ∧
    (emitOperator 1 .plusEqual none [⟨t%"int &", none⟩, ⟨t%"::T", some 1⟩] t%"int &").map
      (fun r => (r.1, r.2.emit)) =
      some ([], t%"[](::T lhs, int & rhs) -> int & { return rhs += lhs; }") := by
  decide +kernel

example : ValidArity .exclaim 1 ∧ ValidArity .plusEqual 2 := ⟨rfl, rfl⟩

end Verif
