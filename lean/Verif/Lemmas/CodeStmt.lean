import Verif.Lemmas.Code
/-! Reading statements. -/
namespace Verif.Spec.Code
open Verif Verif.Spec

/-! ### Targets -/

theorem argument_prefix {p : Str} {x : Str} (hp : Flat 0 p 0) (hx : Flat 0 x 0) {c : Char} {t : Str}
    (hc : p = c :: t) (hs : isSpace c = false) : Argument (p ++ x) :=
  ⟨hp.append hx, c, t ++ x, by simp [hc], hs⟩

/-- The arguments of `overload_cast`. -/
def overloadArgs (f : FnPtr) : List Str :=
  (t%"&::" ++ f.name) :: if f.isConst then [t%"::pybind11::const_"] else []

theorem fnPtr_emit (f : FnPtr) : f.emit = t%"::pybind11::overload_cast<" ++ (joined f.types ++
    '>' :: '(' :: (joined (overloadArgs f) ++ [')'])) := by
  unfold FnPtr.emit overloadArgs
  rw [intercalate_joined]
  cases f.isConst <;> simp [joined]

theorem overloadArgs_argument {f : FnPtr} (h : FnPtr.Clean f) : ∀ x ∈ overloadArgs f, Argument x := by
  have h1 : Argument (t%"&::" ++ f.name) := argument_prefix rfl (h.2.flat 0) rfl rfl
  have h2 : Argument t%"::pybind11::const_" := ⟨rfl, _, _, rfl, rfl⟩
  unfold overloadArgs
  intro x hx
  rcases List.mem_cons.1 hx with rfl | hx
  · exact h1
  · split at hx
    · rw [List.mem_singleton.1 hx]; exact h2
    · cases hx

theorem types_argument {l : List Str} (h : ∀ t ∈ l, Clean t) : ∀ t ∈ l, Argument t :=
  fun t ht => (h t ht).argument

theorem fnPtr_argument {f : FnPtr} (h : FnPtr.Clean f) : Argument f.emit := by
  rw [fnPtr_emit]
  refine argument_prefix (p := t%"::pybind11::overload_cast") rfl ?_ rfl rfl
  refine Flat.append (x := t%"<") (b := 1) rfl ?_
  refine Flat.append (joined_flat _ (types_argument h.1) 0) ?_
  refine Flat.append (x := t%">") (b := 0) rfl ?_
  exact Flat.group (joined_nested _ (overloadArgs_argument h)) rfl rfl

theorem readTarget_fnPtr {f : FnPtr} (h : FnPtr.Clean f) : readTarget f.emit = some (targetOf f) := by
  rw [fnPtr_emit, readTarget, strip_append]
  dsimp only
  rw [angleGroup_angled (joined_angled _ (types_argument h.1))]
  simp only [Option.bind_eq_bind, Option.bind_some]
  rw [splitArgs_joined _ (types_argument h.1)]
  simp only [Option.bind_some]
  rw [group_nested (joined_nested _ (overloadArgs_argument h)) rfl]
  simp only [Option.bind_some, ne_eq, not_true_eq_false, if_false]
  rw [splitArgs_joined _ (overloadArgs_argument h)]
  unfold overloadArgs targetOf
  cases hc : f.isConst with
  | true =>
    simp only [if_true, Option.bind_some]
    rw [strip_append]
    rfl
  | false =>
    simp only [Bool.false_eq_true, if_false, Option.bind_some]
    rw [strip_append]
    rfl

theorem readTarget_lshift {t : Str} (h : Clean t) :
    readTarget (t%"::genpybind::string_from_lshift<" ++ t ++ t%">") = some (.lshift t) := by
  rw [List.append_assoc, readTarget]
  have h1 : strip t%"::pybind11::overload_cast<" (t%"::genpybind::string_from_lshift<" ++ (t ++ t%">")) =
    none := rfl
  rw [h1, strip_append]
  dsimp only
  rw [angleGroup_angled h.angled]
  rfl

theorem lshift_argument {t : Str} (h : Clean t) :
    Argument (t%"::genpybind::string_from_lshift<" ++ t ++ t%">") := by
  refine ⟨?_, _, _, rfl, rfl⟩
  exact (Flat.append (x := t%"::genpybind::string_from_lshift<") (b := 1) rfl (h.flat 1)).append rfl

/-! ### Lambda expressions for operators -/

theorem wordsLoop_word (x : Str) (hx : ∀ c ∈ x, c ≠ ' ') (done t : Str) :
    wordsLoop done (x ++ t) = wordsLoop (x.reverse ++ done) t := by
  induction x generalizing done with
  | nil => rfl
  | cons c x ih =>
    rw [List.cons_append, wordsLoop, if_neg (hx c (by simp)), ih fun d hd => hx d (by simp [hd])]
    simp

theorem spelling_chars (k : OperatorKind) : ∀ c ∈ k.spelling, c ≠ ' ' ∧ c ≠ '{' := by
  cases k <;> decide

theorem opParam_chars (p : OpParam) : ∀ c ∈ p.text, isIdentifierContinue c = true ∧ c ≠ ' ' ∧ c ≠ '{' := by
  cases p <;> decide

/-- The expression in the body. -/
def exprText : OpBody → Str
  | .unary k p => k.spelling ++ p.text
  | .binary p k q => p.text ++ ' ' :: k.spelling ++ ' ' :: q.text

/-- See `operatorOf`. -/
def bodyOf : OpBody → Body
  | .unary k p => .unary k.spelling p.text
  | .binary p k q => .binary p.text k.spelling q.text

theorem exprText_brace (b : OpBody) : ∀ c ∈ exprText b, c ≠ '{' := by
  intro c hc
  cases b with
  | unary k p =>
    rcases List.mem_append.1 hc with hc | hc
    · exact (spelling_chars k c hc).2
    · exact (opParam_chars p c hc).2.2
  | binary p k q =>
    simp only [exprText, List.mem_append, List.mem_cons] at hc
    rcases hc with (hc | rfl | hc) | rfl | hc
    · exact (opParam_chars p c hc).2.2
    · decide
    · exact (spelling_chars k c hc).2
    · decide
    · exact (opParam_chars q c hc).2.2

theorem readBody_expr (b : OpBody)
    (h : match b with
      | .unary k _ => ∀ c ∈ k.spelling, isIdentifierContinue c = false
      | .binary _ _ _ => True) : readBody (exprText b) = some (bodyOf b) := by
  cases b with
  | unary k p =>
    unfold readBody exprText
    have hw : wordsLoop [] (k.spelling ++ p.text) = [k.spelling ++ p.text] := by
      have := wordsLoop_word (k.spelling ++ p.text) (by
        intro c hc
        rcases List.mem_append.1 hc with hc | hc
        · exact (spelling_chars k c hc).1
        · exact (opParam_chars p c hc).2.1) [] []
      rw [List.append_nil] at this
      rw [this]
      simp [wordsLoop]
    simp only [hw]
    rw [span_append]
    · rfl
    · intro c hc
      simp [h c hc]
    · intro c hc
      have : c ∈ p.text := List.mem_of_mem_head? hc
      simp [(opParam_chars p c this).1]
  | binary p k q =>
    unfold readBody exprText
    have hw : wordsLoop [] (p.text ++ ' ' :: k.spelling ++ ' ' :: q.text) = [p.text, k.spelling, q.text] := by
      rw [List.append_assoc, wordsLoop_word _ fun c hc => (opParam_chars p c hc).2.1]
      rw [List.cons_append, wordsLoop, if_pos rfl, wordsLoop_word _ fun c hc => (spelling_chars k c hc).1]
      rw [wordsLoop, if_pos rfl]
      have := wordsLoop_word q.text (fun c hc => (opParam_chars q c hc).2.1) [] []
      rw [List.append_nil] at this
      rw [this]
      simp [wordsLoop]
    rw [hw]
    rfl

/-- The text of a parameter. -/
def paramText (p : Str × OpParam) : Str := p.1 ++ ' ' :: p.2.text

theorem paramText_argument {p : Str × OpParam} (h : Clean p.1) : Argument (paramText p) := by
  obtain ⟨c, t, hx, hc⟩ := h.1
  refine ⟨?_, c, t ++ ' ' :: p.2.text, by simp [paramText, hx], hc⟩
  have : Flat 0 (' ' :: p.2.text) 0 := by
    cases p.2 <;> rfl
  exact (h.flat 0).append this

theorem readParam_text (p : Str × OpParam) : readParam (paramText p) = some (p.1, p.2.text) := by
  unfold readParam paramText
  have : (p.1 ++ ' ' :: p.2.text).reverse = p.2.text.reverse ++ ' ' :: p.1.reverse := by simp
  rw [this, span_append]
  · simp
  · intro c hc
    exact (opParam_chars p.2 c (by simpa using hc)).1
  · intro c hc
    simp at hc
    subst hc
    decide

theorem lambda_emit (l : OpLambda) : l.emit = t%"[]" ++ ('(' :: (joined (l.params.map paramText) ++
    ')' :: (t%" -> " ++ (l.returnType ++ t%" {" ++ (t%" return " ++ (exprText l.body ++ t%"; }")))))) := by
  unfold OpLambda.emit
  rw [intercalate_joined]
  have : (fun p : Str × OpParam => p.1 ++ ' ' :: p.2.text) = paramText := rfl
  rw [this]
  cases hb : l.body <;> simp [exprText]

theorem params_argument {l : OpLambda} (h : OpLambda.Clean l) :
    ∀ x ∈ l.params.map paramText, Argument x := by
  intro x hx
  obtain ⟨p, hp, rfl⟩ := List.mem_map.1 hx
  exact paramText_argument (h.1 p hp)

theorem readTarget_lambda {l : OpLambda} (h : OpLambda.Clean l) :
    readTarget l.emit = some (operatorOf l) := by
  rw [lambda_emit, readTarget]
  have h1 : ∀ t, strip t%"::pybind11::overload_cast<" (t%"[]" ++ t) = none := fun _ => rfl
  have h2 : ∀ t, strip t%"::genpybind::string_from_lshift<" (t%"[]" ++ t) = none := fun _ => rfl
  rw [h1, h2, strip_append]
  simp only [Option.bind_eq_bind, Option.bind_some]
  rw [group_nested (joined_nested _ (params_argument h)) rfl]
  simp only [Option.bind_some]
  rw [splitArgs_joined _ (params_argument h), strip_append]
  simp only [Option.bind_some]
  have hr : (l.returnType ++ t%" {" ++ (t%" return " ++ (exprText l.body ++ t%"; }"))).reverse =
      (t%" return " ++ (exprText l.body ++ t%"; }")).reverse ++ (l.returnType ++ t%" {").reverse := by
    simp
  rw [hr, span_append]
  · simp only [List.reverse_reverse]
    rw [stripEnd_append, strip_append]
    simp only [Option.bind_some]
    rw [stripEnd_append]
    have hp : (l.params.map paramText).mapM readParam = some (l.params.map fun p => (p.1, p.2.text)) := by
      induction l.params with
      | nil => rfl
      | cons p ps ih =>
        rw [List.map_cons, List.mapM_cons, readParam_text, ih]
        rfl
    rw [hp]
    simp only [Option.bind_some]
    rw [readBody_expr _ h.2.2]
    unfold operatorOf bodyOf
    rfl
  · intro c hc
    simp only [List.reverse_append, List.mem_append, List.mem_reverse] at hc
    rcases hc with (hc | hc) | hc
    · revert c; decide
    · simpa using exprText_brace _ c hc
    · revert c; decide
  · intro c hc
    simp at hc
    subst hc
    decide

theorem exprText_nested (b : OpBody) : Nested (exprText b) := by
  have hk : ∀ k : OperatorKind, Nested k.spelling := by
    intro k d
    cases k <;> rfl
  have hp : ∀ p : OpParam, Nested p.text := by
    intro p d
    cases p <;> rfl
  have hs : Nested t%" " := fun _ => rfl
  cases b with
  | unary k p => exact (hk k).append (hp p)
  | binary p k q => exact (((hp p).append (hs.append (hk k)))).append (hs.append (hp q))

theorem lambda_argument {l : OpLambda} (h : OpLambda.Clean l) : Argument l.emit := by
  rw [lambda_emit]
  refine argument_prefix (p := t%"[]") rfl ?_ rfl rfl
  have h1 : Flat 0 ('(' :: joined (l.params.map paramText) ++ [')']) 0 :=
    Flat.group (joined_nested _ (params_argument h)) rfl rfl
  have h2 : Flat 0 t%" -> " 0 := rfl
  have h3 : Flat 0 ('{' :: (t%" return " ++ exprText l.body ++ t%"; ") ++ ['}']) 0 :=
    Flat.group (Nested.append (Nested.append (fun _ => rfl) (exprText_nested _)) (fun _ => rfl)) rfl rfl
  have h4 : Flat 0 t%" " 0 := rfl
  have := h1.append (h2.append ((h.2.1.flat 0).append (h4.append h3)))
  simpa using this

/-! ### Further arguments -/

/-- The argument for a keyword argument. -/
def argText (a : ArgOut) : Str :=
  t%"::pybind11::arg" ++ ('(' :: (emitStringLiteral a.name ++ ')' ::
    ((if a.noconvert then t%".noconvert()" else []) ++
    ((if a.noneFalse then t%".none(false)" else []) ++
    (match a.default with
      | some e => t%" = " ++ e
      | none => [])))))

theorem argText_eq (a : ArgOut) : a.text = t%", " ++ argText a := by
  unfold ArgOut.text argText
  cases a.default <;> simp

theorem argText_argument {a : ArgOut} (h : ArgOut.Clean a) : Argument (argText a) := by
  unfold argText
  refine argument_prefix (p := t%"::pybind11::arg") rfl ?_ rfl rfl
  have h1 : Flat 0 ('(' :: emitStringLiteral a.name ++ [')']) 0 :=
    Flat.group (Flat.literal a.name 0).nested rfl rfl
  have h2 : Flat 0 (if a.noconvert then t%".noconvert()" else []) 0 := by split <;> rfl
  have h3 : Flat 0 (if a.noneFalse then t%".none(false)" else []) 0 := by split <;> rfl
  have h4 : Flat 0 (match a.default with
      | some e => t%" = " ++ e
      | none => []) 0 := by
    cases hd : a.default with
    | none => rfl
    | some e => exact Flat.append (x := t%" = ") (b := 0) rfl ((h.2 e hd).flat 0)
  have := h1.append (h2.append (h3.append h4))
  simpa using this

theorem readExtra_arg {a : ArgOut} (h : ArgOut.Clean a) : readExtra (argText a) = some (extraOf a) := by
  obtain ⟨name, noconvert, noneFalse, default⟩ := a
  unfold argText
  rw [readExtra, strip_append]
  simp only [Option.bind_eq_bind]
  rw [group_nested (Flat.literal _ 0).nested rfl]
  simp only [Option.bind_some]
  rw [literal_emit h.1]
  simp only [Option.bind_some]
  cases noconvert <;> cases noneFalse <;> cases default <;> rfl

/-- The argument for a policy. -/
def policyText : PolicyOut → Str
  | .returnValuePolicy p => t%"pybind11::return_value_policy::" ++ p
  | .keepAlive i j => t%"pybind11::keep_alive<" ++ (joined [printNat i, printNat j] ++ '>' :: t%"()")

theorem policyText_eq (p : PolicyOut) : p.text = t%", " ++ policyText p := by
  cases p with
  | returnValuePolicy p => rfl
  | keepAlive i j => simp [PolicyOut.text, policyText, joined]

theorem printNat_word (n : Nat) : Word (printNat n) := by
  obtain ⟨h1, h2, _⟩ := printNat_spec n
  exact ⟨h1, fun c hc => by simp [isIdentifierContinue, (isDigit_iff c).2 (h2 c hc)]⟩

theorem word_argument {x : Str} (h : Word x) : Argument x := by
  obtain ⟨h1, h2⟩ := h
  cases x with
  | nil => exact absurd rfl h1
  | cons c x => exact ⟨Word.flat h2 0, c, x, rfl, (word_plain (h2 c (by simp))).2.2.2.2.2.2.2.2.2.1⟩

theorem numbers_argument (i j : Nat) : ∀ x ∈ [printNat i, printNat j], Argument x := by
  intro x hx
  simp only [List.mem_cons, List.not_mem_nil, or_false] at hx
  rcases hx with rfl | rfl <;> exact word_argument (printNat_word _)

theorem policyText_argument {p : PolicyOut} (h : PolicyOut.Clean p) : Argument (policyText p) := by
  cases p with
  | returnValuePolicy p =>
    exact argument_prefix (p := t%"pybind11::return_value_policy::") rfl (Clean.flat h 0) rfl rfl
  | keepAlive i j =>
    refine argument_prefix (p := t%"pybind11::keep_alive") rfl ?_ rfl rfl
    refine Flat.append (x := t%"<") (b := 1) rfl ?_
    exact Flat.append (joined_flat _ (numbers_argument i j) 0) rfl

theorem readExtra_policy {p : PolicyOut} : readExtra (policyText p) = some (policyOf p) := by
  cases p with
  | returnValuePolicy p => rfl
  | keepAlive i j =>
    unfold policyText
    rw [readExtra]
    have h1 : ∀ t, strip t%"::pybind11::arg" (t%"pybind11::keep_alive<" ++ t) = none := fun _ => rfl
    have h2 : ∀ t, strip t%"pybind11::return_value_policy::" (t%"pybind11::keep_alive<" ++ t) = none :=
      fun _ => rfl
    rw [h1, h2, strip_append]
    simp only [Option.bind_eq_bind]
    rw [angleGroup_angled (joined_angled _ (numbers_argument i j))]
    simp only [Option.bind_some, ne_eq, not_true_eq_false, if_false]
    rw [splitArgs_joined _ (numbers_argument i j)]
    simp only [Option.bind_some, number_print]
    rfl

/-- Everything after the documentation. -/
def extraTexts (args : List ArgOut) (policies : List PolicyOut) : List Str :=
  args.map argText ++ policies.map policyText

theorem extraTexts_eq (args : List ArgOut) (policies : List PolicyOut) :
    emitArgs args policies = (extraTexts args policies).flatMap (t%", " ++ ·) := by
  unfold emitArgs extraTexts
  rw [List.flatMap_append, List.flatMap_map, List.flatMap_map]
  congr 1
  · congr 1; funext a; exact argText_eq a
  · congr 1; funext a; exact policyText_eq a

theorem extraTexts_argument {args : List ArgOut} {policies : List PolicyOut}
    (ha : ∀ a ∈ args, ArgOut.Clean a) (hp : ∀ p ∈ policies, PolicyOut.Clean p) :
    ∀ x ∈ extraTexts args policies, Argument x := by
  intro x hx
  rcases List.mem_append.1 hx with hx | hx
  · obtain ⟨a, h, rfl⟩ := List.mem_map.1 hx
    exact argText_argument (ha a h)
  · obtain ⟨a, h, rfl⟩ := List.mem_map.1 hx
    exact policyText_argument (hp a h)

theorem mapM_map {α β γ : Type} (f : β → Option γ) (g : α → β) (k : α → γ) (l : List α)
    (h : ∀ x ∈ l, f (g x) = some (k x)) : (l.map g).mapM f = some (l.map k) := by
  induction l with
  | nil => rfl
  | cons x l ih =>
    rw [List.map_cons, List.mapM_cons, h x (by simp), ih fun y hy => h y (by simp [hy])]
    rfl

theorem readExtras {args : List ArgOut} {policies : List PolicyOut}
    (ha : ∀ a ∈ args, ArgOut.Clean a) :
    (extraTexts args policies).mapM readExtra = some (args.map extraOf ++ policies.map policyOf) := by
  unfold extraTexts
  rw [List.mapM_append, mapM_map _ _ extraOf _ fun a h => readExtra_arg (ha a h),
    mapM_map _ _ policyOf _ fun p _ => readExtra_policy]
  rfl

/-! ### Statements -/

/-- A call of a method of the object. -/
def callText (method : Str) (args : List Str) : Str :=
  t%"context." ++ (method ++ '(' :: (joined args ++ [')']))

theorem callText_sentence {method : Str} {args : List Str} (hm : Word method)
    (ha : ∀ x ∈ args, Argument x) : Sentence (callText method args) := by
  refine ⟨?_, _, _, rfl, rfl, by decide, by decide⟩
  refine Flat.append (x := t%"context.") (b := 0) rfl ?_
  exact (Word.flat hm.2 0).append (Flat.group (joined_nested _ ha) rfl rfl)

theorem identifier_word {x : Str} (h : Word x) (c : Char) (t : Str) (hc : isIdentifierContinue c = false) :
    identifier (x ++ c :: t) = (x, c :: t) := by
  refine span_append _ _ _ h.2 ?_
  intro d hd
  simp at hd
  subst hd
  exact hc

theorem readStatement_call {method : Str} {args : List Str} (hm : Word method) (hn : method ≠ t%"attr")
    (ha : ∀ x ∈ args, Argument x) : readStatement (callText method args) = readMethod method args := by
  unfold readStatement callText
  rw [if_neg (by intro h; cases h), strip_append]
  simp only
  rw [identifier_word hm _ _ rfl]
  simp only [Option.bind_eq_bind]
  rw [group_nested (joined_nested _ ha) rfl]
  simp only [Option.bind_some]
  rw [splitArgs_joined _ ha]
  simp only [Option.bind_some, if_neg hn]
  rfl

theorem literal_argument (s : Str) : Argument (emitStringLiteral s) :=
  ⟨Flat.literal s 0, _, _, rfl, rfl⟩

theorem cons_argument {x : Str} {xs : List Str} (h : Argument x) (hs : ∀ y ∈ xs, Argument y) :
    ∀ y ∈ x :: xs, Argument y := by
  intro y hy
  rcases List.mem_cons.1 hy with rfl | hy
  · exact h
  · exact hs y hy

theorem nil_argument : ∀ y ∈ ([] : List Str), Argument y := by simp

theorem strip_literal (c : Char) (p s : Str) (h : c ≠ '"') : strip (c :: p) (emitStringLiteral s) = none := by
  simp [emitStringLiteral, strip, h]

/-- Text of a call in a statement. -/
theorem callText_eq (method : Str) (x : Str) (xs : List Str) (t : Str) :
    callText method (x :: xs) ++ t =
      t%"context." ++ (method ++ (t%"(" ++ (x ++ (xs.flatMap (t%", " ++ ·) ++ (t%")" ++ t))))) := by
  simp [callText, joined]

/-- The first argument for constructors. -/
def initText (types : List Str) : Str := t%"::pybind11::init<" ++ (joined types ++ '>' :: t%"()")

theorem initText_argument {types : List Str} (h : ∀ t ∈ types, Clean t) : Argument (initText types) := by
  refine argument_prefix (p := t%"::pybind11::init") rfl ?_ rfl rfl
  refine Flat.append (x := t%"<") (b := 1) rfl ?_
  exact Flat.append (joined_flat _ (types_argument h) 0) rfl

theorem init_text (w : EmitWorld) (d : Nat) (types : List Str) (doc : Str) (args : List ArgOut)
    (policies : List PolicyOut) : (Stmt.init d types doc args policies).emit w =
      callText t%"def" (initText types :: emitStringLiteral doc :: extraTexts args policies) ++ t%";\n" := by
  rw [callText_eq]
  simp [Stmt.emit, extraTexts_eq, initText, intercalate_joined]

theorem read_init {types : List Str} {doc : Str} {args : List ArgOut} {policies : List PolicyOut}
    (ht : ∀ t ∈ types, Clean t) (hd : Bytes doc) (ha : ∀ a ∈ args, ArgOut.Clean a)
    (hp : ∀ p ∈ policies, PolicyOut.Clean p) :
    Sentence (callText t%"def" (initText types :: emitStringLiteral doc :: extraTexts args policies)) ∧
    readStatement (callText t%"def" (initText types :: emitStringLiteral doc :: extraTexts args policies)) =
      some (.constructor types doc (args.map extraOf ++ policies.map policyOf)) := by
  have hargs := cons_argument (initText_argument ht)
    (cons_argument (literal_argument doc) (extraTexts_argument ha hp))
  have hw : Word t%"def" := ⟨by decide, by decide⟩
  refine ⟨callText_sentence hw hargs, ?_⟩
  rw [readStatement_call hw (by decide) hargs]
  unfold readMethod
  rw [if_pos (by decide)]
  simp only [initText]
  rw [strip_append]
  simp only [Option.bind_eq_bind]
  rw [angleGroup_angled (joined_angled _ (types_argument ht))]
  simp only [Option.bind_some]
  rw [if_neg (by simp), splitArgs_joined _ (types_argument ht), literal_emit hd, readExtras ha]
  rfl

theorem function_text (w : EmitWorld) (d : Nat) (isStatic : Bool) (name : Str) (pointer : FnPtr) (doc : Str)
    (args : List ArgOut) (policies : List PolicyOut) :
    (Stmt.function d isStatic name pointer doc args policies).emit w =
      callText (if isStatic then t%"def_static" else t%"def") (emitStringLiteral name :: pointer.emit ::
        emitStringLiteral doc :: extraTexts args policies) ++ t%";\n" := by
  rw [callText_eq]
  cases isStatic <;> simp [Stmt.emit, extraTexts_eq]

theorem readMethod_def (isStatic : Bool) {name : Str} {target : Str} {r : Target} (hn : Bytes name)
    (ht : readTarget target = some r) :
    readMethod (if isStatic then t%"def_static" else t%"def") [emitStringLiteral name, target] =
      some (.function isStatic name r none []) ∧
    ∀ (doc : Str) (extras : List Str) (es : List Extra), Bytes doc → extras.mapM readExtra = some es →
      readMethod (if isStatic then t%"def_static" else t%"def")
        (emitStringLiteral name :: target :: emitStringLiteral doc :: extras) =
      some (.function isStatic name r (some doc) es) := by
  constructor
  · unfold readMethod
    rw [if_pos (by cases isStatic <;> decide)]
    simp only [strip_literal _ _ _ (show ':' ≠ '"' by decide)]
    rw [literal_emit hn, ht]
    cases isStatic <;> rfl
  · intro doc extras es hd he
    unfold readMethod
    rw [if_pos (by cases isStatic <;> decide)]
    simp only [strip_literal _ _ _ (show ':' ≠ '"' by decide)]
    rw [literal_emit hn, ht, literal_emit hd, he]
    cases isStatic <;> rfl

theorem method_word (isStatic : Bool) : Word (if isStatic then t%"def_static" else t%"def") ∧
    (if isStatic then t%"def_static" else t%"def") ≠ t%"attr" := by
  cases isStatic <;> exact ⟨⟨by decide, by decide⟩, by decide⟩

theorem read_function {isStatic : Bool} {name : Str} {pointer : FnPtr} {doc : Str} {args : List ArgOut}
    {policies : List PolicyOut} (hn : Bytes name) (hf : FnPtr.Clean pointer) (hd : Bytes doc)
    (ha : ∀ a ∈ args, ArgOut.Clean a) (hp : ∀ p ∈ policies, PolicyOut.Clean p) :
    Sentence (callText (if isStatic then t%"def_static" else t%"def") (emitStringLiteral name ::
      pointer.emit :: emitStringLiteral doc :: extraTexts args policies)) ∧
    readStatement (callText (if isStatic then t%"def_static" else t%"def") (emitStringLiteral name ::
      pointer.emit :: emitStringLiteral doc :: extraTexts args policies)) =
      some (.function isStatic name (targetOf pointer) (some doc) (args.map extraOf ++ policies.map policyOf)) := by
  have hargs := cons_argument (literal_argument name) (cons_argument (fnPtr_argument hf)
    (cons_argument (literal_argument doc) (extraTexts_argument ha hp)))
  obtain ⟨hw, hne⟩ := method_word isStatic
  refine ⟨callText_sentence hw hargs, ?_⟩
  rw [readStatement_call hw hne hargs]
  exact (readMethod_def isStatic hn (readTarget_fnPtr hf)).2 _ _ _ hd (readExtras ha)

theorem operator_text (w : EmitWorld) (d : Nat) (name : Str) (l : OpLambda) (doc : Str) :
    (Stmt.operator d name l doc).emit w =
      callText t%"def" [emitStringLiteral name, l.emit, emitStringLiteral doc,
        t%"::pybind11::is_operator()"] ++ t%";\n" := by
  rw [callText_eq]
  simp [Stmt.emit]

theorem read_operator {name : Str} {l : OpLambda} {doc : Str} (hn : Bytes name) (hl : OpLambda.Clean l)
    (hd : Bytes doc) :
    Sentence (callText t%"def" [emitStringLiteral name, l.emit, emitStringLiteral doc,
        t%"::pybind11::is_operator()"]) ∧
    readStatement (callText t%"def" [emitStringLiteral name, l.emit, emitStringLiteral doc,
        t%"::pybind11::is_operator()"]) =
      some (.function false name (operatorOf l) (some doc) [.isOperator]) := by
  have hargs := cons_argument (literal_argument name) (cons_argument (lambda_argument hl)
    (cons_argument (literal_argument doc)
      (cons_argument (x := t%"::pybind11::is_operator()") ⟨rfl, _, _, rfl, rfl⟩ nil_argument)))
  obtain ⟨hw, hne⟩ := method_word false
  refine ⟨callText_sentence hw hargs, ?_⟩
  refine (readStatement_call hw hne hargs).trans ?_
  exact (readMethod_def false hn (readTarget_lambda hl)).2 _ _ _ hd rfl

theorem lshift_text (w : EmitWorld) (d : Nat) (name record : Str) :
    (Stmt.stringFromLshift d name record).emit w =
      callText t%"def" [emitStringLiteral name, t%"::genpybind::string_from_lshift<" ++ record ++ t%">"] ++
      t%";\n" := by
  rw [callText_eq]
  simp [Stmt.emit]

theorem read_lshift {name record : Str} (hn : Bytes name) (hr : Clean record) :
    Sentence (callText t%"def" [emitStringLiteral name,
      t%"::genpybind::string_from_lshift<" ++ record ++ t%">"]) ∧
    readStatement (callText t%"def" [emitStringLiteral name,
      t%"::genpybind::string_from_lshift<" ++ record ++ t%">"]) =
      some (.function false name (.lshift record) none []) := by
  have hargs := cons_argument (literal_argument name) (cons_argument (lshift_argument hr) nil_argument)
  obtain ⟨hw, hne⟩ := method_word false
  refine ⟨callText_sentence hw hargs, ?_⟩
  refine (readStatement_call hw hne hargs).trans ?_
  exact (readMethod_def false hn (readTarget_lshift hr)).1

/-- An assignment to an attribute. -/
def attrText (name value : Str) : Str :=
  t%"context." ++ (t%"attr" ++ '(' :: (joined [emitStringLiteral name] ++ ')' :: (t%" = ::" ++ value)))

theorem attrText_sentence {name value : Str} (hv : Flat 0 value 0) : Sentence (attrText name value) := by
  refine ⟨?_, _, _, rfl, rfl, by decide, by decide⟩
  refine Flat.append (x := t%"context.attr") (b := 0) rfl ?_
  have h1 : Flat 0 ('(' :: joined [emitStringLiteral name] ++ [')']) 0 :=
    Flat.group (joined_nested _ (cons_argument (literal_argument name) nil_argument)) rfl rfl
  have h2 : Flat 0 t%" = ::" 0 := rfl
  have := h1.append (h2.append hv)
  simpa using this

theorem readStatement_attr {name value : Str} (hn : Bytes name) :
    readStatement (attrText name value) =
      (match strip t%"genpybind::getObjectForType<" value with
        | some value => do
          let (type, t) ← angleGroup value
          if t = t%"()" then return .typeAttribute name type else none
        | none => return .attribute name value) := by
  unfold readStatement attrText
  rw [if_neg (by intro h; cases h), strip_append]
  simp only
  rw [identifier_word (x := t%"attr") ⟨by decide, by decide⟩ _ _ rfl]
  simp only [Option.bind_eq_bind]
  have hargs := cons_argument (literal_argument name) nil_argument
  rw [group_nested (joined_nested _ hargs) rfl]
  simp only [Option.bind_some]
  rw [splitArgs_joined _ hargs]
  simp only [Option.bind_some, if_true]
  rw [strip_append]
  simp only [Option.bind_some]
  rw [literal_emit hn]
  rfl

theorem typeAttr_text (w : EmitWorld) (d : Nat) (name target : Str) :
    (Stmt.typeAttr d name target).emit w =
      attrText name (t%"genpybind::getObjectForType<" ++ (target ++ '>' :: t%"()")) ++ t%";\n" := by
  simp [Stmt.emit, attrText, joined]

theorem read_typeAttr {name target : Str} (hn : Bytes name) (ht : Clean target) :
    Sentence (attrText name (t%"genpybind::getObjectForType<" ++ (target ++ '>' :: t%"()"))) ∧
    readStatement (attrText name (t%"genpybind::getObjectForType<" ++ (target ++ '>' :: t%"()"))) =
      some (.typeAttribute name target) := by
  constructor
  · refine attrText_sentence ?_
    refine Flat.append (x := t%"genpybind::getObjectForType<") (b := 1) rfl ?_
    exact (ht.flat 1).append rfl
  · rw [readStatement_attr hn, strip_append]
    simp only [Option.bind_eq_bind]
    rw [angleGroup_angled ht.angled]
    rfl

theorem valueAttr_text (w : EmitWorld) (d : Nat) (name qualified : Str) :
    (Stmt.valueAttr d name qualified).emit w = attrText name qualified ++ t%";\n" := by
  simp [Stmt.emit, attrText, joined]

theorem read_valueAttr {name qualified : Str} (hn : Bytes name) (hq : Clean qualified)
    (h : strip t%"genpybind::getObjectForType<" qualified = none) :
    Sentence (attrText name qualified) ∧
    readStatement (attrText name qualified) = some (.attribute name qualified) := by
  refine ⟨attrText_sentence (hq.flat 0), ?_⟩
  rw [readStatement_attr hn, h]
  rfl

theorem property_text (w : EmitWorld) (name : Str) (getter : FnPtr) (setter : Option FnPtr) :
    (Stmt.property name getter setter).emit w =
      callText (if setter.isSome then t%"def_property" else t%"def_property_readonly")
        (emitStringLiteral name :: getter.emit :: (setter.toList.map FnPtr.emit)) ++ t%";\n" := by
  rw [callText_eq]
  cases setter <;> simp [Stmt.emit]

theorem read_property {name : Str} {getter : FnPtr} {setter : Option FnPtr} (hn : Bytes name)
    (hg : FnPtr.Clean getter) (hs : ∀ s, setter = some s → FnPtr.Clean s) :
    Sentence (callText (if setter.isSome then t%"def_property" else t%"def_property_readonly")
        (emitStringLiteral name :: getter.emit :: (setter.toList.map FnPtr.emit))) ∧
    readStatement (callText (if setter.isSome then t%"def_property" else t%"def_property_readonly")
        (emitStringLiteral name :: getter.emit :: (setter.toList.map FnPtr.emit))) =
      some (.property name (targetOf getter) (setter.map targetOf)) := by
  cases setter with
  | none =>
    have hargs := cons_argument (literal_argument name) (cons_argument (fnPtr_argument hg) nil_argument)
    have hw : Word t%"def_property_readonly" := ⟨by decide, by decide⟩
    refine ⟨callText_sentence hw hargs, (readStatement_call hw (by decide) hargs).trans ?_⟩
    unfold readMethod
    rw [if_neg (by decide), if_neg (by decide), if_pos (by decide)]
    simp only [literal_emit hn, readTarget_fnPtr hg]
    rfl
  | some s =>
    have hargs := cons_argument (literal_argument name) (cons_argument (fnPtr_argument hg)
      (cons_argument (fnPtr_argument (hs s rfl)) nil_argument))
    have hw : Word t%"def_property" := ⟨by decide, by decide⟩
    refine ⟨callText_sentence hw hargs, (readStatement_call hw (by decide) hargs).trans ?_⟩
    unfold readMethod
    rw [if_neg (by decide), if_pos (by decide)]
    simp only [literal_emit hn, readTarget_fnPtr hg, readTarget_fnPtr (hs s rfl)]
    rfl

/-- The method for members. -/
def memberMethod (readonly isStatic : Bool) : Str :=
  (if readonly then t%"def_readonly" else t%"def_readwrite") ++ (if isStatic then t%"_static" else [])

theorem field_text (w : EmitWorld) (d : Nat) (readonly isStatic : Bool) (name qualified : Str) :
    (Stmt.field d readonly isStatic name qualified).emit w =
      callText (memberMethod readonly isStatic) [emitStringLiteral name, t%"&::" ++ qualified] ++ t%";\n" := by
  rw [callText_eq]
  cases readonly <;> cases isStatic <;> simp [Stmt.emit, memberMethod]

theorem read_field {readonly isStatic : Bool} {name qualified : Str} (hn : Bytes name) (hq : Clean qualified) :
    Sentence (callText (memberMethod readonly isStatic) [emitStringLiteral name, t%"&::" ++ qualified]) ∧
    readStatement (callText (memberMethod readonly isStatic) [emitStringLiteral name, t%"&::" ++ qualified]) =
      some (.member isStatic (!readonly) name qualified) := by
  have hargs := cons_argument (literal_argument name) (cons_argument
    (argument_prefix (p := t%"&::") rfl (hq.flat 0) rfl rfl) nil_argument)
  have hw : Word (memberMethod readonly isStatic) := by
    cases readonly <;> cases isStatic <;> exact ⟨by decide, by decide⟩
  refine ⟨callText_sentence hw hargs, (readStatement_call hw (by
    cases readonly <;> cases isStatic <;> decide) hargs).trans ?_⟩
  unfold readMethod
  cases readonly <;> cases isStatic <;>
  · rw [if_neg (by decide), if_neg (by decide), if_neg (by decide), if_neg (by decide), if_neg (by decide)]
    simp only [literal_emit hn, strip_append]
    rfl

theorem enumValue_text (w : EmitWorld) (d : Nat) (name scope enumerator doc : Str) :
    (Stmt.enumValue d name scope enumerator doc).emit w =
      callText t%"value" (emitStringLiteral name :: (scope ++ t%"::" ++ enumerator) ::
        ((optional doc).toList.map emitStringLiteral)) ++ t%";\n" := by
  rw [callText_eq]
  unfold optional
  cases doc <;> simp [Stmt.emit, emitOptionalDoc]

theorem read_enumValue {name scope enumerator doc : Str} (hn : Bytes name) (hs : Clean scope)
    (he : Clean enumerator) (hd : Bytes doc) :
    Sentence (callText t%"value" (emitStringLiteral name :: (scope ++ t%"::" ++ enumerator) ::
        ((optional doc).toList.map emitStringLiteral))) ∧
    readStatement (callText t%"value" (emitStringLiteral name :: (scope ++ t%"::" ++ enumerator) ::
        ((optional doc).toList.map emitStringLiteral))) =
      some (.enumerator name (scope ++ t%"::" ++ enumerator) (optional doc)) := by
  have hv : Argument (scope ++ t%"::" ++ enumerator) := by
    obtain ⟨c, t, hx, hc⟩ := hs.1
    exact ⟨((hs.flat 0).append (y := t%"::") (c := 0) rfl).append (he.flat 0), c, t ++ t%"::" ++ enumerator,
      by simp [hx], hc⟩
  have hargs := cons_argument (literal_argument name) (cons_argument hv
    (xs := (optional doc).toList.map emitStringLiteral) (by
      intro y hy
      obtain ⟨z, _, rfl⟩ := List.mem_map.1 hy
      exact literal_argument z))
  have hw : Word t%"value" := ⟨by decide, by decide⟩
  refine ⟨callText_sentence hw hargs, (readStatement_call hw (by decide) hargs).trans ?_⟩
  unfold readMethod
  rw [if_neg (by decide), if_neg (by decide), if_neg (by decide), if_pos (by decide)]
  unfold optional
  by_cases h : doc = []
  · subst h
    simp only [if_true, Option.toList, List.map_nil, literal_emit hn]
    rfl
  · simp only [if_neg h, Option.toList, List.map_cons, List.map_nil, literal_emit hn, literal_emit hd]
    rfl

theorem implicit_text (w : EmitWorld) (d : Nat) (source target : Str) :
    (Stmt.implicitlyConvertible d source target).emit w =
      (t%"::pybind11::implicitly_convertible<" ++ (joined [source, target] ++ '>' :: t%"()")) ++ t%";\n" := by
  simp [Stmt.emit, joined]

theorem read_implicit {source target : Str} (hs : Clean source) (ht : Clean target) :
    Sentence (t%"::pybind11::implicitly_convertible<" ++ (joined [source, target] ++ '>' :: t%"()")) ∧
    readStatement (t%"::pybind11::implicitly_convertible<" ++ (joined [source, target] ++ '>' :: t%"()")) =
      some (.implicitlyConvertible source target) := by
  have hargs := cons_argument hs.argument (cons_argument ht.argument nil_argument)
  constructor
  · refine ⟨?_, _, _, rfl, rfl, by decide, by decide⟩
    refine Flat.append (x := t%"::pybind11::implicitly_convertible<") (b := 1) rfl ?_
    exact (joined_flat _ hargs 0).append rfl
  · unfold readStatement
    have h1 : ∀ t, strip t%"context." (t%"::pybind11::implicitly_convertible<" ++ t) = none := fun _ => rfl
    rw [if_neg (by intro h; cases h), h1, strip_append]
    simp only [Option.bind_eq_bind]
    rw [angleGroup_angled (joined_angled _ hargs)]
    simp only [Option.bind_some, ne_eq, not_true_eq_false, if_false]
    rw [splitArgs_joined _ hargs]
    rfl

end Verif.Spec.Code
