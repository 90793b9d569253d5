import Verif.Spec.DefaultArgument
/-!
# Default arguments keep their meaning (C63)
-/
namespace Verif.DefaultArgument

/-! ### The state of the printer -/

mutual
theorem Expr.visit_state : ∀ (e : Expr) (w : Bool), (e.visit w).2 = w
  | .wrapper e, w => e.visit_state w
  | .other ps, w => ps.visit_state w
  | .initList t es, w => by
    cases w <;> simp [Expr.visit, prepend, surround, es.visit_state]
  | .construct t list std args, w => by
    cases w <;> cases list <;> cases std <;> simp [Expr.visit, prepend, surround, args.visit_state]
  | .temporary t list std args, w => by
    cases std <;> simp [Expr.visit, surround, args.visit_state]
  | .cStyleCast t e, w => by simp [Expr.visit, surround, e.visit_state]
  | .namedCast c t e, w => by simp [Expr.visit, surround, e.visit_state]
  | .functionalCast t p e, w => by simp [Expr.visit, surround, e.visit_state]
  | .declRef r, w => rfl
  | .member base arrow r, w => by simp [Expr.visit, surround, base.visit_state]
theorem Args.visit_state : ∀ (args : Args) (stop comma w : Bool), (args.visit stop comma w).2 = w
  | .nil, _, _, _ => rfl
  | .cons e d rest, stop, comma, w => by
    unfold Args.visit
    split
    · rfl
    · simp [surround, e.visit_state, rest.visit_state]
theorem Parts.visit_state : ∀ (ps : Parts) (w : Bool), (ps.visit w).2 = w
  | .nil, _ => rfl
  | .text s rest, w => by simp [Parts.visit, surround, rest.visit_state]
  | .sub e rest, w => by simp [Parts.visit, surround, e.visit_state, rest.visit_state]
end

/-- C63: what is printed for a default argument does not depend on other parameters of the
function, although all of them are printed by the same object. -/
theorem C63_independent (es : List (Option Expr)) :
    printDefaults es false = es.map (Option.map fun e => (e.visit false).1) := by
  induction es with
  | nil => rfl
  | cons e es ih =>
    cases e with
    | none => simp [printDefaults, ih]
    | some e => simp [printDefaults, e.visit_state, ih]

/-! ### Meaning -/

mutual
theorem Reads.nested : ∀ {n ts m}, Reads n ts m → Reads true ts m
  | _, _, _, .opaque h => .opaque h.nested
  | _, _, _, .typed h => .typed h
  | _, _, _, .untyped h => .untyped h
  | _, _, _, .call h => .call h.nested
  | _, _, _, .cStyleCast h => .cStyleCast h.nested
  | _, _, _, .namedCast h => .namedCast h.nested
  | _, _, _, .entity h => .entity h
  | _, _, _, .member h h' => .member h.nested h'
theorem ReadsArgs.nested : ∀ {n ts ms}, ReadsArgs n ts ms → ReadsArgs true ts ms
  | _, _, _, .nil => .nil
  | _, _, _, .single h => .single h.nested
  | _, _, _, .cons h h' hne => .cons h.nested h'.nested hne
theorem ReadsParts.nested : ∀ {n ts ps}, ReadsParts n ts ps → ReadsParts true ts ps
  | _, _, _, .nil => .nil
  | _, _, _, .text h => .text h.nested
  | _, _, _, .sub h h' => .sub h.nested h'.nested
end

theorem Ref.reads (r : Ref) (hl : r.isLocal = false) (hn : r.name ≠ []) :
    ReadsName r.print r.scopes r.name r.arguments := by
  have := ReadsName.mk r.scopes r.template r.name r.arguments hn
  simpa [Ref.print, Ref.printNestedNameSpecifier, hl] using this

theorem Args.allDefault_spec : ∀ (args : Args), args.allDefault → ∀ comma w n,
    (args.visit true comma w).1 = [] ∧ args.meaning n = .nil
  | .nil, _, _, _, _ => ⟨rfl, rfl⟩
  | .cons e d rest, h, comma, w, n => by
    obtain ⟨hd, hr⟩ := h
    subst hd
    exact ⟨by simp [Args.visit], by simpa [Args.meaning] using (rest.allDefault_spec hr comma w n).2⟩

/-- The text of a list of arguments that follows other arguments. -/
def withComma (ms : Meanings) (ts : List Tok) : List Tok :=
  match ms with
  | .nil => []
  | .cons _ _ => .text t%", " :: ts

/-- A list in braces without its type, which means `m` as part of another initializer. -/
def IsList (ts : List Tok) (m : Meaning) : Prop :=
  ∃ es ms, ts = .text t%"{" :: es ++ [.text t%"}"] ∧ ReadsArgs true es ms ∧ m = .braces none ms

theorem IsList.reads {ts m} (h : IsList ts m) : Reads true ts m := by
  obtain ⟨es, ms, rfl, h, rfl⟩ := h
  exact .untyped h

theorem IsList.withType {ts m} (h : IsList ts m) (n : Bool) (t : Str) :
    Reads n (.type t :: ts) (m.withType t) := by
  obtain ⟨es, ms, rfl, h, rfl⟩ := h
  exact .typed h

mutual
theorem Expr.reads : ∀ (e : Expr) (n : Bool), e.Supported n → Reads n (e.visit n).1 (e.meaning n)
  | .wrapper e, n, h => e.reads n h
  | .other ps, n, h => .opaque (ps.reads n h)
  | .initList t es, n, h => by
    have := (es.reads false true h).1
    cases n
    · exact .typed this
    · exact .untyped this
  | .construct t list std args, n, h => by
    obtain ⟨h1, h2⟩ := h
    cases list with
    | false =>
      obtain ⟨e, rest, rfl, hr⟩ := h2
      simp only [Bool.false_or] at h1
      have he : e.Supported n := h1.1
      have hv := fun w => (rest.allDefault_spec hr true w n).1
      simpa [Expr.visit, Expr.meaning, Args.visit, Args.single, surround, hv] using e.reads n he
    | true =>
      cases std with
      | false =>
        have := (args.reads true true h1).1
        cases n
        · exact .typed this
        · exact .untyped this
      | true =>
        have := args.list h1 (h2 rfl)
        cases n
        · simpa [Expr.visit, Expr.meaning, prepend] using this.withType false t
        · simpa [Expr.visit, Expr.meaning, prepend] using this.reads
  | .temporary t list std args, n, h => by
    obtain ⟨h1, h2⟩ := h
    cases std with
    | true =>
      obtain ⟨rfl, rfl, h3⟩ := h2 rfl
      simpa [Expr.visit, Expr.meaning, surround] using (args.list h1 h3).withType true t
    | false =>
      have := (args.reads true n h1).1
      cases list
      · exact .call this
      · exact .typed this.nested
  | .cStyleCast t e, n, h => by
    simpa [Expr.visit, Expr.meaning, surround] using Reads.cStyleCast (t := t) (e.reads n h)
  | .namedCast c t e, n, h => .namedCast (e.reads n h)
  | .functionalCast t parens e, n, h => by
    obtain ⟨h1, h2⟩ := h
    cases parens with
    | true => exact .call (.single (e.reads n h1))
    | false =>
      obtain ⟨rfl, h3⟩ := h2 rfl
      simpa [Expr.visit, Expr.meaning, surround] using (e.list h1 h3).withType true t
  | .declRef r, n, h => by
    simpa [Expr.visit, Expr.meaning, h.1] using Reads.entity (r.reads h.1 h.2)
  | .member base arrow r, n, h => by
    obtain ⟨h1, h2, h3, h4, h5⟩ := h
    simpa [Expr.visit, Expr.meaning, surround, h2, h5] using
      Reads.member (arrow := arrow) (base.reads n h1) (r.reads h3 h4)
theorem Expr.list : ∀ (e : Expr), e.Supported true → e.isBraces = true →
    IsList (e.visit true).1 (e.meaning true)
  | .wrapper e, h, hb => e.list h hb
  | .initList t es, h, _ => ⟨_, _, rfl, (es.reads false true h).1, rfl⟩
  | .construct t list std args, h, hb => by
    obtain ⟨h1, h2⟩ := h
    simp only [Expr.isBraces, Bool.and_eq_true, Bool.or_eq_true, Bool.not_eq_true'] at hb
    obtain ⟨rfl, hb⟩ := hb
    cases std with
    | false => exact ⟨_, _, rfl, (args.reads true true h1).1, rfl⟩
    | true => exact args.list h1 (hb.resolve_left (by simp))
theorem Args.list : ∀ (args : Args), args.Supported true true → args.isBraces = true →
    IsList (args.visit true false true).1 (args.single true)
  | .cons e false .nil, h, hb => by
    simpa [Args.visit, Args.single, surround] using e.list h.1 hb
  | .cons e false (.cons e' true rest), h, hb => by
    simpa [Args.visit, Args.single, surround] using e.list h.1 hb
theorem Args.reads : ∀ (args : Args) (c n : Bool), args.Supported c n →
    ReadsArgs n (args.visit c false n).1 (args.meaning n) ∧
    (args.visit c true n).1 = withComma (args.meaning n) (args.visit c false n).1
  | .nil, _, _, _ => ⟨.nil, rfl⟩
  | .cons e true rest, c, n, h => by
    obtain ⟨rfl, hr⟩ := h
    have := fun comma => rest.allDefault_spec hr comma n n
    simp only [Args.visit, Args.meaning, (this true).2]
    exact ⟨.nil, rfl⟩
  | .cons e false rest, c, n, h => by
    obtain ⟨he, hr⟩ : e.Supported n ∧ rest.Supported c n := h
    have h1 := e.reads n he
    obtain ⟨h2, h3⟩ := rest.reads c n hr
    simp only [Args.visit, Args.meaning, Bool.and_false, Bool.false_eq_true, if_false, surround,
      e.visit_state, List.append_nil, List.nil_append, h3, if_true, List.cons_append]
    refine ⟨?_, rfl⟩
    generalize hm : rest.meaning n = ms at *
    cases ms with
    | nil => simpa [withComma] using ReadsArgs.single h1
    | cons m ms => exact .cons h1 h2 (by simp)
theorem Parts.reads : ∀ (ps : Parts) (n : Bool), ps.Supported n → ReadsParts n (ps.visit n).1 (ps.meaning n)
  | .nil, _, _ => .nil
  | .text s rest, n, h => by
    simpa [Parts.visit, Parts.meaning, surround] using ReadsParts.text (rest.reads n h)
  | .sub e rest, n, h => by
    simpa [Parts.visit, Parts.meaning, surround, e.visit_state] using
      ReadsParts.sub (e.reads n h.1) (rest.reads n h.2)
end

/-- C63: printed default arguments mean the same in the global namespace as they do where the
function is declared.  Partial: excluded are the cases below (`Expr.Supported`). -/
theorem C63_meaning_partial (e : Expr) (h : e.Supported false) :
    Reads false (e.visit false).1 (e.meaning false) := e.reads false h

/-! ### Cases that are not supported -/

/-- Every type is followed by a brace or parenthesis. -/
def followed : List Tok → Bool
  | [] => true
  | .type _ :: .text _ :: ts => followed ts
  | .type _ :: _ => false
  | _ :: ts => followed ts

theorem followed_append : ∀ (xs ys : List Tok), followed xs = true → followed ys = true →
    followed (xs ++ ys) = true
  | [], _, _, h => h
  | .raw _ :: xs, ys, h, h' => followed_append xs ys h h'
  | .text _ :: xs, ys, h, h' => followed_append xs ys h h'
  | .scope _ :: xs, ys, h, h' => followed_append xs ys h h'
  | .name _ _ :: xs, ys, h, h' => followed_append xs ys h h'
  | .type _ :: .text _ :: xs, ys, h, h' => followed_append xs ys h h'
  | .type _ :: .raw _ :: _, _, h, _ => absurd h Bool.false_ne_true
  | .type _ :: .type _ :: _, _, h, _ => absurd h Bool.false_ne_true
  | .type _ :: .scope _ :: _, _, h, _ => absurd h Bool.false_ne_true
  | .type _ :: .name _ _ :: _, _, h, _ => absurd h Bool.false_ne_true
  | .type _ :: [], _, h, _ => absurd h Bool.false_ne_true

theorem followed_scopes (ss : List Str) : followed (ss.map .scope) = true := by
  induction ss with
  | nil => rfl
  | cons s ss ih => exact ih

theorem ReadsName.followed {ts scopes name args} (h : ReadsName ts scopes name args) :
    followed ts = true := by
  cases h with | mk _ template _ _ _ => ?_
  refine followed_append _ _ (followed_append (.text _ :: _) _ ?_ ?_) rfl
  · exact followed_scopes scopes
  · cases template <;> rfl

mutual
theorem Reads.followed : ∀ {n ts m}, Reads n ts m → followed ts = true
  | _, _, _, .opaque h => h.followed
  | _, _, _, .typed h => followed_append _ _ h.followed rfl
  | _, _, _, .untyped h => followed_append (.text _ :: _) _ h.followed rfl
  | _, _, _, .call h => followed_append _ _ h.followed rfl
  | _, _, _, .cStyleCast h => h.followed
  | _, _, _, .namedCast h => followed_append _ _ h.followed rfl
  | _, _, _, .entity h => h.followed
  | _, _, _, .member h h' => followed_append _ _ h.followed h'.followed
theorem ReadsArgs.followed : ∀ {n ts ms}, ReadsArgs n ts ms → followed ts = true
  | _, _, _, .nil => rfl
  | _, _, _, .single h => h.followed
  | _, _, _, .cons h h' _ => followed_append _ _ h.followed h'.followed
theorem ReadsParts.followed : ∀ {n ts ps}, ReadsParts n ts ps → followed ts = true
  | _, _, _, .nil => rfl
  | _, _, _, .text h => h.followed
  | _, _, _, .sub h h' => followed_append _ _ h.followed h'.followed
end

/-- Outside of braced initializers, a list initializer starts with its type. -/
theorem Expr.isBraces_typed : ∀ (e : Expr), e.isBraces = true → ∃ t ts, (e.visit false).1 = .type t :: ts
  | .wrapper e, h => e.isBraces_typed h
  | .initList t es, _ => ⟨t, _, rfl⟩
  | .construct t list std args, h => by
    cases list with
    | false => cases h
    | true => exact ⟨t, _, rfl⟩

/-- C63: if an aggregate or scalar is initialized by `T{...}`, its type is printed twice. -/
theorem C63_type_twice (t : Str) (e : Expr) (he : e.isBraces = true) (m : Meaning) :
    ¬ Reads false ((Expr.functionalCast t false e).visit false).1 m := by
  intro h
  obtain ⟨t', ts, hv⟩ := e.isBraces_typed he
  have := h.followed
  simp [Expr.visit, surround, hv, followed] at this

/-- C63: if `T{...}` calls a constructor that takes a `std::initializer_list`, the type of the
underlying array is printed as well. -/
theorem C63_initializer_list (t : Str) (list : Bool) (e : Expr) (he : e.isBraces = true) (rest : Args)
    (m : Meaning) :
    ¬ Reads false ((Expr.temporary t list true (.cons e false rest)).visit false).1 m := by
  intro h
  obtain ⟨t', ts, hv⟩ := e.isBraces_typed he
  have := h.followed
  simp [Expr.visit, Args.visit, surround, hv, followed] at this

/-- C63: names of parameters, e.g. of lambda expressions, are looked up in the global namespace. -/
theorem C63_local (r : Ref) (hr : r.isLocal = true) (n : Bool) (ts : List Tok) :
    ¬ Reads n ts ((Expr.declRef r).meaning n) := by
  intro h
  simp only [Expr.meaning, hr, if_true] at h
  cases h

/-- C63: virtual functions are called without dynamic dispatch. -/
theorem C63_virtual (base : Expr) (arrow : Bool) (r : Ref) (hr : r.isVirtual = true)
    (hl : r.isLocal = false) (hn : r.name ≠ []) (ha : base.isAnonymousField = false) (n : Bool)
    (hb : base.Supported n) :
    ¬ Reads n ((Expr.member base arrow r).visit n).1 ((Expr.member base arrow r).meaning n) ∧
    Reads n ((Expr.member base arrow r).visit n).1
      (.member (base.meaning n) arrow r.scopes r.name r.arguments false) := by
  constructor
  · intro h
    simp only [Expr.meaning, hr] at h
    generalize ((Expr.member base arrow r).visit n).1 = ts at h
    cases h
  · simpa [Expr.visit, surround, ha] using
      Reads.member (arrow := arrow) (base.reads n hb) (r.reads hl hn)

/-- All names are given. -/
def named (ts : List Tok) : Prop := ∀ s args, Tok.name s args ∈ ts → s ≠ []

theorem ReadsName.named {ts scopes name args} (h : ReadsName ts scopes name args) : named ts := by
  cases h with | mk _ template _ _ h => ?_
  intro s args hm
  cases template <;> simp at hm <;> exact hm.1 ▸ h

theorem named_append {xs ys : List Tok} (hx : named xs) (hy : named ys) : named (xs ++ ys) :=
  fun s args h => (List.mem_append.1 h).elim (hx s args) (hy s args)

theorem named_cons {x : Tok} {ys : List Tok} (hx : ∀ s args, x ≠ .name s args) (hy : named ys) :
    named (x :: ys) :=
  fun s args h => (List.mem_cons.1 h).elim (fun h => absurd h.symm (hx s args)) (hy s args)

theorem named_nil : named [] := fun _ _ h => nomatch h

mutual
theorem Reads.named : ∀ {n ts m}, Reads n ts m → named ts
  | _, _, _, .opaque h => h.named
  | _, _, _, .typed h => named_cons (by simp) (named_cons (by simp) (named_append h.named
      (named_cons (by simp) named_nil)))
  | _, _, _, .untyped h => named_cons (by simp) (named_append h.named (named_cons (by simp) named_nil))
  | _, _, _, .call h => named_cons (by simp) (named_cons (by simp) (named_append h.named
      (named_cons (by simp) named_nil)))
  | _, _, _, .cStyleCast h => named_cons (by simp) (named_cons (by simp) (named_cons (by simp) h.named))
  | _, _, _, .namedCast h => named_cons (by simp) (named_cons (by simp) (named_cons (by simp)
      (named_cons (by simp) (named_append h.named (named_cons (by simp) named_nil)))))
  | _, _, _, .entity h => h.named
  | _, _, _, .member h h' => named_append h.named (named_cons (by simp) h'.named)
theorem ReadsArgs.named : ∀ {n ts ms}, ReadsArgs n ts ms → named ts
  | _, _, _, .nil => named_nil
  | _, _, _, .single h => h.named
  | _, _, _, .cons h h' _ => named_append h.named (named_cons (by simp) h'.named)
theorem ReadsParts.named : ∀ {n ts ps}, ReadsParts n ts ps → named ts
  | _, _, _, .nil => named_nil
  | _, _, _, .text h => named_cons (by simp) h.named
  | _, _, _, .sub h h' => named_append h.named h'.named
end

/-- C63: access to a member of an anonymous struct or union includes the name of the latter,
which is empty. -/
theorem C63_anonymous (base : Expr) (arrow arrow' : Bool) (r field : Ref) (hf : field.name = [])
    (n : Bool) (m : Meaning) :
    ¬ Reads n ((Expr.member (.member base arrow' field) arrow r).visit n).1 m := by
  intro h
  refine h.named [] field.arguments ?_ rfl
  simp [Expr.visit, surround, Ref.print, hf]

/-- C63: the text does not tell to which type an initializer is converted implicitly: for
`void f(A a = 5)` the default value on the side of Python is an integer. -/
theorem C63_conversion (t t' : Str) (e : Expr) :
    (Expr.construct t false false (.cons e false .nil)).visit false = e.visit false ∧
    (Expr.construct t false false (.cons e false .nil)).visit false =
      (Expr.construct t' false false (.cons e false .nil)).visit false := by
  have : (e.visit false).2 = false := e.visit_state false
  constructor
  · exact Prod.ext (by simp [Expr.visit, Args.visit, surround])
      (by simp [Expr.visit, Args.visit, surround])
  · rfl

/-! ### Examples -/

/-- `value` in `nested::A`. -/
private def exValue : Ref := { scopes := [t%"nested", t%"A"], name := t%"value" }

private def number (s : Str) : Expr := .other (.text s .nil)

/-- `int function_10(int value = twice::global_c_ptr->twice::C::value)`. -/
private def exMember : Expr :=
  .wrapper (.member (.wrapper (.declRef { scopes := [t%"nested", t%"twice"], name := t%"global_c_ptr" }))
    true exValue)

example : exMember.Supported false := by
  simp [exMember, exValue, Expr.Supported, Expr.isAnonymousField]
example : render (exMember.visit false).1 =
  t%"::nested::twice::global_c_ptr->::nested::A::value" := by decide +kernel

/-- `A a = {{1, 2}, B{3}}`; `B` is an aggregate. -/
private def exBraces : Expr :=
  .initList t%"::A" (.cons (.initList t%"::P" (.cons (number t%"1") false (.cons (number t%"2") false .nil)))
    false (.cons (.functionalCast t%"::B" false (.initList t%"::B" (.cons (number t%"3") false .nil))) false .nil))

example : exBraces.Supported false := by
  simp [exBraces, number, Expr.Supported, Args.Supported, Parts.Supported, Expr.isBraces]
example : render (exBraces.visit false).1 = t%"::A{{1, 2}, ::B{3}}" := by decide +kernel

/-- `f({1}) + g({2})`: both initializers are outermost ones. -/
private def exTwo : Expr :=
  .other (.sub (.declRef { name := t%"f" }) (.text t%"(" (.sub (.initList t%"::X"
    (.cons (number t%"1") false .nil)) (.text t%") + " (.sub (.declRef { name := t%"g" }) (.text t%"("
    (.sub (.construct t%"::Y" true false (.cons (number t%"2") false (.cons (number t%"0") true .nil)))
      (.text t%")" .nil))))))))

example : exTwo.Supported false := by
  simp [exTwo, number, Expr.Supported, Args.Supported, Args.allDefault, Parts.Supported]
example : render (exTwo.visit false).1 = t%"::f(::X{1}) + ::g(::Y{2})" := by decide +kernel

/-- `std::vector<int> v = {1, 2}`, with a default argument for the allocator. -/
private def exVector : Expr :=
  .construct t%"::std::vector<int>" true true (.cons (.wrapper (.initList t%"const int[2]"
    (.cons (number t%"1") false (.cons (number t%"2") false .nil)))) false
    (.cons (number t%"alloc") true .nil))

example : exVector.Supported false := by
  simp [exVector, number, Expr.Supported, Args.Supported, Args.allDefault, Parts.Supported,
    Args.isBraces, Expr.isBraces]
example : render (exVector.visit false).1 = t%"::std::vector<int>{1, 2}" := by decide +kernel

/-- `int x = int{3}` -/
example : render ((Expr.functionalCast t%"int" false (.initList t%"int"
    (.cons (number t%"3") false .nil))).visit false).1 = t%"intint{3}" := by decide +kernel

/-- `std::vector<int> v = std::vector<int>{1}` -/
example : render ((Expr.temporary t%"::std::vector<int>" true true
    (.cons (.initList t%"const int[1]" (.cons (number t%"1") false .nil)) false .nil)).visit false).1 =
  t%"::std::vector<int>const int[1]{1}" := by decide +kernel

/-- `[](int x) { return x; }(3)` -/
example : render ((Expr.other (.text t%"[](int x) { return " (.sub (.declRef { name := t%"x", isLocal := true })
    (.text t%"; }(3)" .nil)))).visit false).1 = t%"[](int x) { return ::x; }(3)" := by decide +kernel

end Verif.DefaultArgument
