import Verif.Lemmas.Params
/-!
# C18, C19, C38: call policies and named arguments of functions
-/
namespace Verif
open Spec

/-! ### C18 -/

/-- For everything but static methods: the indices the code computes are the
positions at which pybind11 sees what the names mean. -/
theorem C18_positions_partial (d : DeclInfo) (isStatic : Bool) (hf : Applies .keepAlive d)
    (hns : d.kind = .method → isStatic = false)
    (hret : t%"return" ∉ d.params) (hthis : t%"this" ∉ d.params) (s : Str) (i : Nat) :
    FirstAt (keepAliveNames d) s i ↔
      ∃ p, Denotes d isStatic s p ∧ seenAt d isStatic i = some p := by
  -- positions in a list with an element put in front
  have hcons : ∀ (x : Str) (l : List Str), FirstAt (x :: l) s i ↔
      (i = 0 ∧ s = x) ∨ ∃ j, i = j + 1 ∧ s ≠ x ∧ FirstAt l s j := by
    intro x l
    constructor
    · rintro ⟨h1, h2⟩
      cases i with
      | zero => simp at h1; exact .inl ⟨rfl, h1.symm⟩
      | succ j =>
        right
        refine ⟨j, rfl, ?_, by simpa using h1, ?_⟩
        · rintro rfl; exact h2 0 (by omega) (by simp)
        · intro k hk; have := h2 (k + 1) (by omega); simpa using this
    · rintro (⟨rfl, rfl⟩ | ⟨j, rfl, hne, h1, h2⟩)
      · exact ⟨by simp, fun j hj => absurd hj (by omega)⟩
      · refine ⟨by simpa using h1, ?_⟩
        intro k hk
        cases k with
        | zero => simp; exact fun h => hne h.symm
        | succ k => simpa using h2 k (by omega)
  have hlt : ∀ {n}, FirstAt d.params s n → n < d.params.length := by
    intro n h; exact (List.getElem?_eq_some_iff.1 h.1).1
  by_cases hself : HasSelf d isStatic
  · have hnames : keepAliveNames d = t%"return" :: t%"this" :: d.params := by
      unfold keepAliveNames
      rcases hself with ⟨h, -⟩ | h | h <;> rw [h]
    rw [hnames]
    constructor
    · intro h
      rw [hcons] at h
      rcases h with ⟨rfl, rfl⟩ | ⟨j, rfl, hne, h⟩
      · exact ⟨.result, .result, rfl⟩
      · cases j with
        | zero =>
          have h1 := h.1
          simp at h1; subst h1
          exact ⟨.self, .self hself, by simp [seenAt, hself]⟩
        | succ n =>
          have hn : FirstAt d.params s n := by
            refine ⟨by simpa using h.1, fun k hk => ?_⟩
            have := h.2 (k + 1) (by omega); simpa using this
          exact ⟨.param n, .param s n hn, by simp [seenAt, hself, hlt hn]⟩
    · rintro ⟨p, hd, hp⟩
      cases hd with
      | result =>
        have : i = 0 := by
          cases i with
          | zero => rfl
          | succ n => cases n <;> simp [seenAt, hself] at hp
        subst this
        exact ⟨by simp, fun j hj => absurd hj (by omega)⟩
      | self _ =>
        have : i = 1 := by
          rcases i with _ | _ | n <;> simp [seenAt, hself] at hp ⊢
        subst this
        refine ⟨by simp, fun j hj => ?_⟩
        have : j = 0 := by omega
        subst this; simp
      | param s n h =>
        have : i = n + 2 := by
          rcases i with _ | _ | m <;> simp [seenAt, hself] at hp ⊢
          exact hp.2
        subst this
        refine ⟨by simpa using h.1, fun j hj => ?_⟩
        rcases j with _ | _ | j
        · simp; rintro rfl; exact hret (firstAt_mem h)
        · simp; rintro rfl; exact hthis (firstAt_mem h)
        · simpa using h.2 j (by omega)
  · have hk : d.kind = .function := by
      rcases hf with h | h | h | h
      · exact h
      · exact absurd (.inl ⟨h, hns h⟩) hself
      · exact absurd (.inr (.inl h)) hself
      · exact absurd (.inr (.inr h)) hself
    have hnames : keepAliveNames d = t%"return" :: d.params := by
      unfold keepAliveNames; rw [hk]
    rw [hnames, hcons]
    constructor
    · rintro (⟨rfl, rfl⟩ | ⟨n, rfl, hne, h⟩)
      · exact ⟨.result, .result, rfl⟩
      · exact ⟨.param n, .param s n h, by simp [seenAt, hself, hlt h]⟩
    · rintro ⟨p, hd, hp⟩
      cases hd with
      | result =>
        left
        cases i with
        | zero => simp
        | succ n => simp [seenAt, hself] at hp
      | self h => exact absurd h hself
      | param s n h =>
        right
        have : i = n + 1 := by
          cases i with
          | zero => simp [seenAt] at hp
          | succ m => simp [seenAt, hself] at hp; omega
        exact ⟨n, this, fun e => hret (e ▸ firstAt_mem h), h⟩

/-- C18, except for static methods: for any annotations on a function, the
emitted `keep_alive` policies are those asked for, with the indices at which
pybind11 finds what the two names mean. -/
theorem C18_keep_alive_partial (env : DeclEnv) (s : Storage) (id : Nat) (isStatic : Bool)
    (hf : Applies .keepAlive (env.info id)) (hh : s.has id = false)
    (hns : (env.info id).kind = .method → isStatic = false)
    (hret : t%"return" ∉ (env.info id).params) (hthis : t%"this" ∉ (env.info id).params) :
    ∃ y f, (s.insert env id).1.entries id = some y ∧ y.function = some f ∧
      ∀ i j, .keepAlive i j ∈ emitPolicies f ↔
        ∃ a b, ⟨.keepAlive, [.string a, .string b]⟩ ∈
            (parseAllTexts id [] (env.info id).attrTexts).1 ∧
          (∃ p, Denotes (env.info id) isStatic a p ∧ seenAt (env.info id) isStatic i = some p) ∧
          (∃ q, Denotes (env.info id) isStatic b q ∧ seenAt (env.info id) isStatic j = some q) := by
  obtain ⟨y, f, hy, hf', hstep⟩ := insert_function env s id hf hh
  refine ⟨y, f, hy, hf', ?_⟩
  intro i j
  have : PolicyOut.keepAlive i j ∈ emitPolicies f ↔ (i, j) ∈ f.keepAlive := by
    unfold emitPolicies
    simp only [List.mem_append, List.mem_map, PolicyOut.keepAlive.injEq, Prod.exists]
    constructor
    · rintro (h | ⟨a, b, h, rfl, rfl⟩)
      · split at h <;> simp at h
      · exact h
    · intro h; exact .inr ⟨i, j, h, rfl, rfl⟩
  rw [this, hstep.keepAlive]
  simp only [List.not_mem_nil, false_or]
  simp only [C18_positions_partial _ isStatic hf hns hret hthis]

/-- C18, except for static methods: names that mean nothing are reported. -/
theorem C18_unknown_reported_partial (env : DeclEnv) (s : Storage) (id : Nat) (isStatic : Bool)
    (hf : Applies .keepAlive (env.info id)) (hh : s.has id = false)
    (hns : (env.info id).kind = .method → isStatic = false)
    (hret : t%"return" ∉ (env.info id).params) (hthis : t%"this" ∉ (env.info id).params) (a b : Str)
    (ha : ⟨.keepAlive, [.string a, .string b]⟩ ∈ (parseAllTexts id [] (env.info id).attrTexts).1)
    (hu : ∃ n, (n = a ∨ n = b) ∧ ¬ ∃ p, Denotes (env.info id) isStatic n p) :
    ∃ g ∈ (s.insert env id).2, g.kind = .invalidArgumentSpecifier ∧ g.decl = id := by
  have hs : shouldSkip (env.info id) = false := by
    unfold shouldSkip
    rcases hf with h | h | h | h <;> simp [h, DeclKind.isTag]
  refine insert_reports env s id hs hh _ ha ⟨hf, trivial, .two .string, by simp [forms],
    by simp [Form.Accepts, LiteralValue.kind]⟩ _ fun y => ?_
  obtain ⟨n, hn, h1⟩ := hu
  have hnot : n ∉ keepAliveNames (env.info id) := by
    intro hm
    obtain ⟨i, hi⟩ := firstAt_of_mem hm
    obtain ⟨p, hp, -⟩ := (C18_positions_partial _ isStatic hf hns hret hthis n i).1 hi
    exact h1 ⟨p, hp⟩
  have : ¬ (a ∈ keepAliveNames (env.info id) ∧ b ∈ keepAliveNames (env.info id)) := by
    rintro ⟨ha', hb'⟩
    rcases hn with rfl | rfl
    · exact hnot ha'
    · exact hnot hb'
  simp [acceptedDiagKinds, this]

/-! A method `f(a, b)` for the examples; 1 is the same as a free function. -/
section
def fnEnv : DeclEnv where
  info := fun
    | 0 => { kind := .method, name := t%"f", params := [t%"a", t%"b"], minRequired := 2,
             attrTexts := [marker ++ t%"keep_alive(return, a), keep_alive(this, b)"] }
    | _ => { kind := .function, name := t%"g", params := [t%"args", t%"x"], minRequired := 2,
             attrTexts := [marker ++ t%"noconvert(x)"] }
  hasName := fun _ _ => false

/-- The function attributes of a declaration after processing it. -/
def fnAttrs (env : DeclEnv) (id : Nat) : Option FunctionDeclAttrs :=
  ((Storage.empty.insert env id).1.entries id).bind (·.function)

example : Applies .keepAlive (fnEnv.info 0) ∧ t%"return" ∉ (fnEnv.info 0).params ∧
    t%"this" ∉ (fnEnv.info 0).params := ⟨.inr (.inl rfl), by decide, by decide⟩

example : (fnAttrs fnEnv 0).map emitPolicies = some [.keepAlive 0 2, .keepAlive 1 3] := by
  decide +kernel

/-- C18 is false for static methods: `keep_alive(return, a)` names the second
parameter `b`, `keep_alive(this, b)` is accepted although there is no object, and
its second index does not exist. -/
theorem C18_static_wrong :
    (fnAttrs fnEnv 0).map emitPolicies = some [.keepAlive 0 2, .keepAlive 1 3] ∧
    seenAt (fnEnv.info 0) true 2 = some (.param 1) ∧
    Denotes (fnEnv.info 0) true t%"a" (.param 0) ∧
    seenAt (fnEnv.info 0) true 1 = some (.param 0) ∧
    ¬ (∃ p, Denotes (fnEnv.info 0) true t%"this" p) ∧
    seenAt (fnEnv.info 0) true 3 = none ∧
    hasErrors (Storage.empty.insert fnEnv 0).2 = false := by
  refine ⟨by decide +kernel, by decide +kernel,
    .param _ 0 ⟨rfl, fun j hj => absurd hj (by omega)⟩, by decide +kernel, ?_, by decide +kernel,
    by decide +kernel⟩
  rintro ⟨p, h⟩
  generalize hn : t%"this" = n at h
  cases h with
  | result => exact absurd hn (by decide)
  | self h => exact absurd h (by decide)
  | param s n h => exact absurd (firstAt_mem h) (by rw [← hn]; decide)

/-- C18, how it fails: for a static method every parameter is taken for the next
one. -/
theorem C18_static_off_by_one (d : DeclInfo) (hk : d.kind = .method) (s : Str) (n : Nat)
    (hret : t%"return" ∉ d.params) (hthis : t%"this" ∉ d.params)
    (h : FirstAt d.params s n) :
    FirstAt (keepAliveNames d) s (n + 2) ∧
    seenAt d true (n + 2) = if n + 1 < d.params.length then some (.param (n + 1)) else none := by
  constructor
  · have hnames : keepAliveNames d = t%"return" :: t%"this" :: d.params := by
      unfold keepAliveNames; rw [hk]
    rw [hnames]
    refine ⟨by simpa using h.1, fun j hj => ?_⟩
    rcases j with _ | _ | j
    · simp; rintro rfl; exact hret (firstAt_mem h)
    · simp; rintro rfl; exact hthis (firstAt_mem h)
    · simpa using h.2 j (by omega)
  · have : ¬ HasSelf d true := by simp [HasSelf, hk]
    simp [seenAt, this]

end

/-! ### C38, C19 -/

/-- C38 (names): if nothing is reported, the emitted arguments name exactly the
parameters that are neither `args` nor `kwargs`, in order, with their default
arguments. -/
theorem C38_names (attrs : FunctionDeclAttrs) (ps : List Param)
    (h : (emitParameters attrs ps).2 = []) :
    (emitParameters attrs ps).1.map (fun o => (o.name, o.default)) =
      (ps.filter (·.argsType.isNone)).map (fun p => (p.name, p.default)) :=
  (loop_plain attrs ps 0).1 h

/-- C38 (error), weaker than claimed: an error is reported exactly if a parameter
that is neither `args` nor `kwargs` follows `kwargs`. -/
theorem C38_error_iff_partial (attrs : FunctionDeclAttrs) (ps : List Param) :
    (emitParameters attrs ps).2 ≠ [] ↔
      ∃ pre k mid p post, ps = pre ++ k :: mid ++ p :: post ∧ k.argsType = some .kwargs ∧
        p.argsType = none :=
  (loop_plain attrs ps 0).2

/-- C38 is false as stated: `f(pybind11::kwargs, pybind11::args)` is not an error
(although pybind11 requires `kwargs` to be last). -/
theorem C38_args_after_kwargs_accepted :
    emitParameters {} [⟨0, t%"k", some .kwargs, none⟩, ⟨1, t%"a", some .args, none⟩] = ([], []) := by
  decide

example : (emitParameters {} [⟨0, t%"x", none, some t%"1"⟩, ⟨1, t%"args", some .args, none⟩,
      ⟨2, t%"y", none, none⟩, ⟨3, t%"kw", some .kwargs, none⟩]).2 = [] ∧
    PlainAfterKwargs [⟨3, t%"kw", some .kwargs, none⟩, ⟨2, t%"y", none, none⟩] :=
  ⟨by decide, [], _, [], _, [], rfl, rfl, rfl⟩

/-- C19, for parameters not preceded by `args` or `kwargs`: the argument emitted
for parameter `n` carries `.noconvert()` (`.none(false)`) iff that parameter is
named in a `noconvert` (`required`) annotation. -/
theorem C19_flags_partial (env : DeclEnv) (s : Storage) (id : Nat) (ps : List Param)
    (hf : Applies .noconvert (env.info id)) (hh : s.has id = false)
    (hps : (env.info id).params = ps.map (·.name)) (n : Nat) (p : Param) (hn : ps[n]? = some p)
    (hpre : ∀ q ∈ ps.take (n + 1), q.argsType = none) :
    ∃ y f o, (s.insert env id).1.entries id = some y ∧ y.function = some f ∧
      (emitParameters f ps).1[n]? = some o ∧ o.name = p.name ∧
      (o.noconvert = true ↔ ∃ args a, ⟨.noconvert, args⟩ ∈
          (parseAllTexts id [] (env.info id).attrTexts).1 ∧
        Documented (env.info id) ⟨.noconvert, args⟩ ∧ .string a ∈ args ∧
        FirstAt (ps.map (·.name)) a n) ∧
      (o.noneFalse = true ↔ ∃ args a, ⟨.required, args⟩ ∈
          (parseAllTexts id [] (env.info id).attrTexts).1 ∧
        Documented (env.info id) ⟨.required, args⟩ ∧ .string a ∈ args ∧
        FirstAt (ps.map (·.name)) a n) := by
  obtain ⟨y, f, hy, hf', hstep⟩ := insert_function env s id hf hh
  obtain ⟨o, ho, hname⟩ := loop_position f ps 0 n p hn hpre
  obtain ⟨h1, h2⟩ := loop_flags f ps 0 n none o ho
  refine ⟨y, f, o, hy, hf', ho, hname, ?_, ?_⟩
  · rw [h1, hstep.noconvert, hps]; simp
  · rw [h2, hstep.required, hps]; simp

/-- C19 is false as stated: in `g(pybind11::args args, int x)` with
`noconvert(x)`, `x` is emitted without `.noconvert()`. -/
theorem C19_lost_after_args :
    (fnAttrs fnEnv 1).map (fun f => (emitParameters f
      [⟨0, t%"args", some .args, none⟩, ⟨1, t%"x", none, none⟩]).1) =
      some [{ name := t%"x", noconvert := false, noneFalse := false, default := none }] ∧
    hasErrors (Storage.empty.insert fnEnv 1).2 = false := by
  constructor <;> decide +kernel

/-- C19, how it fails: the flags of the `n`-th emitted argument are those recorded
for the parameter at position `n` of the complete parameter list, whether or not
that is the parameter the argument stands for. -/
theorem C19_flags_by_position (attrs : FunctionDeclAttrs) (ps : List Param) (n : Nat) (o : ArgOut)
    (h : (emitParameters attrs ps).1[n]? = some o) :
    (o.noconvert = true ↔ n ∈ attrs.noconvert) ∧ (o.noneFalse = true ↔ n ∈ attrs.required) := by
  have := loop_flags attrs ps 0 n none o h
  simpa using this

example : Applies .noconvert (fnEnv.info 1) ∧
    (fnEnv.info 1).params = [(⟨0, t%"args", none, none⟩ : Param), ⟨1, t%"x", none, none⟩].map
      (·.name) := ⟨.inl rfl, rfl⟩

end Verif
