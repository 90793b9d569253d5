import Verif.Lemmas.Annotations
/-!
# Evaluation of the dispatcher
-/
namespace Verif
open Spec

/-- What the handlers together do for one annotation, in terms of the
documentation. -/
structure Follows (env : DeclEnv) (id : Nat) (a : Annotation) (x : DeclAttrs)
    (o : Outcome DeclAttrs) : Prop where
  doc : Documented (env.info id) a →
    o.handled = true ∧ Effect env (env.info id) a x o.attrs ∧
      o.diags.map (·.kind) = acceptedDiagKinds env (env.info id) a o.attrs
  undoc : ¬ Documented (env.info id) a → o.handled = false ∧ o.attrs = x
  forms : Applies a.kind (env.info id) → SideCondition a.kind (env.info id) →
    (¬ ∃ f ∈ forms a.kind, f.Accepts a.arguments) → ∃ args,
      o.diags = [⟨id, if ∃ f ∈ forms a.kind, f.AcceptsCount a.arguments.length
        then .wrongArgumentType else .wrongNumberOfArguments, kindText a.kind :: args⟩]
  applies : ¬ Applies a.kind (env.info id) → o.diags = []
  side : Applies a.kind (env.info id) → ¬ SideCondition a.kind (env.info id) →
    o.diags = [] ∨ ∃ g, o.diags = [g] ∧ g.isError = true ∧ ∃ arg ∈ g.args, kindText a.kind <+: arg
  decl : ∀ g ∈ o.diags, g.decl = id

/-- Evaluate everything for a concrete kind and shape of arguments. -/
macro "follow" : tactic => `(tactic|
  (constructor <;> simp_all [processNamed, processNamespace, processEnum, processRecord,
    processTypedef, processFieldOrVar, processMethod, processConstructor, processFunction,
    Documented, Applies, forms, Form.Accepts, Form.AcceptsCount, SideCondition, Effect,
    acceptedDiagKinds, Dispatcher.start, Dispatcher.nullary, Dispatcher.unary, Dispatcher.binary,
    Dispatcher.checkArgKinds, Dispatcher.checkMatch, Dispatcher.unchecked, Dispatcher.call,
    Dispatcher.ensure, Dispatcher.onMatch, checkForConflict, modify, onBoolean, onString, LiteralValue.isa,
    LiteralValue.kind, notHandled]))

/-- All shapes of arguments lists relevant for at most unary annotations. -/
macro "follow_unary" args:ident : tactic => `(tactic|
  (rcases $args:ident with _ | ⟨v, _ | ⟨w, r⟩⟩
   · follow
   · cases v <;> follow
   · follow))

/-! ### Arguments that are all strings -/

theorem find_not_string (args : List LiteralValue) :
    args.find? (fun v => !v.isa .string) = none ↔ ∃ names : List Str, args = names.map .string := by
  induction args with
  | nil => simp
  | cons v vs ih =>
    rw [List.find?_cons]
    cases v with
    | string s =>
      simp only [LiteralValue.isa, LiteralValue.kind, decide_true, Bool.not_true]
      refine Iff.trans ih ?_
      constructor
      · rintro ⟨names, rfl⟩; exact ⟨s :: names, rfl⟩
      · rintro ⟨names, h⟩
        cases names with
        | nil => simp at h
        | cons n ns => exact ⟨ns, by simp at h; exact h.2⟩
    | _ =>
      simp only [LiteralValue.isa, LiteralValue.kind]
      simp
      intro names
      cases names <;> simp

theorem all_string_iff (args : List LiteralValue) :
    (∀ v ∈ args, v.kind = .string) ↔ args.find? (fun v => !v.isa .string) = none := by
  simp [List.find?_eq_none, LiteralValue.isa]

/-- Repeated callbacks. -/
def foldCalls {σ : Type} (f : LiteralValue → Callback σ) : List LiteralValue → σ → σ × List Diag
  | [], x => (x, [])
  | v :: vs, x => ((foldCalls f vs (f v x).1).1, (f v x).2 ++ (foldCalls f vs (f v x).1).2)

theorem foldl_call {σ : Type} (f : LiteralValue → Callback σ) (vs : List LiteralValue)
    (d : Dispatcher σ) :
    vs.foldl (fun d v => d.call (f v)) d =
      { d with attrs := (foldCalls f vs d.attrs).1, diags := d.diags ++ (foldCalls f vs d.attrs).2 } := by
  induction vs generalizing d with
  | nil => simp [foldCalls]
  | cons v vs ih => rw [List.foldl_cons, ih]; simp [foldCalls, Dispatcher.call]

theorem variadic_checkMatch {σ : Type} (id : Nat) (a : Annotation) (x : σ)
    (f : LiteralValue → Callback σ) :
    ((Dispatcher.start id a x).variadic .string f).checkMatch =
      if a.arguments = [] then ⟨false, x, [wrongCount id a.kind]⟩
      else match a.arguments.find? (fun v => !v.isa .string) with
        | some v => ⟨false, x, [wrongType id a.kind v]⟩
        | none => ⟨true, (foldCalls f a.arguments x).1, (foldCalls f a.arguments x).2⟩ := by
  by_cases h : a.arguments = []
  · simp [Dispatcher.variadic, Dispatcher.start, h, Dispatcher.checkMatch]
  · cases hf : a.arguments.find? (fun v => !v.isa .string) with
    | some v =>
      simp [Dispatcher.variadic, Dispatcher.start, h, Dispatcher.checkMatch,
        Dispatcher.checkArgKinds, hf]
    | none =>
      simp [Dispatcher.variadic, Dispatcher.start, h, Dispatcher.checkMatch,
        Dispatcher.checkArgKinds, hf, foldl_call]

theorem variadicCollect_checkMatch {σ : Type} (d : Dispatcher σ) (hs : d.state = .unmatched)
    (hm : d.mismatch = none) (hd : d.diags = [])
    (t : LiteralValue → Str × List Diag) (p : List Str → σ → Bool × σ × List Diag) :
    (d.variadicCollect .string t p).checkMatch =
      match d.args.find? (fun v => !v.isa .string) with
        | some v => ⟨false, d.attrs, [wrongType d.decl d.kind v]⟩
        | none =>
          let r := p (d.args.map fun v => (t v).1) d.attrs
          ⟨r.1, r.2.1, d.args.flatMap (fun v => (t v).2) ++ r.2.2 ++
            if r.1 then [] else [wrongCount d.decl d.kind]⟩ := by
  cases hf : d.args.find? (fun v => !v.isa .string) with
  | some v =>
    simp [Dispatcher.variadicCollect, hs, Dispatcher.checkArgKinds, hf, Dispatcher.checkMatch, hd]
  | none =>
    simp only [Dispatcher.variadicCollect, hs, Dispatcher.checkArgKinds, hf, Dispatcher.checkMatch,
      hd, if_true]
    cases (p (d.args.map fun v => (t v).1) d.attrs).1 <;> simp [hm]

theorem mem_setInsert {α : Type} [DecidableEq α] (s : List α) (x y : α) :
    y ∈ setInsert s x ↔ y ∈ s ∨ y = x := by
  unfold setInsert
  split
  · constructor
    · exact Or.inl
    · rintro (h | rfl) <;> assumption
  · simp

theorem mem_foldl_setInsert {α : Type} [DecidableEq α] (l s : List α) (y : α) :
    y ∈ l.foldl setInsert s ↔ y ∈ s ∨ y ∈ l := by
  induction l generalizing s with
  | nil => simp
  | cons a l ih =>
    simp only [List.foldl_cons, ih, mem_setInsert, List.mem_cons]
    constructor
    · rintro ((h | h) | h) <;> simp [h]
    · rintro (h | h | h) <;> simp [h]

theorem lookupIndex_some (names : List Str) (s : Str) (i : Nat) :
    lookupIndex names s = some i ↔ FirstAt names s i := by
  unfold lookupIndex FirstAt
  rw [List.findIdx?_eq_some_iff_getElem]
  constructor
  · rintro ⟨h, h1, h2⟩
    refine ⟨by simp at h1; simp [h, h1], ?_⟩
    intro j hj hc
    have := h2 j hj
    have hjl : j < names.length := by omega
    rw [List.getElem?_eq_getElem hjl] at hc
    simp_all
  · rintro ⟨h1, h2⟩
    obtain ⟨h, he⟩ := List.getElem?_eq_some_iff.1 h1
    refine ⟨h, by simp [he], ?_⟩
    intro j hj
    have := h2 j hj
    rw [List.getElem?_eq_getElem (by omega)] at this
    simpa using this

theorem lookupIndex_none (names : List Str) (s : Str) :
    lookupIndex names s = none ↔ s ∉ names := by
  unfold lookupIndex
  rw [List.findIdx?_eq_none_iff]
  constructor
  · intro h hm; have := h s hm; simp at this
  · intro h x hx; simp; rintro rfl; exact h hx

theorem parameterNames_keepAlive (d : DeclInfo) :
    parameterNames d true d.kind.isMethod = keepAliveNames d := by
  unfold parameterNames keepAliveNames
  cases d.kind <;> simp [DeclKind.isMethod]

theorem parameterNames_plain (d : DeclInfo) : parameterNames d false false = d.params := by
  simp [parameterNames]

theorem kindText_prefix_print (a : Annotation) : kindText a.kind <+: (a.print).getD [] := by
  unfold kindText Annotation.print
  cases a.kind.toString? with
  | none => simp
  | some n => simp [List.append_assoc]

theorem kindText_eq (k : AnnotationKind) : kindText k = kindName k := by
  cases k <;> rfl

end Verif
