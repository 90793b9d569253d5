import Verif.Lemmas.DeclOutput
/-!
# C36, C37, C41, C46, C56-C58: what is exposed in a context
-/
namespace Verif
open Spec

/-! ### C36 -/

theorem named_append (es fs : List Accessor) (n : Str) (b : Bool) :
    named (es ++ fs) n b = named es n b ++ named fs n b := by
  unfold named
  rw [List.filter_append, List.map_append]

theorem named_one (p : Nat × MethodDeclAttrs) (h : MethodOK p.2) (n : Str) (b : Bool) :
    named (accessorsOf p) n b =
      if n ∈ (if b = true then p.2.setterFor else p.2.getterFor) then [p.1] else [] := by
  have single : ∀ (l : List Str), l.Nodup →
      (l.filter fun x => decide (x = n)) = if n ∈ l then [n] else [] := by
    intro l
    induction l with
    | nil => simp
    | cons x l ih =>
      intro hn
      have hn' := List.nodup_cons.1 hn
      rw [List.filter_cons, ih hn'.2]
      by_cases hx : x = n
      · subst hx
        simp [hn'.1]
      · have : ¬ n = x := fun h => hx h.symm
        simp [hx, this]
  unfold accessorsOf
  rw [named_append]
  have part : ∀ (l : List Str) (c : Bool), l.Nodup → named (l.map fun x => (p.1, x, c)) n b =
      if n ∈ l ∧ c = b then [p.1] else [] := by
    intro l c hl
    unfold named
    rw [List.filter_map, List.map_map]
    by_cases hc : c = b
    · have : ((fun e : Accessor => decide (e.2.1 = n ∧ e.2.2 = b)) ∘ fun x => (p.1, x, c)) =
          fun x => decide (x = n) := by
        funext x
        simp [hc]
      rw [this, single l hl]
      by_cases hm : n ∈ l <;> simp [hm, hc]
    · have : ((fun e : Accessor => decide (e.2.1 = n ∧ e.2.2 = b)) ∘ fun x => (p.1, x, c)) =
          fun _ => false := by
        funext x
        simp [hc]
      rw [this]
      simp [hc]
  rw [part _ _ h.1, part _ _ h.2]
  cases b <;> simp

theorem accessorOf_eq (w : EmitWorld) (s : Storage) (hd : Derived w s) (vis : Visibilities) (r : Nat)
    (p : InliningPolicy) (c d : Nat) :
    accessorOf w s vis (.record r p) c d =
      if shown w s vis c d = true ∧ isAccessor w s d = true
      then ((attrsOf w s d).bind (·.method)).map (d, ·) else none := by
  unfold accessorOf shown isAccessor
  cases ha : attrsOf w s d with
  | none => simp
  | some a =>
    dsimp only
    have sh := attrsOf_shape w s hd d a ha
    unfold accessorAttrs
    simp only [Option.bind_some]
    cases hm : a.method with
    | none => simp
    | some m =>
      have hk := sh.method.1 (by rw [hm]; rfl)
      have hcon : a.constructor = none := by
        cases hc : a.constructor with
        | none => rfl
        | some c =>
          have := sh.constructor.1 (by rw [hc]; rfl)
          rw [hk.1] at this
          cases this
      have hop : supportsOperator (w.info d) = false := by
        unfold supportsOperator
        rcases hk.2 with h | h <;> rw [h] <;> simp
      rw [hcon, hop]
      simp only [Option.isSome_none, Bool.or_self, Bool.false_eq_true, if_false, Option.getD_some,
        Option.any_some, Option.map_some]
      by_cases hv : a.named.visible.getD ((vis c).getD false) = true
      · simp only [hv, if_true, true_and]
        split <;> rfl
      · simp [hv]

theorem named_accessors (w : EmitWorld) (s : Storage) (hd : Derived w s) (vis : Visibilities) (r : Nat)
    (p : InliningPolicy) (c : Nat) (l : List Nat) (n : Str) (b : Bool) :
    named ((l.filterMap (accessorOf w s vis (.record r p) c)).flatMap accessorsOf) n b =
      if b = true then setters w s vis c l n else getters w s vis c l n := by
  induction l with
  | nil => cases b <;> rfl
  | cons d l ih =>
    have hone : named ((accessorOf w s vis (.record r p) c d).toList.flatMap accessorsOf) n b =
        if shown w s vis c d = true ∧ ((attrsOf w s d).bind (·.method)).any (fun m =>
          (if b = true then m.setterFor else m.getterFor).contains n) = true then [d] else [] := by
      rw [accessorOf_eq w s hd vis r p c d]
      by_cases hc : shown w s vis c d = true ∧ isAccessor w s d = true
      · rw [if_pos hc]
        cases hm : (attrsOf w s d).bind (·.method) with
        | none =>
          have := hc.2
          unfold isAccessor at this
          rw [hm] at this
          cases this
        | some m =>
          have hok : MethodOK m := by
            obtain ⟨a, ha, hm⟩ := Option.bind_eq_some_iff.1 hm
            obtain ⟨_, k, rfl⟩ := attrsOf_base w s hd d a ha
            exact firstInsert_method w.toDeclEnv d m hm
          simp only [Option.map_some, Option.toList, List.flatMap_cons, List.flatMap_nil, List.append_nil]
          rw [named_one _ hok]
          simp [hc.1]
      · rw [if_neg hc, if_neg]
        · rfl
        · rintro ⟨h1, h2⟩
          refine hc ⟨h1, ?_⟩
          unfold isAccessor
          cases hm : (attrsOf w s d).bind (·.method) with
          | none =>
            rw [hm] at h2
            cases h2
          | some m =>
            rw [hm] at h2
            simp only [Option.any_some, List.contains_iff_mem] at h2 ⊢
            cases b with
            | true =>
              cases hl : m.setterFor with
              | nil => simp [hl] at h2
              | cons x l => simp
            | false =>
              cases hl : m.getterFor with
              | nil => simp [hl] at h2
              | cons x l => simp
    have hsplit : ((d :: l).filterMap (accessorOf w s vis (.record r p) c)).flatMap accessorsOf =
        (accessorOf w s vis (.record r p) c d).toList.flatMap accessorsOf ++
          (l.filterMap (accessorOf w s vis (.record r p) c)).flatMap accessorsOf := by
      rw [List.filterMap_cons]
      cases accessorOf w s vis (.record r p) c d <;> simp
    rw [hsplit, named_append, hone, ih]
    cases b with
    | true =>
      simp only [if_true]
      unfold setters
      rw [List.filter_cons]
      by_cases hc : shown w s vis c d = true ∧ ((attrsOf w s d).bind (·.method)).any (fun m =>
          m.setterFor.contains n) = true
      · rw [if_pos hc, if_pos (by rw [Bool.and_eq_true]; exact hc)]
        rfl
      · rw [if_neg hc, if_neg (by rw [Bool.and_eq_true]; exact hc)]
        rfl
    | false =>
      simp only [Bool.false_eq_true, if_false]
      unfold getters
      rw [List.filter_cons]
      by_cases hc : shown w s vis c d = true ∧ ((attrsOf w s d).bind (·.method)).any (fun m =>
          m.getterFor.contains n) = true
      · rw [if_pos hc, if_pos (by rw [Bool.and_eq_true]; exact hc)]
        rfl
      · rw [if_neg hc, if_neg (by rw [Bool.and_eq_true]; exact hc)]
        rfl

/-- The state of the properties at the end of a class. -/
theorem record_added (w : EmitWorld) (s : Storage) (vis : Visibilities) (e : Exposer) (c : Nat) :
    Added ((accessors w s vis e c).flatMap accessorsOf) (addAll ([], []) (accessors w s vis e c)) := by
  rw [addAll_events]
  exact added_all _

theorem final_property (w : EmitWorld) (s : Storage) (vis : Visibilities) (r : Nat) (p : InliningPolicy)
    (c : Nat) (n : Str) (g : FnPtr) (st : Option FnPtr) :
    Stmt.property n g st ∈ (exposeContext w vis s (.record r p) c).emitted.stmts ↔
      Stmt.property n g st ∈
        (emitProperties w (addAll ([], []) (accessors w s vis (.record r p) c)).1).stmts := by
  rw [(exposeContext_eq w vis s (.record r p) c (by simp)).1, List.mem_append]
  constructor
  · rintro (h | h)
    · obtain ⟨d, _, hd⟩ := List.mem_flatMap.1 h
      exfalso
      unfold declOutput at hd
      split at hd
      · split at hd
        · simp only [declStmts] at hd
          unfold handleDeclRecord handleDeclGeneric at hd
          repeat' (first
            | contradiction
            | split at hd
            | (dsimp only at hd; split at hd)
            | (simp [Emitted.none, Emitted.fail] at hd; done))
        · cases hd
      · cases hd
    · exact h
  · exact .inr

/-- C36: the properties of a class.  There is one for each name with a visible getter;
it uses the last getter and the last setter. -/
theorem C36_iff (w : EmitWorld) (s : Storage) (hd : Derived w s) (vis : Visibilities) (r : Nat)
    (p : InliningPolicy) (c : Nat) (n : Str) (g : FnPtr) (st : Option FnPtr) :
    let ds := proposedDecls w (.record r p) c
    Stmt.property n g st ∈ (exposeContext w vis s (.record r p) c).emitted.stmts ↔
      ∃ d, (getters w s vis c ds n).getLast? = some d ∧ g = emitFunctionPointer w d ∧
        st = (setters w s vis c ds n).getLast?.map (emitFunctionPointer w) := by
  intro ds
  have ha := record_added w s vis (.record r p) c
  rw [final_property, emitProperties_stmts, List.mem_filterMap]
  have hg := ha.get n
  have h0 := named_accessors w s hd vis r p c ds n false
  have h1 := named_accessors w s hd vis r p c ds n true
  simp only [Bool.false_eq_true, if_false, if_true] at h0 h1
  unfold accessors at hg ha
  rw [h0, h1] at hg
  constructor
  · rintro ⟨⟨n', q⟩, hm, hq⟩
    obtain ⟨d, hqd, he⟩ := Option.map_eq_some_iff.1 hq
    simp only [Stmt.property.injEq] at he
    obtain ⟨rfl, rfl, rfl⟩ := he
    have hl := (mem_iff_lookup _ ha.sorted n' q).1 hm
    have hq' : q = ⟨(getters w s vis c ds n').getLast?, (setters w s vis c ds n').getLast?⟩ := by
      rw [← hg]
      unfold PropertyMap.get
      rw [hl]
      rfl
    subst hq'
    exact ⟨d, hqd, rfl, rfl⟩
  · rintro ⟨d, hgd, rfl, rfl⟩
    have hl : (addAll ([], []) (ds.filterMap (accessorOf w s vis (.record r p) c))).1.lookup n =
        some { getter := some d, setter := (setters w s vis c ds n).getLast? } := by
      unfold PropertyMap.get at hg
      cases hl : (addAll ([], []) (ds.filterMap (accessorOf w s vis (.record r p) c))).1.lookup n with
      | none =>
        rw [hl, hgd] at hg
        exact absurd (congrArg Property.getter hg) (by simp)
      | some q =>
        rw [hl, hgd] at hg
        rw [← hg]
        rfl
    exact ⟨(n, _), (mem_iff_lookup _ ha.sorted n _).2 hl, rfl⟩

/-- The names of properties in the output. -/
def propertyName : Stmt → Option Str
  | .property n _ _ => some n
  | _ => none

/-- C36: properties are in alphabetical order; in particular, there is one definition
for each name. -/
theorem C36_sorted (w : EmitWorld) (s : Storage) (vis : Visibilities) (r : Nat) (p : InliningPolicy)
    (c : Nat) : ((exposeContext w vis s (.record r p) c).emitted.stmts.filterMap propertyName).Pairwise
      StrBefore := by
  have ha := record_added w s vis (.record r p) c
  rw [(exposeContext_eq w vis s (.record r p) c (by simp)).1, List.filterMap_append]
  have hnone : ((proposedDecls w (.record r p) c).flatMap
      (declOutput w s vis (.record r p) c)).filterMap propertyName = [] := by
    rw [List.filterMap_eq_nil_iff]
    intro x hx
    cases x with
    | property n g st =>
      exfalso
      obtain ⟨d, _, hd⟩ := List.mem_flatMap.1 hx
      unfold declOutput at hd
      split at hd
      · split at hd
        · simp only [declStmts] at hd
          unfold handleDeclRecord handleDeclGeneric at hd
          repeat' (first
            | contradiction
            | split at hd
            | (dsimp only at hd; split at hd)
            | (simp [Emitted.none, Emitted.fail] at hd; done))
        · cases hd
      · cases hd
    | _ => rfl
  rw [hnone, List.nil_append]
  simp only [finalStmts]
  rw [emitProperties_stmts, List.filterMap_filterMap]
  refine List.Pairwise.filterMap _ ?_ ha.sorted
  intro a b hab x hx y hy
  simp only [Option.mem_def, Option.bind_eq_some_iff, Option.map_eq_some_iff] at hx hy
  obtain ⟨_, ⟨_, _, rfl⟩, hx⟩ := hx
  obtain ⟨_, ⟨_, _, rfl⟩, hy⟩ := hy
  simp only [propertyName, Option.some.injEq] at hx hy
  rw [← hx, ← hy]
  exact (strLt_iff _ _).1 hab

theorem StrBefore_irrefl (a : Str) : ¬ StrBefore a a := by
  rw [← strLt_iff, strLt_irrefl]
  simp

/-- C36: an error is reported for each further getter or setter of a property. -/
theorem C36_duplicates (w : EmitWorld) (s : Storage) (hd : Derived w s) (vis : Visibilities) (r : Nat)
    (p : InliningPolicy) (c : Nat) (g : Diag) (hg : g.kind = .propertyAlreadyDefined) :
    let ds := proposedDecls w (.record r p) c
    g ∈ (exposeContext w vis s (.record r p) c).emitted.diags ↔
      ∃ n, (g.args = [n, t%"0"] ∧ g.decl ∈ (getters w s vis c ds n).tail) ∨
        (g.args = [n, t%"1"] ∧ g.decl ∈ (setters w s vis c ds n).tail) := by
  intro ds
  have ha := record_added w s vis (.record r p) c
  have hf := (exposeContext_eq w vis s (.record r p) c (by simp)).2.2.2
  have hp : isPropertyDiag g = true := by simp [isPropertyDiag, hg]
  have h1 : g ∈ (exposeContext w vis s (.record r p) c).emitted.diags ↔
      g ∈ (exposeContext w vis s (.record r p) c).emitted.diags.filter isPropertyDiag := by
    simp [List.mem_filter, hp]
  rw [h1, hf, List.mem_filter, List.mem_append]
  simp only [hp, and_true]
  have hno : ¬ g ∈ (emitProperties w (addAll ([], []) (accessors w s vis (.record r p) c)).1).diags := by
    rw [emitProperties_diags]
    rintro ⟨_, _, _, _, _, _, rfl⟩
    cases hg
  simp only [hno, or_false]
  rw [ha.diags g hg]
  have e := fun n b => named_accessors w s hd vis r p c ds n b
  unfold accessors
  constructor
  · rintro ⟨n, b, h1, h2⟩
    rw [e] at h2
    refine ⟨n, ?_⟩
    cases b
    · exact .inl ⟨h1, h2⟩
    · exact .inr ⟨h1, h2⟩
  · rintro ⟨n, ⟨h1, h2⟩ | ⟨h1, h2⟩⟩
    · exact ⟨n, false, h1, by rw [e]; exact h2⟩
    · exact ⟨n, true, h1, by rw [e]; exact h2⟩

/-- C36: a note is given for each getter or setter of a property that is replaced by a
further one. -/
theorem C36_notes (w : EmitWorld) (s : Storage) (hd : Derived w s) (vis : Visibilities) (r : Nat)
    (p : InliningPolicy) (c : Nat) (g : Diag) (hg : g.kind = .notePreviousDefinition) :
    let ds := proposedDecls w (.record r p) c
    g ∈ (exposeContext w vis s (.record r p) c).emitted.diags ↔
      g.args = [] ∧ ∃ n, g.decl ∈ (getters w s vis c ds n).dropLast ∨
        g.decl ∈ (setters w s vis c ds n).dropLast := by
  intro ds
  have ha := record_added w s vis (.record r p) c
  have hf := (exposeContext_eq w vis s (.record r p) c (by simp)).2.2.2
  have hp : isPropertyDiag g = true := by simp [isPropertyDiag, hg]
  have h1 : g ∈ (exposeContext w vis s (.record r p) c).emitted.diags ↔
      g ∈ (exposeContext w vis s (.record r p) c).emitted.diags.filter isPropertyDiag := by
    simp [List.mem_filter, hp]
  rw [h1, hf, List.mem_filter, List.mem_append]
  simp only [hp, and_true]
  have hno : ¬ g ∈ (emitProperties w (addAll ([], []) (accessors w s vis (.record r p) c)).1).diags := by
    rw [emitProperties_diags]
    rintro ⟨_, _, _, _, _, _, rfl⟩
    cases hg
  simp only [hno, or_false]
  rw [ha.notes g hg]
  have e := fun n b => named_accessors w s hd vis r p c ds n b
  unfold accessors
  refine and_congr_right fun _ => ?_
  constructor
  · rintro ⟨n, b, h2⟩
    rw [e] at h2
    refine ⟨n, ?_⟩
    cases b
    · exact .inl h2
    · exact .inr h2
  · rintro ⟨n, h2 | h2⟩
    · exact ⟨n, false, by rw [e]; exact h2⟩
    · exact ⟨n, true, by rw [e]; exact h2⟩

/-- C36: an error is reported for each property that only has a setter. -/
theorem C36_no_getter (w : EmitWorld) (s : Storage) (hd : Derived w s) (vis : Visibilities) (r : Nat)
    (p : InliningPolicy) (c : Nat) (g : Diag) (hg : g.kind = .propertyHasNoGetter) :
    let ds := proposedDecls w (.record r p) c
    g ∈ (exposeContext w vis s (.record r p) c).emitted.diags ↔
      ∃ n, g.args = [n] ∧ getters w s vis c ds n = [] ∧
        (setters w s vis c ds n).getLast? = some g.decl := by
  intro ds
  have ha := record_added w s vis (.record r p) c
  have hf := (exposeContext_eq w vis s (.record r p) c (by simp)).2.2.2
  have hp : isPropertyDiag g = true := by simp [isPropertyDiag, hg]
  have h1 : g ∈ (exposeContext w vis s (.record r p) c).emitted.diags ↔
      g ∈ (exposeContext w vis s (.record r p) c).emitted.diags.filter isPropertyDiag := by
    simp [List.mem_filter, hp]
  rw [h1, hf, List.mem_filter, List.mem_append]
  simp only [hp, and_true]
  have hno : ¬ g ∈ (addAll ([], []) (accessors w s vis (.record r p) c)).2 :=
    fun h => ha.kinds g h hg
  simp only [hno, false_or]
  rw [emitProperties_diags]
  have hget : ∀ n, (addAll ([], []) (accessors w s vis (.record r p) c)).1.get n =
      { getter := (getters w s vis c ds n).getLast?, setter := (setters w s vis c ds n).getLast? } := by
    intro n
    have h0 := named_accessors w s hd vis r p c ds n false
    have h1 := named_accessors w s hd vis r p c ds n true
    simp only [Bool.false_eq_true, if_false, if_true] at h0 h1
    have hg := ha.get n
    unfold accessors at hg ⊢
    rw [hg, h0, h1]
  constructor
  · rintro ⟨n, q, d, hm, h1, h2, rfl⟩
    have hl := (mem_iff_lookup _ ha.sorted n q).1 hm
    have := hget n
    unfold PropertyMap.get at this
    rw [hl] at this
    simp only [Option.getD_some] at this
    subst this
    refine ⟨n, rfl, ?_, h2⟩
    simpa using h1
  · rintro ⟨n, h1, h2, h3⟩
    have hl : (addAll ([], []) (accessors w s vis (.record r p) c)).1.lookup n =
        some { getter := none, setter := some g.decl } := by
      have := hget n
      rw [h2, h3] at this
      unfold PropertyMap.get at this
      cases hl : (addAll ([], []) (accessors w s vis (.record r p) c)).1.lookup n with
      | none =>
        rw [hl] at this
        exact absurd (congrArg Property.setter this) (by simp)
      | some q =>
        rw [hl] at this
        simpa using this
    refine ⟨n, _, g.decl, (mem_iff_lookup _ ha.sorted n _).2 hl, rfl, rfl, ?_⟩
    obtain ⟨d, k, as⟩ := g
    simp only at hg h1
    rw [hg, h1]

/-- C36: without errors, every property has one getter and at most one setter. -/
theorem C36_unique (w : EmitWorld) (s : Storage) (hd : Derived w s) (vis : Visibilities) (r : Nat)
    (p : InliningPolicy) (c : Nat)
    (hok : hasErrors (exposeContext w vis s (.record r p) c).emitted.diags = false) (n : Str) :
    let ds := proposedDecls w (.record r p) c
    (getters w s vis c ds n).length ≤ 1 ∧ (setters w s vis c ds n).length ≤ 1 ∧
      (getters w s vis c ds n = [] → setters w s vis c ds n = []) := by
  intro ds
  have hno : ∀ g ∈ (exposeContext w vis s (.record r p) c).emitted.diags, g.isError = false := by
    intro g hg
    unfold hasErrors at hok
    rw [List.any_eq_false] at hok
    simpa using hok g hg
  have short : ∀ l : List Nat, (∀ d, d ∉ l.tail) → l.length ≤ 1 := by
    intro l hl
    match l, hl with
    | [], _ => simp
    | [_], _ => simp
    | _ :: x :: _, hl => exact absurd (by simp) (hl x)
  refine ⟨short _ ?_, short _ ?_, ?_⟩
  · intro d hdm
    have := hno ⟨d, .propertyAlreadyDefined, [n, t%"0"]⟩
      ((C36_duplicates w s hd vis r p c _ rfl).2 ⟨n, .inl ⟨rfl, hdm⟩⟩)
    cases this
  · intro d hdm
    have := hno ⟨d, .propertyAlreadyDefined, [n, t%"1"]⟩
      ((C36_duplicates w s hd vis r p c _ rfl).2 ⟨n, .inr ⟨rfl, hdm⟩⟩)
    cases this
  · intro h0
    cases hl : (setters w s vis c ds n).getLast? with
    | none => simpa using hl
    | some d =>
      have := hno ⟨d, .propertyHasNoGetter, [n]⟩
        ((C36_no_getter w s hd vis r p c _ rfl).2 ⟨n, rfl, h0, hl⟩)
      cases this

/-! ### C37 -/

theorem pythonName_eq (w : EmitWorld) (s : Storage) (d : Nat) (a : DeclAttrs)
    (h : attrsOf w s d = some a) : pythonName w s d = emitSpelling (w.info d) a.named
      (if (w.info d).operator = some .call ∧ (w.info d).kind.isFunction = true then t%"__call__"
        else []) := by
  unfold pythonName emitSpelling
  rw [h]
  dsimp only [Option.map_some, Option.getD_some]
  cases a.named.spelling with
  | nil =>
    by_cases hc : (w.info d).operator = some .call ∧ (w.info d).kind.isFunction = true
    · simp [hc]
    · simp only [hc, if_false, ne_eq, not_true_eq_false, List.isEmpty_nil, Bool.not_true,
        Bool.false_eq_true]
  | cons x l => simp

/-- C37: the definition of an enum consists of its shown enumerators, in order, and
`export_values` if the enum is annotated and `export_values` says so or is not given
and the enum is unscoped.

Partial: enums without annotations that are visible by default do not export their
values, see `C37_unannotated`. -/
theorem C37_values_partial (w : EmitWorld) (ok : EmitOK w) (s : Storage) (vis : Visibilities)
    (x : Nat) (hx : (w.info x).kind = .enum) (a : EnumDeclAttrs)
    (ha : (s.entries x).bind (·.enum) = some a) :
    (exposeContext w vis s (.enum x) x).emitted.stmts =
      (((proposedDecls w (.enum x) x).filter fun d =>
          shown w s vis x d && decide ((w.info d).kind = .enumConstant)).map fun d =>
        Stmt.enumValue d (pythonName w s d) (w.typeName x) (w.info d).name (w.brief d)) ++
      (match a.exportValues with
        | some true => [Stmt.exportValues]
        | some false => []
        | none => if w.isScoped x then [] else [Stmt.exportValues]) := by
  have hc : ∀ y, Exposer.enum x = .enum y → y ∉ proposedDecls w (.enum x) x := by
    intro y hy hm
    simp only [Exposer.enum.injEq] at hy
    subst hy
    have := proposed_kind w ok _ _ _ hm
    rw [hx] at this
    cases this
  rw [(exposeContext_eq w vis s (.enum x) x hc).1]
  congr 1
  · rw [← List.filterMap_eq_map, List.filterMap_filter, ← flatMap_toList]
    congr 1
    funext d
    unfold declOutput shown
    cases hd : attrsOf w s d with
    | none => simp
    | some b =>
      dsimp only
      unfold declStmts handleDeclEnum
      by_cases hv : b.named.visible.getD ((vis x).getD false) = true
      · by_cases hk : (w.info d).kind = .enumConstant
        · dsimp only [Function.comp]
          have hn := pythonName_eq w s d b hd
          rw [if_neg (by rw [hk]; simp [DeclKind.isFunction])] at hn
          rw [hn]
          simp [hv, hk]
        · simp [hv, hk, Emitted.none]
      · simp [hv]
  · unfold finalStmts finalizeEnum
    dsimp only
    rw [ha]
    dsimp only
    cases a.exportValues with
    | none => cases w.isScoped x <;> simp [Emitted.none]
    | some b => cases b <;> simp [Emitted.none]

/-! ### C41 -/

/-- C41: the constructors exposed for a class, in order, and the types of their
parameters. -/
theorem C41_constructors (w : EmitWorld) (ok : EmitOK w) (s : Storage) (hd : Derived w s)
    (vis : Visibilities) (r : Nat) (p : InliningPolicy) (c : Nat) :
    (exposeContext w vis s (.record r p) c).emitted.stmts.filterMap initOf =
      (((proposedDecls w (.record r p) c).filter (shown w s vis c)).filter (callable w r)).map
        fun d => (d, (w.fn d).params.map (·.originalType)) := by
  rw [← List.filterMap_eq_map, List.filterMap_filter]
  refine selected w vis s (.record r p) c initOf _ (by simp) ?_ ?_
  · exact fun m => properties_select initOf (fun _ _ _ => rfl) w m
  · intro d a ha _
    have sh := attrsOf_shape w s hd d a ha
    unfold declStmts
    dsimp only
    unfold callable
    cases hc : a.constructor with
    | some k =>
      have hk := sh.constructor.1 (by rw [hc]; rfl)
      unfold handleDeclRecord
      rw [hc]
      dsimp only
      by_cases hb : ((w.fn d).isMoveConstructor || (w.fn d).isDeleted || w.isAbstract r) = true
      · rw [if_pos hb, if_neg]
        · rfl
        · revert hb
          cases (w.fn d).isMoveConstructor <;> cases (w.fn d).isDeleted <;> cases w.isAbstract r <;> simp
      · have hcal : (decide ((w.info d).kind = .constructor) && !(w.fn d).isMoveConstructor &&
            !(w.fn d).isDeleted && !w.isAbstract r) = true := by
          revert hb
          cases (w.fn d).isMoveConstructor <;> cases (w.fn d).isDeleted <;> cases w.isAbstract r <;>
            simp [hk]
        rw [if_neg hb, hcal]
        simp only [if_true]
        split
        · rename_i himp
          split
          · rename_i hp
            exfalso
            obtain ⟨_, n, rfl⟩ := attrsOf_base w s hd d a ha
            have h1 := (firstInsert_ctor w.toDeclEnv d k hc himp).1
            have h2 : (w.info d).params.length = (w.fn d).params.length := by
              rw [ok.params d, List.length_map]
            have h3 : (w.info d).params.length = 1 := h1
            rw [h2, hp] at h3
            cases h3
          · rfl
        · rfl
    | none =>
      have hk : ¬ (w.info d).kind = .constructor := by
        intro hk
        have := sh.constructor.2 hk
        rw [hc] at this
        cases this
      rw [if_neg (by simp [hk])]
      unfold handleDeclRecord handleDeclGeneric
      rw [hc]
      dsimp only
      repeat' (first | rfl | split | (dsimp only; split))

/-- C41: implicit conversions are registered for exposed constructors annotated with
`implicit_conversion`, in order. -/
theorem C41_conversions (w : EmitWorld) (ok : EmitOK w) (s : Storage) (hd : Derived w s)
    (vis : Visibilities) (r : Nat) (p : InliningPolicy) (c : Nat) :
    (exposeContext w vis s (.record r p) c).emitted.stmts.filterMap conversionOf =
      (((proposedDecls w (.record r p) c).filter (shown w s vis c)).filter fun d =>
          callable w r d && convertsImplicitly w s d).filterMap
        fun d => (w.fn d).params.head?.map fun q => (d, q.type.text, w.typeName r) := by
  rw [List.filterMap_filter]
  refine selected w vis s (.record r p) c conversionOf _ (by simp) ?_ ?_
  · exact fun m => properties_select conversionOf (fun _ _ _ => rfl) w m
  · intro d a ha _
    have sh := attrsOf_shape w s hd d a ha
    unfold declStmts
    dsimp only
    unfold callable
    have hcv : convertsImplicitly w s d = a.constructor.any (·.implicitConversion) := by
      unfold convertsImplicitly
      rw [ha]
      rfl
    cases hc : a.constructor with
    | some k =>
      have hk := sh.constructor.1 (by rw [hc]; rfl)
      rw [hc] at hcv
      rw [hcv]
      unfold handleDeclRecord
      rw [hc]
      dsimp only [Option.any_some]
      by_cases hb : ((w.fn d).isMoveConstructor || (w.fn d).isDeleted || w.isAbstract r) = true
      · rw [if_pos hb, if_neg]
        · rfl
        · revert hb
          cases (w.fn d).isMoveConstructor <;> cases (w.fn d).isDeleted <;> cases w.isAbstract r <;> simp
      · rw [if_neg hb]
        have hb' : (!(w.fn d).isMoveConstructor && !(w.fn d).isDeleted && !w.isAbstract r) = true := by
          revert hb
          cases (w.fn d).isMoveConstructor <;> cases (w.fn d).isDeleted <;> cases w.isAbstract r <;> simp
        by_cases himp : k.implicitConversion = true
        · have hcal : (decide ((w.info d).kind = .constructor) && !(w.fn d).isMoveConstructor &&
              !(w.fn d).isDeleted && !w.isAbstract r && k.implicitConversion) = true := by
            simp only [Bool.and_eq_true, decide_eq_true_eq] at hb' ⊢
            exact ⟨⟨⟨⟨hk, hb'.1.1⟩, hb'.1.2⟩, hb'.2⟩, himp⟩
          rw [if_pos himp, if_pos hcal]
          cases (w.fn d).params with
          | nil => rfl
          | cons q l => rfl
        · rw [if_neg himp, if_neg (by simp [himp])]
          rfl
    | none =>
      rw [hc] at hcv
      rw [hcv, if_neg (by simp)]
      unfold handleDeclRecord handleDeclGeneric
      rw [hc]
      dsimp only
      repeat' (first | rfl | split | (dsimp only; split))

/-- C41: `implicit_conversion` only takes effect for converting constructors with one
parameter. -/
theorem C41_converting (w : EmitWorld) (ok : EmitOK w) (s : Storage) (hd : Derived w s) (d : Nat)
    (h : convertsImplicitly w s d = true) :
    (w.info d).kind = .constructor ∧ (w.info d).converting = true ∧ (w.fn d).params.length = 1 := by
  unfold convertsImplicitly at h
  cases ha : attrsOf w s d with
  | none =>
    rw [ha] at h
    cases h
  | some a =>
    rw [ha] at h
    simp only [Option.bind_some] at h
    cases hc : a.constructor with
    | none =>
      rw [hc] at h
      cases h
    | some k =>
      rw [hc] at h
      have sh := attrsOf_shape w s hd d a ha
      have hk := sh.constructor.1 (by rw [hc]; rfl)
      obtain ⟨_, n, rfl⟩ := attrsOf_base w s hd d a ha
      have h1 := firstInsert_ctor w.toDeclEnv d k hc h
      refine ⟨hk, h1.2, ?_⟩
      rw [← List.length_map (f := fun x : FnParam => x.param.name), ← ok.params d]
      exact h1.1

/-! ### C46 -/

theorem var_attrs {d : DeclInfo} {a : DeclAttrs} (sh : Shape d a) (v : FieldOrVarDeclAttrs)
    (h : a.fieldOrVar = some v) : a.constructor = none ∧ a.typedefName = none ∧ a.method = none ∧
      a.function = none ∧ supportsOperator d = false := by
  have hk := sh.fieldOrVar.1 (by rw [h]; rfl)
  have no : ∀ {α : Type} (o : Option α), ¬ o.isSome = true → o = none := by
    intro α o
    cases o <;> simp
  refine ⟨no _ fun hs => ?_, no _ fun hs => ?_, no _ fun hs => ?_, no _ fun hs => ?_, ?_⟩
  · have := sh.constructor.1 hs
    rcases hk with hk | hk <;> rw [hk] at this <;> cases this
  · have := sh.typedefName.1 hs
    rcases hk with hk | hk <;> rw [hk] at this <;> cases this
  · have := (sh.method.1 hs).1
    rcases hk with hk | hk <;> rw [hk] at this <;> cases this
  · have := sh.function.1 hs
    rcases hk with hk | hk <;> rw [hk] at this <;> simp at this
  · unfold supportsOperator
    rcases hk with hk | hk <;> rw [hk] <;> rfl

/-- C46: the manual bindings in the definition of a class, namespace or the
translation unit: those of its shown variables that are not annotated with
`postamble`, in order. -/
theorem C46_definitions (w : EmitWorld) (s : Storage) (hd : Derived w s) (vis : Visibilities)
    (e : Exposer) (he : ∀ x, e ≠ .enum x) (c : Nat) :
    (exposeContext w vis s e c).emitted.stmts.filterMap manualOf =
      ((proposedDecls w e c).filter (shown w s vis c)).filterMap fun d =>
        (manualLambda w s d).map (d, ·) := by
  refine selected w vis s e c manualOf _ (fun x hx => absurd hx (he x)) ?_ ?_
  · intro m
    cases e with
    | record x p => exact properties_select manualOf (fun _ _ _ => rfl) w m
    | enum x => exact absurd rfl (he x)
    | _ => rfl
  · intro d a ha _
    have sh := attrsOf_shape w s hd d a ha
    unfold manualLambda
    rw [ha]
    simp only [Option.bind_some]
    cases hv : a.fieldOrVar with
    | some v =>
      obtain ⟨h1, h2, h3, h4, h5⟩ := var_attrs sh v hv
      have hgen : (handleDeclGeneric w a d).stmts.filterMap manualOf =
          ((if v.postamble = true then none else v.manualBindings).map (d, ·)).toList := by
        unfold handleDeclGeneric
        rw [h1, h2, hv]
        simp only [Option.isSome_none, Bool.false_eq_true, if_false]
        cases v.manualBindings with
        | none =>
          dsimp only
          split <;> split <;> simp [Emitted.fail, manualOf]
        | some l =>
          dsimp only
          split <;> simp [Emitted.none, manualOf]
      have hrec : ∀ r, (handleDeclRecord w r [] a d).2.stmts.filterMap manualOf =
          ((if v.postamble = true then none else v.manualBindings).map (d, ·)).toList := by
        intro r
        unfold handleDeclRecord
        rw [h1, h3, h5, hv]
        simp only [Bool.false_eq_true, if_false, Option.getD_none, List.isEmpty_nil, Bool.not_true,
          Bool.or_self]
        cases v.manualBindings with
        | none =>
          dsimp only
          split <;> simp [manualOf]
        | some l =>
          dsimp only
          split <;> simp [Emitted.fail, manualOf]
      cases e with
      | record r p => exact hrec r
      | enum x => exact absurd rfl (he x)
      | _ => exact hgen
    | none =>
      have hgen : (handleDeclGeneric w a d).stmts.filterMap manualOf = [] := by
        unfold handleDeclGeneric
        rw [hv]
        dsimp only
        repeat' (first | rfl | split | (dsimp only; split))
      have hrec : ∀ r, (handleDeclRecord w r [] a d).2.stmts.filterMap manualOf = [] := by
        intro r
        unfold handleDeclRecord
        rw [hv]
        dsimp only
        repeat' (first | rfl | exact hgen | split | (dsimp only; split))
      cases e with
      | record r p => exact hrec r
      | enum x => exact absurd rfl (he x)
      | _ => exact hgen

/-! ### C56 -/

theorem function_attrs {d : DeclInfo} {a : DeclAttrs} (sh : Shape d a) (hk : isPlainFunction d = true) :
    a.constructor = none ∧ a.typedefName = none ∧ a.fieldOrVar = none ∧ ∃ f, a.function = some f := by
  have hk' : d.kind = .function ∨ d.kind = .method ∨ d.kind = .conversion := by
    simpa [isPlainFunction, or_assoc] using hk
  have no : ∀ {α : Type} (o : Option α), ¬ o.isSome = true → o = none := by
    intro α o
    cases o <;> simp
  refine ⟨no _ fun hs => ?_, no _ fun hs => ?_, no _ fun hs => ?_, ?_⟩
  · have := sh.constructor.1 hs
    rcases hk' with hk | hk | hk <;> rw [hk] at this <;> cases this
  · have := sh.typedefName.1 hs
    rcases hk' with hk | hk | hk <;> rw [hk] at this <;> cases this
  · have := sh.fieldOrVar.1 hs
    rcases hk' with hk | hk | hk <;> rw [hk] at this <;> simp at this
  · refine Option.isSome_iff_exists.1 (sh.function.2 ?_)
    rcases hk' with hk | hk | hk <;> simp [hk]

theorem generic_function (w : EmitWorld) (s : Storage) (d : Nat) (a : DeclAttrs)
    (ha : attrsOf w s d = some a) (sh : Shape (w.info d) a) :
    (handleDeclGeneric w a d).stmts.filterMap functionOf =
      (if (isPlainFunction (w.info d) && !(w.fn d).isDeleted && !isAccessor w s d) = true
        then some (d, (w.info d).kind.isMethod && (w.fn d).isStatic, pythonName w s d,
          emitFunctionPointer w d) else none).toList := by
  have hacc : isAccessor w s d = a.method.any fun m => !m.getterFor.isEmpty || !m.setterFor.isEmpty := by
    unfold isAccessor
    rw [ha]
    rfl
  cases hp : isPlainFunction (w.info d) with
  | true =>
    obtain ⟨h1, h2, h3, f, h4⟩ := function_attrs sh hp
    have hfun : (w.info d).kind.isFunction = true := by
      have hk' : (w.info d).kind = .function ∨ (w.info d).kind = .method ∨ (w.info d).kind = .conversion := by
        simpa [isPlainFunction, or_assoc] using hp
      rcases hk' with hk | hk | hk <;> rw [hk] <;> rfl
    have hname := pythonName_eq w s d a ha
    simp only [hfun, and_true] at hname
    rw [hname]
    unfold handleDeclGeneric
    rw [h1, h2, h3, h4]
    simp only [Option.isSome_none, Bool.false_eq_true, if_false]
    cases hm : a.method with
    | none =>
      rw [hm] at hacc
      simp only [Option.any_none] at hacc
      rw [hacc]
      simp only [Bool.false_eq_true, if_false]
      cases (w.fn d).isDeleted with
      | true => simp [Emitted.none]
      | false => simp [functionOf]
    | some m =>
      rw [hm] at hacc
      simp only [Option.any_some] at hacc
      cases hx : isAccessor w s d with
      | true =>
        rw [hx] at hacc
        rw [if_pos hacc.symm]
        simp [Emitted.none]
      | false =>
        rw [hx] at hacc
        rw [if_neg (by show ¬ _; exact fun h => Bool.false_ne_true (hacc.trans h))]
        cases (w.fn d).isDeleted with
        | true => simp [Emitted.none]
        | false => simp [functionOf]
  | false =>
    simp only [Bool.false_and, Bool.false_eq_true, if_false, Option.toList]
    have hf : a.constructor = none → a.function = none := by
      intro hc
      cases hf : a.function with
      | none => rfl
      | some f =>
        have := sh.function.1 (by rw [hf]; rfl)
        rcases this with h | h | h | h
        · simp [isPlainFunction, h] at hp
        · simp [isPlainFunction, h] at hp
        · have := sh.constructor.2 h
          rw [hc] at this
          cases this
        · simp [isPlainFunction, h] at hp
    unfold handleDeclGeneric
    cases hc : a.constructor with
    | some k => simp [Emitted.fail]
    | none =>
      rw [hf hc]
      simp only [Option.isSome_none, Bool.false_eq_true, if_false]
      repeat' (first | rfl | split | (dsimp only; split))

theorem isOperator_iff (d : DeclInfo) (h : isPlainFunction d = true) :
    supportsOperator d = isOperator d := by
  have hk' : d.kind = .function ∨ d.kind = .method ∨ d.kind = .conversion := by
    simpa [isPlainFunction, or_assoc] using h
  unfold supportsOperator isOperator
  rcases hk' with hk | hk | hk <;> rw [hk] <;> cases d.operator <;> simp [DeclKind.isFunction]

/-- C56: the functions exposed in a class, namespace or the module, in order, and the
names they are given.  Operators are left to C39 in classes. -/
theorem C56_functions (w : EmitWorld) (s : Storage) (hd : Derived w s) (vis : Visibilities)
    (e : Exposer) (he : ∀ x, e ≠ .enum x) (c : Nat) :
    (exposeContext w vis s e c).emitted.stmts.filterMap functionOf =
      (((proposedDecls w e c).filter (shown w s vis c)).filter fun d =>
          isPlainFunction (w.info d) && !(w.fn d).isDeleted && !isAccessor w s d &&
          !((e matches .record ..) && isOperator (w.info d))).map fun d =>
        (d, (w.info d).kind.isMethod && (w.fn d).isStatic, pythonName w s d, emitFunctionPointer w d) := by
  rw [← List.filterMap_eq_map, List.filterMap_filter]
  refine selected w vis s e c functionOf _ (fun x hx => absurd hx (he x)) ?_ ?_
  · intro m
    cases e with
    | record x p => exact properties_select functionOf (fun _ _ _ => rfl) w m
    | enum x => exact absurd rfl (he x)
    | _ => rfl
  · intro d a ha _
    have sh := attrsOf_shape w s hd d a ha
    have hgen := generic_function w s d a ha sh
    cases e with
    | enum x => exact absurd rfl (he x)
    | plain =>
      simp only [declStmts, Bool.false_and, Bool.not_false, Bool.and_true]
      exact hgen
    | «namespace» x =>
      simp only [declStmts, Bool.false_and, Bool.not_false, Bool.and_true]
      exact hgen
    | record r p =>
      simp only [declStmts, Bool.true_and]
      have hacc : isAccessor w s d = a.method.any fun m => !m.getterFor.isEmpty || !m.setterFor.isEmpty := by
        unfold isAccessor
        rw [ha]
        rfl
      cases hp : isPlainFunction (w.info d) with
      | true =>
        obtain ⟨h1, h2, h3, f, h4⟩ := function_attrs sh hp
        rw [← isOperator_iff _ hp]
        rw [hp] at hgen
        unfold handleDeclRecord
        rw [h1, h3]
        dsimp only
        cases ho : supportsOperator (w.info d) with
        | true =>
          simp only [if_true, Bool.not_true, Bool.and_false, Bool.false_eq_true, if_false, Option.toList]
          repeat' (first | rfl | split | (dsimp only; split))
        | false =>
          simp only [Bool.false_eq_true, if_false, Bool.not_false, Bool.and_true]
          cases hm : a.method with
          | none =>
            simp only [Option.getD_none, List.isEmpty_nil, Bool.not_true, Bool.or_self,
              Bool.false_eq_true, if_false]
            exact hgen
          | some m =>
            rw [hm] at hacc
            simp only [Option.any_some] at hacc
            simp only [Option.getD_some]
            rw [← hacc]
            cases hx : isAccessor w s d with
            | true => simp
            | false =>
              simp only [Bool.false_eq_true, if_false]
              rw [hx] at hgen
              exact hgen
      | false =>
        rw [hp] at hgen
        simp only [Bool.false_and, Bool.false_eq_true, if_false, Option.toList] at hgen ⊢
        unfold handleDeclRecord
        dsimp only
        repeat' (first | rfl | exact hgen | split | (dsimp only; split))

/-! ### C57 -/

/-- C57: the data members exposed in a class, in order: read-only if `const` or
annotated with `readonly`. -/
theorem C57_members (w : EmitWorld) (s : Storage) (hd : Derived w s) (vis : Visibilities)
    (r : Nat) (p : InliningPolicy) (c : Nat) :
    (exposeContext w vis s (.record r p) c).emitted.stmts.filterMap fieldOf =
      ((proposedDecls w (.record r p) c).filter (shown w s vis c)).filterMap fun d =>
        match (attrsOf w s d).bind (·.fieldOrVar) with
        | some v =>
          if v.manualBindings = none then
            some (d, w.isConstType d || v.readonly, decide ((w.info d).kind = .var), pythonName w s d,
              w.qualifiedName d)
          else none
        | none => none := by
  refine selected w vis s (.record r p) c fieldOf _ (by simp) ?_ ?_
  · exact fun m => properties_select fieldOf (fun _ _ _ => rfl) w m
  · intro d a ha _
    have sh := attrsOf_shape w s hd d a ha
    simp only [declStmts]
    rw [ha]
    simp only [Option.bind_some]
    cases hv : a.fieldOrVar with
    | some v =>
      obtain ⟨h1, h2, h3, h4, h5⟩ := var_attrs sh v hv
      have hname := pythonName_eq w s d a ha
      have hnf : (w.info d).kind.isFunction = false := by
        rcases sh.fieldOrVar.1 (by rw [hv]; rfl) with hk | hk <;> rw [hk] <;> rfl
      simp only [hnf, Bool.false_eq_true, and_false, if_false] at hname
      rw [hname]
      unfold handleDeclRecord
      rw [h1, h3, h5, hv]
      simp only [Bool.false_eq_true, if_false, Option.getD_none, List.isEmpty_nil, Bool.not_true,
        Bool.or_self]
      cases v.manualBindings with
      | none => simp [fieldOf]
      | some l =>
        dsimp only
        split <;> simp [Emitted.fail, fieldOf]
    | none =>
      have hgen : (handleDeclGeneric w a d).stmts.filterMap fieldOf = [] := by
        unfold handleDeclGeneric
        rw [hv]
        dsimp only
        repeat' (first | rfl | split | (dsimp only; split))
      unfold handleDeclRecord
      rw [hv]
      dsimp only
      repeat' (first | rfl | exact hgen | split | (dsimp only; split))

/-! ### C58 -/

/-- The attributes set for a declaration. -/
theorem generic_attributes (w : EmitWorld) (s : Storage) (d : Nat) (a : DeclAttrs)
    (ha : attrsOf w s d = some a) (sh : Shape (w.info d) a) :
    (handleDeclGeneric w a d).stmts.filterMap attributeOf =
        (match a.typedefName, a.fieldOrVar with
          | some t, _ =>
            if a.named.visible = none ∨ t.exposeHere = true then none
            else (w.aliasTag d).map fun tag => (d, pythonName w s d, tag)
          | none, some v =>
            if v.manualBindings = none ∧ (w.info d).kind = DeclKind.var
            then some (d, pythonName w s d, w.qualifiedName d) else none
          | none, none => none).toList := by
  have hname := pythonName_eq w s d a ha
  cases ht : a.typedefName with
  | some t =>
    have hk := sh.typedefName.1 (by rw [ht]; rfl)
    have hc : a.constructor = none := by
      cases hc : a.constructor with
      | none => rfl
      | some k =>
        have := sh.constructor.1 (by rw [hc]; rfl)
        rw [hk] at this
        cases this
    rw [hk] at hname
    simp only [DeclKind.isFunction, Bool.false_eq_true, and_false, if_false] at hname
    rw [hname]
    unfold handleDeclGeneric
    rw [hc, ht]
    simp only [Option.isSome_none, Bool.false_eq_true, if_false, Bool.or_eq_true,
      Option.isNone_iff_eq_none]
    split
    · simp [Emitted.none]
    · cases w.aliasTag d <;> simp [Emitted.none, attributeOf]
  | none =>
    cases hv : a.fieldOrVar with
    | some v =>
      obtain ⟨h1, h2, h3, h4, h5⟩ := var_attrs sh v hv
      have hnf : (w.info d).kind.isFunction = false := by
        rcases sh.fieldOrVar.1 (by rw [hv]; rfl) with hk | hk <;> rw [hk] <;> rfl
      simp only [hnf, Bool.false_eq_true, and_false, if_false] at hname
      rw [hname]
      unfold handleDeclGeneric
      rw [h1, ht, hv]
      simp only [Option.isSome_none, Bool.false_eq_true, if_false]
      cases v.manualBindings with
      | none =>
        rcases sh.fieldOrVar.1 (by rw [hv]; rfl) with hk | hk <;>
          simp [hk, Emitted.fail, attributeOf]
      | some l =>
        dsimp only
        split <;> simp [Emitted.none, attributeOf]
    | none =>
      unfold handleDeclGeneric
      rw [ht, hv]
      dsimp only
      repeat' (first | rfl | split | (dsimp only; split))

/-- C58: the attributes set in a namespace or the module: aliases that are annotated
(and do not move the type), and variables, in order. -/
theorem C58_attributes (w : EmitWorld) (s : Storage) (hd : Derived w s) (vis : Visibilities)
    (e : Exposer) (he : ∀ x, e ≠ .enum x) (hr : ∀ x p, e ≠ .record x p) (c : Nat) :
    (exposeContext w vis s e c).emitted.stmts.filterMap attributeOf =
      ((proposedDecls w e c).filter (shown w s vis c)).filterMap fun d =>
        match attrsOf w s d with
        | none => none
        | some a =>
          match a.typedefName, a.fieldOrVar with
          | some t, _ =>
            if a.named.visible = none ∨ t.exposeHere = true then none
            else (w.aliasTag d).map fun tag => (d, pythonName w s d, tag)
          | none, some v =>
            if v.manualBindings = none ∧ (w.info d).kind = DeclKind.var
            then some (d, pythonName w s d, w.qualifiedName d) else none
          | none, none => none := by
  refine selected w vis s e c attributeOf _ (fun x hx => absurd hx (he x)) ?_ ?_
  · intro m
    cases e with
    | record x p => exact absurd rfl (hr x p)
    | enum x => exact absurd rfl (he x)
    | _ => rfl
  · intro d a ha _
    have sh := attrsOf_shape w s hd d a ha
    rw [ha]
    have hgen := generic_attributes w s d a ha sh
    cases e with
    | record x p => exact absurd rfl (hr x p)
    | enum x => exact absurd rfl (he x)
    | _ => exact hgen

/-- C58: the attributes set in a class are annotated aliases; variables are data members
there (C57). -/
theorem C58_class_attributes (w : EmitWorld) (s : Storage) (hd : Derived w s) (vis : Visibilities)
    (r : Nat) (p : InliningPolicy) (c : Nat) :
    (exposeContext w vis s (.record r p) c).emitted.stmts.filterMap attributeOf =
      ((proposedDecls w (.record r p) c).filter (shown w s vis c)).filterMap fun d =>
        match attrsOf w s d with
        | none => none
        | some a =>
          match a.typedefName with
          | some t =>
            if a.named.visible = none ∨ t.exposeHere = true then none
            else (w.aliasTag d).map fun tag => (d, pythonName w s d, tag)
          | none => none := by
  refine selected w vis s (.record r p) c attributeOf _ (by simp) ?_ ?_
  · exact fun m => properties_select attributeOf (fun _ _ _ => rfl) w m
  · intro d a ha _
    have sh := attrsOf_shape w s hd d a ha
    have hgen := generic_attributes w s d a ha sh
    rw [ha]
    simp only [declStmts]
    unfold handleDeclRecord
    cases ht : a.typedefName with
    | some t =>
      have hk := sh.typedefName.1 (by rw [ht]; rfl)
      have hc : a.constructor = none := by
        cases hc : a.constructor with
        | none => rfl
        | some k =>
          have := sh.constructor.1 (by rw [hc]; rfl)
          rw [hk] at this
          cases this
      have hm : a.method = none := by
        cases hm : a.method with
        | none => rfl
        | some k =>
          have := sh.method.1 (by rw [hm]; rfl)
          rw [hk] at this
          simp at this
      have hv : a.fieldOrVar = none := by
        cases hm : a.fieldOrVar with
        | none => rfl
        | some k =>
          have := sh.fieldOrVar.1 (by rw [hm]; rfl)
          rw [hk] at this
          simp at this
      have ho : supportsOperator (w.info d) = false := by
        simp [supportsOperator, hk, DeclKind.isFunction]
      rw [ht] at hgen
      rw [hc, hm, hv, ho]
      simpa using hgen
    | none =>
      dsimp only
      cases hv : a.fieldOrVar with
      | some v =>
        dsimp only
        repeat' (first | rfl | split | (dsimp only; split))
      | none =>
        rw [ht, hv] at hgen
        dsimp only at hgen ⊢
        repeat' (first | rfl | exact hgen | split | (dsimp only; split))

/-! ### Examples -/

/-- A function with `n` parameters of type `int`. -/
def exPlain (name : Str) (n : Nat := 0) : FnInfo :=
  ⟨(List.range n).map fun i => ⟨{ id := i, name := t%"x" }, { text := t%"int" }, t%"int"⟩, t%"int", false,
    false, false, false, name, .none, none⟩

/-- `struct visible 1 { implicit_conversion 2(int); 3(3 &&); getter_for(value) int 4();
setter_for(value) void 5(int); setter_for(other) void 6(int); expose_as(g) int 7();
const int 8; hidden static int 9; static auto manual 10 = 11; int operator+(int); };
enum 20 { 21, hidden 22, expose_as(D) 23 }; typedef 1 visible 30; typedef 1 31;
int 32; int 33();` -/
def exEmit : EmitWorld where
  info := fun
    | 0 => { kind := .translationUnit }
    | 1 => { kind := .record, name := t%"S", attrTexts := [lozenge ++ t%"visible"] }
    | 2 => { kind := .constructor, name := t%"S", attrTexts := [lozenge ++ t%"implicit_conversion"]
             params := [t%"x"], minRequired := 1, converting := true }
    | 3 => { kind := .constructor, name := t%"S", params := [t%"x"], minRequired := 1 }
    | 4 => { kind := .method, name := t%"value", attrTexts := [lozenge ++ t%"getter_for(value)"] }
    | 5 => { kind := .method, name := t%"setValue", attrTexts := [lozenge ++ t%"setter_for(value)"]
             params := [t%"x"], minRequired := 1, returnsVoid := true }
    | 6 => { kind := .method, name := t%"setOther", attrTexts := [lozenge ++ t%"setter_for(other)"]
             params := [t%"x"], minRequired := 1, returnsVoid := true }
    | 7 => { kind := .method, name := t%"f", attrTexts := [lozenge ++ t%"expose_as(g)"] }
    | 8 => { kind := .field, name := t%"k" }
    | 9 => { kind := .var, name := t%"hidden", attrTexts := [lozenge ++ t%"hidden"] }
    | 10 => { kind := .var, name := t%"manual", attrTexts := [lozenge ++ t%"manual"],
              lambda := some ⟨11, true, 1, true, false⟩ }
    | 12 => { kind := .method, name := t%"operator+", nameIsIdentifier := false, operator := some .plus,
              params := [t%"x"], minRequired := 1 }
    | 20 => { kind := .enum, name := t%"E" }
    | 21 => { kind := .enumConstant, name := t%"A" }
    | 22 => { kind := .enumConstant, name := t%"B", attrTexts := [lozenge ++ t%"hidden"] }
    | 23 => { kind := .enumConstant, name := t%"C", attrTexts := [lozenge ++ t%"expose_as(D)"] }
    | 30 => { kind := .typedefName, name := t%"T", aliasTarget := some 1, attrTexts := [lozenge ++ t%"visible"] }
    | 31 => { kind := .typedefName, name := t%"U", aliasTarget := some 1 }
    | 32 => { kind := .var, name := t%"v" }
    | _ => { kind := .function, name := t%"f" }
  hasName := fun _ _ => false
  ancestors := fun _ => []
  canonical := fun x => x
  access := fun _ => .none
  loc := fun x => x
  dependentContext := fun _ => false
  unit := 0
  fn := fun
    | 2 => exPlain t%"S::S" 1
    | 3 => { exPlain t%"S::S" 1 with isMoveConstructor := true }
    | 5 => exPlain t%"S::setValue" 1
    | 6 => exPlain t%"S::setOther" 1
    | 12 => exPlain t%"S::operator+" 1
    | _ => exPlain t%"f" 0
  qualifiedName := fun | 8 => t%"S::k" | _ => t%"v"
  typeName := fun | 20 => t%"::E" | _ => t%"::S"
  selfType := fun r _ => { text := t%"::S", record := some r }
  brief := fun _ => []
  aliasTag := fun _ => some t%"::S"
  isConstType := fun d => d = 8
  manual := fun _ => ⟨some t%"c", t%"{}"⟩
  isAbstract := fun _ => false
  isScoped := fun _ => false
  hierarchy := fun _ => .nil
  specializations := fun _ => none
  found := fun
    | 1 => [12, 10, 9, 8, 7, 6, 5, 4, 3, 2].map fun d => ⟨d, none, false, .public, false, false, some 1, none⟩
    | 20 => [21, 22, 23].map fun d => ⟨d, none, false, .none, false, false, none, none⟩
    | _ => [20, 30, 31, 32, 33].map fun d => ⟨d, none, false, .none, false, false, none, none⟩
  hasLocation := fun _ => true
  associated := fun _ => []
  unitVars := []


theorem exEmit_ok : EmitOK exEmit := by
  refine ⟨by simp [exEmit], by simp [exEmit], ?_, fun _ _ => rfl⟩
  intro d
  simp only [exEmit]
  split <;> (try rfl) <;> (split <;> simp_all) <;> rfl

theorem empty_derived (w : EmitWorld) : Derived w .empty := by
  intro x a h
  cases h

/-- Everything is visible by default. -/
def exAll : Visibilities := fun _ => some true

/-- C36: `value` has a getter and a setter, `other` lacks a getter. -/
example : getters exEmit .empty exAll 1 (proposedDecls exEmit (.record 1 ⟨[], []⟩) 1) t%"value" = [4] := by
  decide +kernel
example : setters exEmit .empty exAll 1 (proposedDecls exEmit (.record 1 ⟨[], []⟩) 1) t%"value" = [5] := by
  decide +kernel
example : Stmt.property t%"value" (emitFunctionPointer exEmit 4) (some (emitFunctionPointer exEmit 5)) ∈
    (exposeContext exEmit exAll .empty (.record 1 ⟨[], []⟩) 1).emitted.stmts :=
  (C36_iff exEmit .empty (empty_derived _) exAll 1 ⟨[], []⟩ 1 _ _ _).2
    ⟨4, by decide +kernel, rfl, by decide +kernel⟩
example : (exposeContext exEmit exAll .empty (.record 1 ⟨[], []⟩) 1).emitted.diags =
    [⟨6, .propertyHasNoGetter, [t%"other"]⟩] := by decide +kernel

/-- C41: the move constructor is left out. -/
example : ((proposedDecls exEmit (.record 1 ⟨[], []⟩) 1).filter (shown exEmit .empty exAll 1)).filter
    (callable exEmit 1) = [2] := by decide +kernel
example : convertsImplicitly exEmit .empty 2 = true := by decide +kernel

/-- C46: the lambda 11 is used for variable 10. -/
example : manualLambda exEmit .empty 10 = some 11 := by decide +kernel
example : 10 ∈ proposedDecls exEmit (.record 1 ⟨[], []⟩) 1 ∧ shown exEmit .empty exAll 1 10 = true := by
  decide +kernel

/-- C56: method 7 is exposed as `g`; the operator and accessors are not functions. -/
example : (exposeContext exEmit exAll .empty (.record 1 ⟨[], []⟩) 1).emitted.stmts.filterMap functionOf =
    [(7, false, t%"g", ⟨7, [], t%"f", false⟩)] := by decide +kernel

/-- C57: the constant is read-only, the hidden variable is left out. -/
example : (exposeContext exEmit exAll .empty (.record 1 ⟨[], []⟩) 1).emitted.stmts.filterMap fieldOf =
    [(8, true, false, t%"k", t%"S::k")] := by decide +kernel

/-- C58: the alias without annotation is left out, although it is shown. -/
example : (exposeContext exEmit exAll .empty .plain 0).emitted.stmts.filterMap attributeOf =
    [(30, t%"T", t%"::S"), (32, t%"v", t%"v")] := by decide +kernel
example : shown exEmit .empty exAll 0 31 = true := by decide +kernel

/-- C37: an annotated enum. -/
def exEnum : Storage := (Storage.empty.insert
  { exEmit.toDeclEnv with info := fun _ => { kind := .enum, attrTexts := [lozenge ++ t%"visible"] } } 20).1

example : (exEnum.entries 20).bind (·.enum) = some {} := by decide +kernel
example : (exposeContext exEmit exAll exEnum (.enum 20) 20).emitted.stmts =
    [.enumValue 21 t%"A" t%"::E" t%"A" [], .enumValue 23 t%"D" t%"::E" t%"C" [], .exportValues] := by
  decide +kernel

/-- C37 does not hold for the unscoped enum `E` that has no annotations and is visible
by default: its values are not exported. -/
theorem C37_unannotated :
    (exEmit.info 20).attrTexts = [] ∧ exEmit.isScoped 20 = false ∧
    Stmt.exportValues ∉ (exposeContext exEmit exAll .empty (.enum 20) 20).emitted.stmts := by
  decide +kernel

/-- C57 is about classes: `readonly` has no effect on variables of namespaces, which
are set as attributes. -/
theorem C58_readonly_ignored :
    let w := { exEmit with
      info := fun d => if d = 32 then { kind := .var, name := t%"v", attrTexts := [lozenge ++ t%"readonly"] }
        else exEmit.info d }
    ((attrsOf w .empty 32).bind (·.fieldOrVar)) = some { readonly := true } ∧
    (exposeContext w exAll .empty .plain 0).emitted.stmts.filterMap attributeOf =
      [(30, t%"T", t%"::S"), (32, t%"v", t%"v")] := by
  decide +kernel

/-- C56: an operator declared in a visible namespace is also exposed as a function of
the namespace. -/
theorem C56_free_operator :
    let op : DeclInfo := { kind := .function, name := t%"operator+", nameIsIdentifier := false,
                           operator := some .plus, params := [t%"x"], minRequired := 1 }
    let w := { exEmit with info := fun d => if d = 33 then op else exEmit.info d }
    (exposeContext w exAll .empty .plain 0).emitted.stmts.filterMap functionOf =
      [(33, false, t%"operator_", ⟨33, [], t%"f", false⟩)] := by
  decide +kernel

end Verif
