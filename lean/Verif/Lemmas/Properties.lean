import Verif.Lemmas.Exposer
/-!
# Lemmas about properties
-/
namespace Verif
open Spec

/-! ### Order of names -/

theorem strLt_iff : ∀ a b : Str, strLt a b = true ↔ StrBefore a b
  | [], [] => by simp only [strLt, Bool.false_eq_true, false_iff]; intro h; cases h
  | [], c :: l => by simp only [strLt, true_iff]; exact .nil c l
  | c :: l, [] => by simp only [strLt, Bool.false_eq_true, false_iff]; intro h; cases h
  | a :: l, b :: m => by
    simp only [strLt]
    have ih := strLt_iff l m
    split
    · rename_i h
      simp only [true_iff]
      exact .head a b l m h
    · rename_i h
      split
      · rename_i h'
        simp only [Bool.false_eq_true, false_iff]
        intro hb
        cases hb with
        | head _ _ _ _ h2 => exact h h2
        | tail => omega
      · rename_i h'
        have he : a = b := Char.toNat_inj.1 (by omega)
        subst he
        rw [ih]
        constructor
        · exact .tail a l m
        · intro hb
          cases hb with
          | head _ _ _ _ h2 => omega
          | tail _ _ _ h2 => exact h2

theorem strLt_irrefl (a : Str) : strLt a a = false := by
  induction a with
  | nil => rfl
  | cons c l ih => simp [strLt, ih]

theorem strLt_total : ∀ a b : Str, strLt a b = false → a ≠ b → strLt b a = true
  | [], [], _, h => absurd rfl h
  | [], _ :: _, h, _ => by simp [strLt] at h
  | _ :: _, [], _, _ => rfl
  | a :: l, b :: m, h, hne => by
    simp only [strLt] at h ⊢
    split at h
    · cases h
    · split at h
      · rename_i h1 h2
        simp [h2]
      · rename_i h1 h2
        have he : a = b := Char.toNat_inj.1 (by omega)
        subst he
        simp only [h1, if_false]
        exact strLt_total l m h (fun h' => hne (by rw [h']))

theorem strLt_trans : ∀ a b c : Str, strLt a b = true → strLt b c = true → strLt a c = true
  | [], [], _, h, _ => by simp [strLt] at h
  | _ :: _, [], _, h, _ => by simp [strLt] at h
  | _, _ :: _, [], _, h => by simp [strLt] at h
  | [], _ :: _, _ :: _, _, _ => rfl
  | a :: l, b :: m, c :: n, h1, h2 => by
    simp only [strLt] at h1 h2 ⊢
    have ih := strLt_trans l m n
    split at h1
    · split at h2
      · simp only [show a.toNat < c.toNat by omega, if_true]
      · split at h2
        · cases h2
        · simp only [show a.toNat < c.toNat by omega, if_true]
    · split at h1
      · cases h1
      · split at h2
        · simp only [show a.toNat < c.toNat by omega, if_true]
        · split at h2
          · cases h2
          · simp only [show ¬ a.toNat < c.toNat by omega, show ¬ c.toNat < a.toNat by omega, if_false]
            exact ih h1 h2

/-! ### Maps -/

/-- Keys are in order. -/
def PropertyMap.Sorted (m : PropertyMap) : Prop := m.Pairwise fun a b => strLt a.1 b.1 = true

theorem set_lookup (n : Str) (p : Property) (m : PropertyMap) (k : Str) :
    (m.set n p).lookup k = if k = n then some p else m.lookup k := by
  induction m with
  | nil =>
    simp only [PropertyMap.set, List.lookup]
    by_cases h : k = n
    · simp [h]
    · simp [h, beq_eq_false_iff_ne.2 h]
  | cons x m ih =>
    obtain ⟨a, q⟩ := x
    simp only [PropertyMap.set]
    split
    · rename_i h
      subst h
      simp only [List.lookup]
      by_cases h : k = a
      · simp [h]
      · simp [h, beq_eq_false_iff_ne.2 h]
    · split
      · simp only [List.lookup]
        by_cases h : k = n
        · simp [h]
        · simp [h, beq_eq_false_iff_ne.2 h]
      · rename_i h1 h2
        simp only [List.lookup]
        by_cases h : k = a
        · subst h
          simp [h1]
        · have : (k == a) = false := by simpa using h
          rw [this]
          exact ih

theorem set_keys (n : Str) (p : Property) (m : PropertyMap) (x : Str × Property)
    (h : x ∈ m.set n p) : x.1 = n ∨ x ∈ m := by
  induction m with
  | nil =>
    simp only [PropertyMap.set, List.mem_singleton] at h
    exact .inl (by rw [h])
  | cons y m ih =>
    obtain ⟨a, q⟩ := y
    simp only [PropertyMap.set] at h
    split at h
    · rename_i ha
      rcases List.mem_cons.1 h with h | h
      · exact .inl (by rw [h]; exact ha)
      · exact .inr (by simp [h])
    · split at h
      · rcases List.mem_cons.1 h with h | h
        · exact .inl (by rw [h])
        · exact .inr h
      · rcases List.mem_cons.1 h with h | h
        · exact .inr (by simp [h])
        · rcases ih h with h | h
          · exact .inl h
          · exact .inr (by simp [h])

theorem set_sorted (n : Str) (p : Property) (m : PropertyMap) (h : m.Sorted) : (m.set n p).Sorted := by
  induction m with
  | nil => simp [PropertyMap.set, PropertyMap.Sorted]
  | cons y m ih =>
    obtain ⟨a, q⟩ := y
    have h1 := List.pairwise_cons.1 h
    simp only [PropertyMap.set]
    split
    · exact List.pairwise_cons.2 ⟨h1.1, h1.2⟩
    · split
      · rename_i _ hlt
        refine List.pairwise_cons.2 ⟨?_, h⟩
        intro x hx
        rcases List.mem_cons.1 hx with rfl | hx
        · exact hlt
        · exact strLt_trans _ _ _ hlt (h1.1 x hx)
      · rename_i hne hlt
        refine List.pairwise_cons.2 ⟨?_, ih h1.2⟩
        intro x hx
        rcases set_keys n p m x hx with hx | hx
        · rw [hx]
          exact strLt_total _ _ (by simpa using hlt) (fun h => hne h.symm)
        · exact h1.1 x hx

theorem mem_iff_lookup (m : PropertyMap) (h : m.Sorted) (n : Str) (p : Property) :
    (n, p) ∈ m ↔ m.lookup n = some p := by
  induction m with
  | nil => simp
  | cons y m ih =>
    obtain ⟨a, q⟩ := y
    have h1 := List.pairwise_cons.1 h
    simp only [List.mem_cons, List.lookup, Prod.mk.injEq]
    by_cases hn : n = a
    · subst hn
      simp only [beq_self_eq_true, true_and, Option.some.injEq]
      constructor
      · rintro (rfl | hm)
        · rfl
        · have := h1.1 _ hm
          rw [strLt_irrefl] at this
          cases this
      · exact fun h => .inl h.symm
    · have : (n == a) = false := by simpa using hn
      rw [this]
      simp only [hn, false_and, false_or]
      exact ih h1.2

/-! ### Getters and setters in order -/

/-- A getter (`false`) or setter for a property. -/
abbrev Accessor := Nat × Str × Bool

/-- Handle one. -/
def addEvent (st : PropertyMap × List Diag) (e : Accessor) : PropertyMap × List Diag :=
  if e.2.2 then addSetter e.1 st e.2.1 else addGetter e.1 st e.2.1

/-- The accessors declared by a method. -/
def accessorsOf (p : Nat × MethodDeclAttrs) : List Accessor :=
  p.2.getterFor.map (fun n => (p.1, n, false)) ++ p.2.setterFor.map (fun n => (p.1, n, true))

theorem addProperties_events (m : PropertyMap) (ds : List Diag) (p : Nat × MethodDeclAttrs) :
    ((addProperties m p.1 p.2).1, ds ++ (addProperties m p.1 p.2).2) =
      (accessorsOf p).foldl addEvent (m, ds) := by
  have shift : ∀ (l : List Accessor) (m : PropertyMap) (ds : List Diag),
      l.foldl addEvent (m, ds) = ((l.foldl addEvent (m, [])).1, ds ++ (l.foldl addEvent (m, [])).2) := by
    intro l
    induction l with
    | nil => simp
    | cons e l ih =>
      intro m ds
      have h1 : ∀ ds, addEvent (m, ds) e = ((addEvent (m, []) e).1, ds ++ (addEvent (m, []) e).2) := by
        intro ds
        unfold addEvent addSetter addGetter
        split <;> simp
      simp only [List.foldl_cons]
      rw [h1 ds, ih _ (ds ++ _), h1 [], ih _ ([] ++ _)]
      simp
  have h2 : addProperties m p.1 p.2 = (accessorsOf p).foldl addEvent (m, []) := by
    unfold addProperties accessorsOf
    rw [List.foldl_append, List.foldl_map, List.foldl_map]
    rfl
  rw [shift, ← h2]

theorem addAll_events (l : List (Nat × MethodDeclAttrs)) :
    ∀ st, addAll st l = (l.flatMap accessorsOf).foldl addEvent st := by
  induction l with
  | nil => exact fun _ => rfl
  | cons p l ih =>
    intro st
    show addAll ((addProperties st.1 p.1 p.2).1, st.2 ++ (addProperties st.1 p.1 p.2).2) l = _
    rw [addProperties_events, ih]
    simp

/-- The accessors for a name. -/
def named (es : List Accessor) (n : Str) (b : Bool) : List Nat :=
  (es.filter fun e => e.2.1 = n ∧ e.2.2 = b).map (·.1)

theorem named_snoc (es : List Accessor) (e : Accessor) (n : Str) (b : Bool) :
    named (es ++ [e]) n b = named es n b ++ (if e.2.1 = n ∧ e.2.2 = b then [e.1] else []) := by
  unfold named
  rw [List.filter_append, List.map_append]
  by_cases h : e.2.1 = n ∧ e.2.2 = b <;> simp [h]

/-- State after some accessors. -/
structure Added (es : List Accessor) (st : PropertyMap × List Diag) : Prop where
  sorted : st.1.Sorted
  get : ∀ n, st.1.get n = { getter := (named es n false).getLast?, setter := (named es n true).getLast? }
  keys : ∀ n, (st.1.lookup n).isSome = true → ∃ e ∈ es, e.2.1 = n
  keys' : ∀ e ∈ es, (st.1.lookup e.2.1).isSome = true
  diags : ∀ g : Diag, g.kind = .propertyAlreadyDefined → (g ∈ st.2 ↔ ∃ n b,
    g.args = [n, if b = true then t%"1" else t%"0"] ∧ g.decl ∈ (named es n b).tail)
  notes : ∀ g : Diag, g.kind = .notePreviousDefinition → (g ∈ st.2 ↔ g.args = [] ∧ ∃ n b,
    g.decl ∈ (named es n b).dropLast)
  kinds : ∀ g ∈ st.2, g.kind ≠ .propertyHasNoGetter

theorem get_set (m : PropertyMap) (n k : Str) (p : Property) :
    (PropertyMap.set n p m).get k = if k = n then p else m.get k := by
  unfold PropertyMap.get
  rw [set_lookup]
  split <;> rfl

theorem tail_snoc {α : Type} (l : List α) (x : α) :
    (l ++ [x]).tail = if l = [] then [] else l.tail ++ [x] := by
  cases l <;> simp

theorem already_mem (id : Nat) (name acc : Str) (o : Option Nat) (g : Diag)
    (hg : g.kind = .propertyAlreadyDefined) :
    g ∈ alreadyDefined id name acc o ↔ o ≠ none ∧ g.decl = id ∧ g.args = [name, acc] := by
  obtain ⟨d, k, as⟩ := g
  simp only at hg
  subst hg
  cases o <;> simp [alreadyDefined]

theorem already_kinds (id : Nat) (name acc : Str) (o : Option Nat) :
    ∀ g ∈ alreadyDefined id name acc o, g.kind ≠ .propertyHasNoGetter := by
  cases o <;> simp [alreadyDefined]

theorem already_note (id : Nat) (name acc : Str) (o : Option Nat) (g : Diag)
    (hg : g.kind = .notePreviousDefinition) :
    g ∈ alreadyDefined id name acc o ↔ g.args = [] ∧ o = some g.decl := by
  obtain ⟨d, k, as⟩ := g
  simp only at hg
  subst hg
  cases o with
  | none => simp [alreadyDefined]
  | some x =>
    simp only [alreadyDefined, List.mem_cons, Diag.mk.injEq, reduceCtorEq, List.not_mem_nil, or_false,
      Option.some.injEq]
    constructor
    · rintro (⟨_, h, _⟩ | ⟨rfl, _, h⟩)
      · cases h
      · exact ⟨h, rfl⟩
    · rintro ⟨h, rfl⟩
      exact .inr ⟨rfl, trivial, h⟩

theorem mem_last {α : Type} (l : List α) (x : α) : x ∈ l ↔ x ∈ l.dropLast ∨ l.getLast? = some x := by
  rcases List.eq_nil_or_concat l with rfl | ⟨m, y, rfl⟩
  · simp
  · simp [eq_comm]

theorem added_step (es : List Accessor) (st : PropertyMap × List Diag) (h : Added es st) (e : Accessor) :
    Added (es ++ [e]) (addEvent st e) := by
  obtain ⟨id, name, b⟩ := e
  have h1 : (addEvent st (id, name, b)).1 = st.1.set name
      (if b = true then { st.1.get name with setter := some id } else { st.1.get name with getter := some id }) := by
    unfold addEvent addSetter addGetter
    cases b <;> rfl
  have h2 : (addEvent st (id, name, b)).2 = st.2 ++ alreadyDefined id name
      (if b = true then t%"1" else t%"0") (named es name b).getLast? := by
    unfold addEvent addSetter addGetter
    cases b <;> simp [h.get]
  constructor
  · rw [h1]
    exact set_sorted _ _ _ h.sorted
  · intro n
    rw [h1, get_set]
    simp only [named_snoc]
    by_cases hn : n = name
    · subst hn
      rw [if_pos rfl, h.get]
      cases b <;> simp
    · have : ¬ name = n := fun h => hn h.symm
      simp [hn, this, h.get]
  · intro n hn
    rw [h1, set_lookup] at hn
    split at hn
    · rename_i hn'
      exact ⟨(id, name, b), by simp, hn'.symm⟩
    · obtain ⟨x, hx, hx'⟩ := h.keys n hn
      exact ⟨x, by simp [hx], hx'⟩
  · intro x hx
    rw [h1, set_lookup]
    split
    · rfl
    · rename_i hne
      rcases List.mem_append.1 hx with hx | hx
      · exact h.keys' x hx
      · simp only [List.mem_singleton] at hx
        subst hx
        exact absurd rfl hne
  · intro g hg
    rw [h2, List.mem_append, h.diags g hg, already_mem _ _ _ _ _ hg]
    simp only [named_snoc]
    constructor
    · rintro (⟨n, c, ha, ht⟩ | ⟨hne, hd, ha⟩)
      · refine ⟨n, c, ha, ?_⟩
        split
        · rw [tail_snoc]
          split
          · rename_i h0
            rw [h0] at ht
            cases ht
          · simp [ht]
        · simpa using ht
      · refine ⟨name, b, ha, ?_⟩
        rw [if_pos ⟨rfl, rfl⟩, tail_snoc, if_neg]
        · simp [hd]
        · intro h0
          rw [h0] at hne
          exact hne rfl
    · rintro ⟨n, c, ha, ht⟩
      split at ht
      · rename_i hc
        obtain ⟨hc1, hc2⟩ := hc
        subst hc1
        subst hc2
        rw [tail_snoc] at ht
        split at ht
        · cases ht
        · rename_i hne
          rcases List.mem_append.1 ht with ht | ht
          · exact .inl ⟨_, _, ha, ht⟩
          · simp only [List.mem_singleton] at ht
            exact .inr ⟨by simpa using hne, ht, ha⟩
      · exact .inl ⟨n, c, ha, by simpa using ht⟩
  · intro g hg
    rw [h2, List.mem_append, h.notes g hg, already_note _ _ _ _ _ hg]
    simp only [named_snoc]
    rw [← and_or_left]
    refine and_congr_right fun _ => ?_
    constructor
    · rintro (⟨n, c, ht⟩ | ht)
      · refine ⟨n, c, ?_⟩
        split
        · rw [List.dropLast_concat]
          exact (mem_last _ _).2 (.inl ht)
        · simpa using ht
      · refine ⟨name, b, ?_⟩
        rw [if_pos ⟨rfl, rfl⟩, List.dropLast_concat]
        exact (mem_last _ _).2 (.inr ht)
    · rintro ⟨n, c, ht⟩
      split at ht
      · rename_i hc
        obtain ⟨hc1, hc2⟩ := hc
        subst hc1
        subst hc2
        rw [List.dropLast_concat] at ht
        rcases (mem_last _ _).1 ht with ht | ht
        · exact .inl ⟨_, _, ht⟩
        · exact .inr ht
      · exact .inl ⟨n, c, by simpa using ht⟩
  · intro g hg
    rw [h2] at hg
    rcases List.mem_append.1 hg with hg | hg
    · exact h.kinds g hg
    · exact already_kinds _ _ _ _ g hg

theorem added_all (es : List Accessor) : Added es (es.foldl addEvent ([], [])) := by
  have : ∀ (es pre : List Accessor) st, Added pre st → Added (pre ++ es) (es.foldl addEvent st) := by
    intro es
    induction es with
    | nil => intro pre st h; simpa using h
    | cons e es ih =>
      intro pre st h
      have := ih _ _ (added_step pre st h e)
      simpa using this
  have h0 : Added [] (([] : PropertyMap), ([] : List Diag)) :=
    ⟨List.Pairwise.nil, fun _ => rfl, fun n h => (by cases h), (by simp), (by simp [named]), (by simp [named]), (by simp)⟩
  simpa using this es [] _ h0

/-! ### Output -/

theorem emitProperties_stmts (w : EmitWorld) (m : PropertyMap) :
    (emitProperties w m).stmts = m.filterMap fun x => x.2.getter.map fun g =>
      Stmt.property x.1 (emitFunctionPointer w g) (x.2.setter.map (emitFunctionPointer w)) := by
  induction m with
  | nil => rfl
  | cons x m ih =>
    obtain ⟨n, ⟨g, s⟩⟩ := x
    simp only [emitProperties]
    cases g with
    | none => cases s <;> simp [ih]
    | some g => simp [ih]

theorem emitProperties_diags (w : EmitWorld) (m : PropertyMap) (g : Diag) :
    g ∈ (emitProperties w m).diags ↔ ∃ n p d, (n, p) ∈ m ∧ p.getter = none ∧ p.setter = some d ∧
      g = ⟨d, .propertyHasNoGetter, [n]⟩ := by
  induction m with
  | nil => simp [emitProperties, Emitted.none]
  | cons x m ih =>
    obtain ⟨n, ⟨a, s⟩⟩ := x
    simp only [emitProperties]
    cases a with
    | none =>
      cases s with
      | none =>
        simp only [ih, List.mem_cons, Prod.mk.injEq]
        constructor
        · rintro ⟨n, p, d, h, h'⟩
          exact ⟨n, p, d, .inr h, h'⟩
        · rintro ⟨n', p, d, (⟨_, rfl⟩ | h), h', h'', h3⟩
          · cases h''
          · exact ⟨n', p, d, h, h', h'', h3⟩
      | some s =>
        simp only [List.mem_cons, ih, Prod.mk.injEq]
        constructor
        · rintro (h | ⟨n, p, d, h, h'⟩)
          · exact ⟨n, _, s, .inl ⟨rfl, rfl⟩, rfl, rfl, h⟩
          · exact ⟨n, p, d, .inr h, h'⟩
        · rintro ⟨n', p, d, (⟨rfl, rfl⟩ | h), h', h'', h3⟩
          · simp only [Option.some.injEq] at h''
            subst h''
            exact .inl h3
          · exact .inr ⟨n', p, d, h, h', h'', h3⟩
    | some a =>
      simp only [ih, List.mem_cons, Prod.mk.injEq]
      constructor
      · rintro ⟨n, p, d, h, h'⟩
        exact ⟨n, p, d, .inr h, h'⟩
      · rintro ⟨n', p, d, (⟨_, rfl⟩ | h), h', h'', h3⟩
        · cases h'
        · exact ⟨n', p, d, h, h', h'', h3⟩

end Verif
