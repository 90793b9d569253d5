import Verif.Spec.Call
/-!
# Lemmas about calls
-/
namespace Verif
open Spec

variable {V : Type}

/-! ### Keyword arguments -/

theorem lookup_none_iff (kw : List (Str × V)) (n : Str) : kw.lookup n = none ↔ ∀ v, (n, v) ∉ kw := by
  rw [List.lookup_eq_none_iff]
  constructor
  · intro h v hv
    have := h _ hv
    simp at this
  · intro h q hq
    simp only [ne_eq, bne_iff_ne]
    rintro rfl
    exact h q.2 hq

theorem lookup_some_iff (kw : List (Str × V)) (hk : (kw.map (·.1)).Nodup) (n : Str) (v : V) :
    kw.lookup n = some v ↔ (n, v) ∈ kw := by
  induction kw with
  | nil => simp
  | cons q kw ih =>
    obtain ⟨m, u⟩ := q
    rw [List.map_cons, List.nodup_cons] at hk
    rw [List.lookup_cons]
    by_cases h : n = m
    · subst h
      simp only [beq_self_eq_true, Option.some.injEq, List.mem_cons, Prod.mk.injEq, true_and]
      constructor
      · exact fun h => .inl h.symm
      · rintro (h | h)
        · exact h.symm
        · exact absurd (List.mem_map.2 ⟨_, h, rfl⟩) hk.1
    · have : (n == m) = false := by simpa using h
      rw [this]
      simp only [List.mem_cons, Prod.mk.injEq]
      rw [ih hk.2]
      constructor
      · exact .inr
      · rintro (⟨h', _⟩ | h')
        · exact absurd h' h
        · exact h'

theorem lookup_filter_other (kw : List (Str × V)) (n m : Str) (h : n ≠ m) :
    (kw.filter (·.1 ≠ m)).lookup n = kw.lookup n := by
  induction kw with
  | nil => rfl
  | cons q kw ih =>
    obtain ⟨k, u⟩ := q
    by_cases hk : k = m
    · subst hk
      have : (n == k) = false := by simpa using h
      rw [List.filter_cons_of_neg (by simp), List.lookup_cons, this]
      exact ih
    · rw [List.filter_cons_of_pos (by simpa using hk), List.lookup_cons, List.lookup_cons, ih]

/-- Named arguments have distinct names. -/
def NamesApart (as : List (PyArg V)) : Prop :=
  as.Pairwise fun a b => a.name = b.name → a.name = []

theorem positional_iff (P : PyValues V) (kw : List (Str × V)) : ∀ (as : List (PyArg V)) (pos : List V)
    (L : List (V × Bool)), pos.length ≤ as.length →
    (takePositional P kw as pos = some L ↔
      (∀ (k : Nat) a v, as[k]? = some a → pos[k]? = some v → kw.lookup a.name = none ∧
        (a.none = false → P.isNone v = false)) ∧ L = pos.zip (as.map (·.convert))) := by
  intro as
  induction as with
  | nil =>
    intro pos L hl
    cases pos with
    | cons v vs => simp at hl
    | nil =>
      simp only [takePositional, Option.some.injEq, List.zip_nil_left]
      exact ⟨fun h => ⟨by simp, h.symm⟩, fun h => h.2.symm⟩
  | cons a as ih =>
    intro pos L hl
    cases pos with
    | nil =>
      simp only [takePositional, Option.some.injEq, List.zip_nil_left]
      exact ⟨fun h => ⟨by simp, h.symm⟩, fun h => h.2.symm⟩
    | cons v vs =>
      have ih := ih vs
      simp only [takePositional]
      split
      · rename_i hs
        constructor
        · intro h; cases h
        · rintro ⟨h, _⟩
          have := (h 0 a v rfl rfl).1
          rw [this] at hs
          cases hs
      · rename_i hs
        have hs : kw.lookup a.name = none := by
          cases h : kw.lookup a.name with
          | none => rfl
          | some x => rw [h] at hs; exact absurd rfl hs
        split
        · rename_i hn
          constructor
          · intro h; cases h
          · rintro ⟨h, _⟩
            have := (h 0 a v rfl rfl).2
            simp only [Bool.and_eq_true, Bool.not_eq_eq_eq_not, Bool.not_true] at hn
            rw [this hn.1] at hn
            cases hn.2
        · rename_i hn
          rw [Option.map_eq_some_iff]
          constructor
          · rintro ⟨L', h, rfl⟩
            obtain ⟨h1, rfl⟩ := (ih L' (by simpa using hl)).1 h
            refine ⟨?_, rfl⟩
            intro k b u hb hu
            cases k with
            | zero =>
              cases hb
              cases hu
              refine ⟨hs, fun h => ?_⟩
              simpa [h] using hn
            | succ k => exact h1 k b u hb hu
          · rintro ⟨h, rfl⟩
            exact ⟨_, (ih _ (by simpa using hl)).2 ⟨fun k b u hb hu => h (k + 1) b u hb hu, rfl⟩, rfl⟩

theorem keywords_iff (P : PyValues V) : ∀ (as : List (PyArg V)) (kw : List (Str × V))
    (L : List (V × Bool)) (left : List (Str × V)), NamesApart as → (∀ v, ([], v) ∉ kw) →
    (takeKeywords P as kw = some (L, left) ↔ ∃ vs : List V, vs.length = as.length ∧
      (∀ (k : Nat) a v, as[k]? = some a → vs[k]? = some v →
        (kw.lookup a.name = some v ∨ kw.lookup a.name = none ∧ a.value = some v) ∧
        (a.none = false → P.isNone v = false)) ∧
      L = vs.zip (as.map (·.convert)) ∧ left = kw.filter fun q => q.1 ∉ as.map (·.name)) := by
  intro as
  induction as with
  | nil =>
    intro kw L left _ _
    simp only [takeKeywords, Option.some.injEq, Prod.mk.injEq]
    constructor
    · rintro ⟨rfl, rfl⟩
      exact ⟨[], rfl, by simp, rfl, (List.filter_eq_self.2 (by simp)).symm⟩
    · rintro ⟨vs, _, _, rfl, rfl⟩
      exact ⟨by simp, (List.filter_eq_self.2 (by simp)).symm⟩
  | cons a as ih =>
    intro kw L left ha he
    obtain ⟨ha1, ha2⟩ := List.pairwise_cons.1 ha
    have hleft : (if (kw.lookup a.name).isSome then kw.filter (·.1 ≠ a.name) else kw) =
        kw.filter (·.1 ≠ a.name) := by
      split
      · rfl
      · rename_i h
        have h : kw.lookup a.name = none := by
          cases h' : kw.lookup a.name with
          | none => rfl
          | some x => rw [h'] at h; exact absurd rfl h
        rw [lookup_none_iff] at h
        refine (List.filter_eq_self.2 fun q hq => ?_).symm
        simp only [ne_eq, decide_not, Bool.not_eq_eq_eq_not, Bool.not_true, decide_eq_false_iff_not]
        intro e
        exact h q.2 (e ▸ hq)
    have he' : ∀ v, ([], v) ∉ kw.filter (·.1 ≠ a.name) := fun v h => he v (List.mem_filter.1 h).1
    have hlook : ∀ b ∈ as, (kw.filter (·.1 ≠ a.name)).lookup b.name = kw.lookup b.name := by
      intro b hb
      by_cases h : b.name = a.name
      · have h0 := ha1 b hb h.symm
        rw [h, h0, (lookup_none_iff kw []).2 he, lookup_none_iff]
        intro v hv
        exact he v (List.mem_filter.1 hv).1
      · exact lookup_filter_other kw _ _ h
    have hfil : (kw.filter (·.1 ≠ a.name)).filter (fun q => q.1 ∉ as.map (·.name)) =
        kw.filter fun q => q.1 ∉ (a :: as).map (·.name) := by
      rw [List.filter_filter]
      refine List.filter_congr fun q _ => ?_
      simp only [List.map_cons, List.mem_cons, not_or, ne_eq]
      rw [Bool.and_comm]
      by_cases h1 : q.1 = a.name <;> by_cases h2 : q.1 ∈ as.map (·.name) <;> simp [h1, h2]
    simp only [takeKeywords]
    rw [hleft]
    have ih := ih (kw.filter (·.1 ≠ a.name))
    constructor
    · intro h
      split at h
      · cases h
      · rename_i v hv
        split at h
        · cases h
        · rename_i hn
          rw [Option.map_eq_some_iff] at h
          obtain ⟨⟨L', left'⟩, h, e⟩ := h
          cases e
          obtain ⟨vs, h1, h2, h3, h4⟩ := (ih L' left' ha2 he').1 h
          dsimp only at h3 h4 ⊢
          refine ⟨v :: vs, by simp [h1], ?_, by rw [h3]; rfl, by rw [h4, hfil]⟩
          intro k b u hb hu
          cases k with
          | zero =>
            cases hb
            cases hu
            refine ⟨?_, fun h => by simpa [h] using hn⟩
            cases hl : kw.lookup a.name with
            | some x => rw [hl] at hv; exact .inl hv
            | none => rw [hl] at hv; exact .inr ⟨rfl, hv⟩
          | succ k =>
            have := h2 k b u hb hu
            rw [hlook b (List.mem_of_getElem? hb)] at this
            exact this
    · rintro ⟨vs, h1, h2, rfl, rfl⟩
      cases vs with
      | nil => simp at h1
      | cons v vs =>
        have h0 := h2 0 a v rfl rfl
        have hv : (kw.lookup a.name).or a.value = some v := by
          rcases h0.1 with h | ⟨h, h'⟩
          · rw [h]; rfl
          · rw [h]; exact h'
        rw [hv]
        dsimp only
        rw [if_neg (by
          intro h
          simp only [Bool.and_eq_true, Bool.not_eq_eq_eq_not, Bool.not_true] at h
          rw [h0.2 h.1] at h
          cases h.2)]
        rw [(ih (vs.zip (as.map (·.convert))) _ ha2 he').2 ⟨vs, by simpa using h1, ?_, rfl, hfil.symm⟩]
        · rfl
        · intro k b u hb hu
          rw [hlook b (List.mem_of_getElem? hb)]
          exact h2 (k + 1) b u hb hu

/-! ### Values for arguments -/

/-- See `Spec.Bound`. -/
structure BoundArgs (P : PyValues V) (as : List (PyArg V)) (pos : List V) (kw : List (Str × V))
    (vs : List V) : Prop where
  length : vs.length = as.length
  positional : pos.length ≤ as.length
  values : ∀ (k : Nat) a v, as[k]? = some a → vs[k]? = some v →
    (pos[k]? = some v ∧ kw.lookup a.name = none) ∨
      pos.length ≤ k ∧ (kw.lookup a.name = some v ∨ kw.lookup a.name = none ∧ a.value = some v)
  notNone : ∀ (k : Nat) a v, as[k]? = some a → vs[k]? = some v → a.none = false → P.isNone v = false
  keywords : ∀ q ∈ kw, ∃ (k : Nat) (a : PyArg V), pos.length ≤ k ∧ as[k]? = some a ∧ a.name = q.1

theorem prepare_plain (P : PyValues V) (as : List (PyArg V)) (pos : List V) (kw : List (Str × V))
    (hn : NamesApart as) (he : ∀ v, ([], v) ∉ kw) (fn : Nat) (L : List (V × Bool)) :
    prepare P ⟨fn, false, as.length, as⟩ pos kw = some L ↔
      ∃ vs, BoundArgs P as pos kw vs ∧ L = vs.zip (as.map (·.convert)) := by
  unfold prepare
  dsimp only
  by_cases hl : pos.length > as.length
  · rw [if_pos hl]
    constructor
    · intro h; cases h
    · rintro ⟨vs, hb, _⟩
      exact absurd hb.positional (Nat.not_le.2 hl)
  rw [if_neg hl, if_neg (by simp)]
  have hl : pos.length ≤ as.length := Nat.not_lt.1 hl
  have hdrop : NamesApart (as.drop pos.length) := hn.sublist (List.drop_sublist _ _)
  have hzip : ∀ vs : List V, vs.length = as.length - pos.length →
      pos.zip (as.map (·.convert)) ++ vs.zip ((as.drop pos.length).map (·.convert)) =
        (pos ++ vs).zip (as.map (·.convert)) := by
    intro vs hvs
    have hlen : pos.length = ((as.map (·.convert)).take pos.length).length := by simp [hl]
    conv => rhs; rw [← List.take_append_drop pos.length (as.map (·.convert))]
    rw [List.zip_append hlen, List.map_drop]
    congr 1
    rw [List.zip_eq_zip_take_min (l₁ := pos) (l₂ := as.map (·.convert))]
    congr 1
    · rw [List.take_of_length_le]
      simp [hl]
    · rw [List.length_map, Nat.min_eq_left hl]
  constructor
  · intro h
    split at h
    · cases h
    · rename_i given hg
      split at h
      · rename_i more hm
        cases h
        obtain ⟨h1, rfl⟩ := (positional_iff P kw as pos given hl).1 hg
        obtain ⟨vs, h2, h3, rfl, h4⟩ := (keywords_iff P _ kw more [] hdrop he).1 hm
        rw [List.length_drop] at h2
        refine ⟨pos ++ vs, ⟨by simp; omega, hl, ?_, ?_, ?_⟩, hzip vs h2⟩
        · intro k a v hk hv
          by_cases hp : k < pos.length
          · rw [List.getElem?_append_left hp] at hv
            exact .inl ⟨hv, (h1 k a v hk hv).1⟩
          · have hp := Nat.not_lt.1 hp
            rw [List.getElem?_append_right hp] at hv
            refine .inr ⟨hp, (h3 (k - pos.length) a v ?_ hv).1⟩
            rw [List.getElem?_drop]
            rw [show pos.length + (k - pos.length) = k by omega]
            exact hk
        · intro k a v hk hv
          by_cases hp : k < pos.length
          · rw [List.getElem?_append_left hp] at hv
            exact (h1 k a v hk hv).2
          · have hp := Nat.not_lt.1 hp
            rw [List.getElem?_append_right hp] at hv
            refine (h3 (k - pos.length) a v ?_ hv).2
            rw [List.getElem?_drop]
            rw [show pos.length + (k - pos.length) = k by omega]
            exact hk
        · intro q hq
          have := List.filter_eq_nil_iff.1 h4.symm q hq
          simp only [decide_not, Bool.not_eq_eq_eq_not, Bool.not_true, decide_eq_false_iff_not,
            Decidable.not_not, List.mem_map] at this
          obtain ⟨a, ha, e⟩ := this
          obtain ⟨k, hk⟩ := List.getElem?_of_mem ha
          rw [List.getElem?_drop] at hk
          exact ⟨_, a, Nat.le_add_right _ _, hk, e⟩
      · cases h
  · rintro ⟨vs, hb, rfl⟩
    have htake : vs.take pos.length = pos := by
      apply List.ext_getElem?
      intro k
      by_cases hk : k < pos.length
      · rw [List.getElem?_take_of_lt hk]
        have h1 : k < vs.length := by rw [hb.length]; omega
        have h2 : k < as.length := by omega
        rcases hb.values k _ _ (List.getElem?_eq_getElem h2) (List.getElem?_eq_getElem h1) with h | h
        · rw [h.1, List.getElem?_eq_getElem h1]
        · omega
      · rw [List.getElem?_eq_none (by rw [List.length_take]; omega), List.getElem?_eq_none (by omega)]
    have hvs : vs = pos ++ vs.drop pos.length := by
      conv => lhs; rw [← List.take_append_drop pos.length vs, htake]
    have hdl : (vs.drop pos.length).length = as.length - pos.length := by
      rw [List.length_drop, hb.length]
    have hpos := (positional_iff P kw as pos (pos.zip (as.map (·.convert))) hl).2 ⟨?_, rfl⟩
    · rw [hpos]
      dsimp only
      have hkw := (keywords_iff P _ kw ((vs.drop pos.length).zip ((as.drop pos.length).map (·.convert))) []
        hdrop he).2 ⟨vs.drop pos.length, by rw [hdl, List.length_drop], ?_, rfl, ?_⟩
      · rw [hkw]
        dsimp only
        rw [hzip _ hdl, ← hvs]
      · intro k a v hk hv
        rw [List.getElem?_drop] at hk hv
        refine ⟨?_, hb.notNone _ a v hk hv⟩
        rcases hb.values _ a v hk hv with h | h
        · rw [List.getElem?_eq_none (by omega)] at h
          cases h.1
        · exact h.2
      · symm
        rw [List.filter_eq_nil_iff]
        intro q hq
        obtain ⟨k, a, hk, ha, e⟩ := hb.keywords q hq
        simp only [decide_not, Bool.not_eq_eq_eq_not, Bool.not_true, decide_eq_false_iff_not,
          Decidable.not_not, List.mem_map]
        refine ⟨a, ?_, e⟩
        refine List.mem_of_getElem? (i := k - pos.length) ?_
        rw [List.getElem?_drop, show pos.length + (k - pos.length) = k by omega]
        exact ha
    · intro k a v hk hv
      have hlt : k < pos.length := (List.getElem?_eq_some_iff.1 hv).1
      have hv' : vs[k]? = some v := by
        rw [hvs, List.getElem?_append_left hlt]
        exact hv
      refine ⟨?_, hb.notNone k a v hk hv'⟩
      rcases hb.values k a v hk hv' with h | h
      · exact h.2
      · omega

/-- For a method the object is the first positional argument. -/
theorem prepare_method (P : PyValues V) (fn : Nat) (as : List (PyArg V)) (self : V) (pos : List V)
    (kw : List (Str × V)) (hs : P.isNone self = false) (hk : ∀ v, (t%"self", v) ∉ kw) :
    prepare P ⟨fn, true, as.length + 1,
        if as.isEmpty then [] else ⟨t%"self", none, true, false⟩ :: as⟩ (self :: pos) kw =
      (prepare P ⟨fn, false, as.length, as⟩ pos kw).map ((self, true) :: ·) := by
  have hl := (lookup_none_iff kw t%"self").2 hk
  unfold prepare
  dsimp only
  cases as with
  | nil =>
    cases pos with
    | cons v vs => simp
    | nil =>
      simp only [List.isEmpty_nil, if_true, List.length_cons, List.length_nil, takePositional]
      simp only [takeKeywords, List.drop_nil, Option.map]
      cases kw <;> simp
  | cons a as =>
    simp only [List.isEmpty_cons, Bool.false_eq_true, if_false, List.length_cons]
    have h1 : ∀ n : Nat, (pos.length + 1 > n + 1) ↔ pos.length > n := by omega
    simp only [h1]
    split
    · rfl
    · rw [if_neg (by omega), if_neg (by omega)]
      rw [show takePositional P kw (⟨t%"self", none, true, false⟩ :: a :: as) (self :: pos) =
        (takePositional P kw (a :: as) pos).map ((self, true) :: ·) by
          simp only [takePositional, hl, hs]; rfl]
      cases takePositional P kw (a :: as) pos with
      | none => rfl
      | some given =>
        simp only [Option.map_some, List.drop_succ_cons]
        cases takeKeywords P (List.drop pos.length (a :: as)) kw with
        | none => rfl
        | some q =>
          obtain ⟨more, left⟩ := q
          cases left <;> rfl

/-! ### Functions with their own parameters -/

/-- The arguments made from what is written for a function. -/
def plainArgs (P : PyValues V) (args : List ArgOut) : List (PyArg V) :=
  args.map fun a => ⟨a.name, a.default.map P.object, !a.noconvert, !a.noneFalse⟩

/-- What is written for the parameters of a function. -/
structure WrittenArgs (w : EmitWorld) (d : Nat) (args : List ArgOut) : Prop where
  names : args.map (fun o => (o.name, o.default)) = (paramsOf w d).map (fun p => (p.name, p.default))
  flags : ∀ (k : Nat) o, args[k]? = some o → (o.noconvert = true ↔ NamedIn w d .noconvert k) ∧
    (o.noneFalse = true ↔ NamedIn w d .required k)

theorem writtenArgs {w : EmitWorld} {d : Nat} {doc : Str} {args : List ArgOut} {policies : List PolicyOut}
    (hs : Signature w d doc args policies) (ho : OrdinaryParams w d) : WrittenArgs w d args where
  names := by
    have hf : (paramsOf w d).filter (·.argsType.isNone) = paramsOf w d :=
      List.filter_eq_self.2 fun p hp => by rw [ho.plain p hp]; rfl
    have := hs.names (by
      rintro ⟨pre, k, mid, p, post, e, hk, _⟩
      have := ho.plain k (by rw [e]; simp)
      rw [hk] at this
      cases this)
    rw [hf] at this
    exact this
  flags := by
    intro k o hk
    have hf : (paramsOf w d).filter (·.argsType.isNone) = paramsOf w d :=
      List.filter_eq_self.2 fun p hp => by rw [ho.plain p hp]; rfl
    have hn := hs.names (by
      rintro ⟨pre, k, mid, p, post, e, hk, _⟩
      have := ho.plain k (by rw [e]; simp)
      rw [hk] at this
      cases this)
    rw [hf] at hn
    have hl : args.length = (paramsOf w d).length := by simpa using congrArg List.length hn
    have hlt : k < (paramsOf w d).length := by
      rw [← hl]; exact (List.getElem?_eq_some_iff.1 hk).1
    obtain ⟨o', h1, _, h2⟩ := hs.flags k _ (List.getElem?_eq_getElem hlt)
      fun q hq => ho.plain q (List.mem_of_mem_take hq)
    rw [hk] at h1
    cases h1
    exact h2

theorem WrittenArgs.length {w : EmitWorld} {d : Nat} {args : List ArgOut} (h : WrittenArgs w d args) :
    args.length = (paramsOf w d).length := by
  simpa using congrArg List.length h.names

theorem WrittenArgs.at {w : EmitWorld} {d : Nat} {args : List ArgOut} (h : WrittenArgs w d args) (k : Nat)
    (p : Param) (hp : (paramsOf w d)[k]? = some p) :
    ∃ o, args[k]? = some o ∧ o.name = p.name ∧ o.default = p.default := by
  have := congrArg (·[k]?) h.names
  simp only [List.getElem?_map, hp, Option.map_some] at this
  cases ho : args[k]? with
  | none => rw [ho] at this; cases this
  | some o =>
    rw [ho] at this
    simp only [Option.map_some, Option.some.injEq, Prod.mk.injEq] at this
    exact ⟨o, rfl, this⟩

theorem WrittenArgs.param {w : EmitWorld} {d : Nat} {args : List ArgOut} (h : WrittenArgs w d args) (k : Nat)
    (o : ArgOut) (ho : args[k]? = some o) :
    ∃ p, (paramsOf w d)[k]? = some p ∧ o.name = p.name ∧ o.default = p.default := by
  have hlt : k < (paramsOf w d).length := by
    rw [← h.length]; exact (List.getElem?_eq_some_iff.1 ho).1
  obtain ⟨o', h1, h2⟩ := h.at k _ (List.getElem?_eq_getElem hlt)
  rw [ho] at h1
  cases h1
  exact ⟨_, List.getElem?_eq_getElem hlt, h2⟩

theorem plainArgs_at (P : PyValues V) (args : List ArgOut) (k : Nat) (a : PyArg V) :
    (plainArgs P args)[k]? = some a ↔ ∃ o, args[k]? = some o ∧
      a = ⟨o.name, o.default.map P.object, !o.noconvert, !o.noneFalse⟩ := by
  unfold plainArgs
  rw [List.getElem?_map, Option.map_eq_some_iff]
  constructor
  · rintro ⟨o, h, rfl⟩; exact ⟨o, h, rfl⟩
  · rintro ⟨o, h, rfl⟩; exact ⟨o, h, rfl⟩

theorem plainArgs_apart (P : PyValues V) {w : EmitWorld} {d : Nat} {args : List ArgOut}
    (h : WrittenArgs w d args) (ho : OrdinaryParams w d) : NamesApart (plainArgs P args) := by
  unfold NamesApart
  rw [List.pairwise_iff_getElem]
  intro j k hj hk hjk e
  obtain ⟨o, h1, h2⟩ := (plainArgs_at P args j _).1 (List.getElem?_eq_getElem hj)
  obtain ⟨o', h1', h2'⟩ := (plainArgs_at P args k _).1 (List.getElem?_eq_getElem hk)
  obtain ⟨p, h3, h4, _⟩ := h.param j o h1
  obtain ⟨p', h3', h4', _⟩ := h.param k o' h1'
  rw [h2, h2'] at e
  rw [h2]
  dsimp only at e ⊢
  apply Classical.byContradiction
  intro hne
  have := ho.distinct j k p p' h3 h3' (by rw [← h4, ← h4', e]) (by rw [← h4]; exact hne)
  omega

/-- Values for what is written for the parameters are values for the parameters. -/
theorem boundArgs_iff (P : PyValues V) {w : EmitWorld} {d : Nat} {args : List ArgOut}
    (h : WrittenArgs w d args) (pos : List V) (kw : List (Str × V)) (hk : Keywords kw)
    (ho : OrdinaryParams w d) (vs : List V) :
    BoundArgs P (plainArgs P args) pos kw vs ↔ Bound P (paramsOf w d) pos kw vs ∧
      ∀ (k : Nat) v, vs[k]? = some v → NamedIn w d .required k → P.isNone v = false := by
  have hlen : (plainArgs P args).length = (paramsOf w d).length := by
    unfold plainArgs; rw [List.length_map, h.length]
  constructor
  · intro hb
    refine ⟨⟨by rw [hb.length, hlen], by rw [← hlen]; exact hb.positional, ?_, ?_⟩, ?_⟩
    · intro k p v hp hv
      obtain ⟨o, h1, h2, h3⟩ := h.at k p hp
      have := hb.values k _ v ((plainArgs_at P args k _).2 ⟨o, h1, rfl⟩) hv
      dsimp only at this
      rw [h2, h3, lookup_some_iff kw hk.distinct, lookup_none_iff] at this
      rcases this with h | ⟨h, h' | ⟨h', h''⟩⟩
      · exact .inl h.1
      · exact .inr ⟨h, .inl h'⟩
      · obtain ⟨e, he, rfl⟩ := Option.map_eq_some_iff.1 h''
        exact .inr ⟨h, .inr ⟨h', e, he, rfl⟩⟩
    · intro n v hv
      obtain ⟨k, a, h1, h2, h3⟩ := hb.keywords _ hv
      obtain ⟨o, h4, rfl⟩ := (plainArgs_at P args k _).1 h2
      obtain ⟨p, h5, h6, _⟩ := h.param k o h4
      exact ⟨k, p, h1, h5, h6.symm.trans h3⟩
    · intro k v hv hr
      have hlt : k < args.length := by
        have := (List.getElem?_eq_some_iff.1 hv).1
        rw [hb.length, hlen, ← h.length] at this
        exact this
      have hko := List.getElem?_eq_getElem hlt
      refine hb.notNone k _ v ((plainArgs_at P args k _).2 ⟨_, hko, rfl⟩) hv ?_
      dsimp only
      rw [((h.flags k _ hko).2).2 hr]
      rfl
  · rintro ⟨hb, hr⟩
    have hnone : ∀ (k : Nat) p, (paramsOf w d)[k]? = some p → k < pos.length → ∀ v, (p.name, v) ∉ kw := by
      intro k p hp hlt v hv
      obtain ⟨j, q, h1, h2, h3⟩ := hb.keywords _ _ hv
      have := ho.distinct k j p q hp h2 h3.symm (by
        intro e
        rw [e] at hv
        exact hk.named v hv)
      omega
    refine ⟨by rw [hb.length, hlen], by rw [hlen]; exact hb.positional, ?_, ?_, ?_⟩
    · intro k a v ha hv
      obtain ⟨o, h4, rfl⟩ := (plainArgs_at P args k _).1 ha
      obtain ⟨p, h5, h6, h7⟩ := h.param k o h4
      dsimp only
      rw [h6, h7, lookup_some_iff kw hk.distinct, lookup_none_iff]
      rcases hb.values k p v h5 hv with h | ⟨h, h' | ⟨h', e, he, rfl⟩⟩
      · exact .inl ⟨h, hnone k p h5 (List.getElem?_eq_some_iff.1 h).1⟩
      · exact .inr ⟨h, .inl h'⟩
      · exact .inr ⟨h, .inr ⟨h', by rw [he]; rfl⟩⟩
    · intro k a v ha hv hn
      obtain ⟨o, h4, rfl⟩ := (plainArgs_at P args k _).1 ha
      dsimp only at hn
      refine hr k v hv ((h.flags k o h4).2.1 ?_)
      simpa using hn
    · rintro ⟨n, v⟩ hv
      obtain ⟨k, p, h1, h2, h3⟩ := hb.keywords _ _ hv
      obtain ⟨o, h4, h5, _⟩ := h.at k p h2
      exact ⟨k, _, h1, (plainArgs_at P args k _).2 ⟨o, h4, rfl⟩, h5.trans h3⟩

/-! ### Attempts -/

theorem all_zipIdx {α : Type} (l : List α) (n : Nat) (g : α × Nat → Bool) :
    (l.zipIdx n).all g = true ↔ ∀ (k : Nat) x, l[k]? = some x → g (x, n + k) = true := by
  induction l generalizing n with
  | nil => simp
  | cons x l ih =>
    rw [List.zipIdx_cons, List.all_cons, Bool.and_eq_true, ih]
    constructor
    · rintro ⟨h1, h2⟩ k y hy
      cases k with
      | zero => cases hy; exact h1
      | succ k =>
        have := h2 k y hy
        rw [show n + 1 + k = n + (k + 1) by omega] at this
        exact this
    · intro h
      refine ⟨h 0 x rfl, fun k y hy => ?_⟩
      have := h (k + 1) y hy
      rw [show n + (k + 1) = n + 1 + k by omega] at this
      exact this

/-- The parameters take these values. -/
def Loaded (P : PyValues V) (d : Nat) (convert : Bool) (vs : List V) (flags : List Bool) : Prop :=
  ∀ (k : Nat) v b, vs[k]? = some v → flags[k]? = some b → P.loads d (some k) (convert && b) v = true

theorem zip_at {α β : Type} (l : List α) (m : List β) (k : Nat) (x : α) (y : β) :
    (l.zip m)[k]? = some (x, y) ↔ l[k]? = some x ∧ m[k]? = some y := by
  rw [List.getElem?_zip_eq_some]

/-- The record of a function. -/
theorem record_prepare (P : PyValues V) (self : Option V) (d : Nat) (args : List ArgOut) (pos : List V)
    (kw : List (Str × V)) (hn : ∀ v, self = some v → P.isNone v = false)
    (hk : self.isSome = true → ∀ v, (t%"self", v) ∉ kw) :
    prepare P ⟨d, self.isSome, args.length + self.isSome.toNat, pyArgs P self.isSome args⟩
        (self.toList ++ pos) kw =
      (prepare P ⟨d, false, (plainArgs P args).length, plainArgs P args⟩ pos kw).map
        ((self.toList.map (·, true)) ++ ·) := by
  have hl : args.length = (plainArgs P args).length := by unfold plainArgs; simp
  cases self with
  | none =>
    have : pyArgs P false args = plainArgs P args := by
      unfold pyArgs plainArgs
      cases args <;> simp
    simp only [Option.isSome_none, Bool.toNat_false, Nat.add_zero, Option.toList_none, List.nil_append,
      List.map_nil, this, hl]
    cases prepare P ⟨d, false, (plainArgs P args).length, plainArgs P args⟩ pos kw <;> rfl
  | some v =>
    have : pyArgs P true args = if (plainArgs P args).isEmpty then [] else
        ⟨t%"self", none, true, false⟩ :: plainArgs P args := by
      unfold pyArgs plainArgs
      cases args <;> simp
    simp only [Option.isSome_some, Bool.toNat_true, Option.toList_some, List.singleton_append, this, hl,
      List.map_cons, List.map_nil]
    exact prepare_method P d _ v pos kw (hn v rfl) (hk rfl)

theorem record_param (P : PyValues V) (self : Option V) (d : Nat) (args : List ArgOut) (k : Nat) :
    (⟨d, self.isSome, args.length + self.isSome.toNat, pyArgs P self.isSome args⟩ : PyFunction V).param
      (self.toList.length + k) = some k := by
  unfold PyFunction.param
  cases self with
  | none => simp
  | some v => simp [Nat.add_comm 1 k]

/-- An attempt to call a function succeeds if it can be called like this. -/
theorem attempt_iff (P : PyValues V) {w : EmitWorld} {d : Nat} {args : List ArgOut}
    (hw : WrittenArgs w d args) (ho : OrdinaryParams w d) (self : Option V) (pos : List V)
    (kw : List (Str × V)) (hkw : Keywords kw)
    (hn : ∀ v, self = some v → P.isNone v = false ∧ P.loads d none false v = true)
    (hk : self.isSome = true → ∀ v, (t%"self", v) ∉ kw) (convert : Bool) (d' : Nat) (L : List V) :
    attempt P convert (self.toList ++ pos) kw
        ⟨d, self.isSome, args.length + self.isSome.toNat, pyArgs P self.isSome args⟩ = some (d', L) ↔
      d' = d ∧ ∃ given, L = self.toList ++ given ∧ Matches P w convert pos kw d given := by
  have hprep := prepare_plain P (plainArgs P args) pos kw (plainArgs_apart P hw ho) hkw.named d
  unfold attempt
  rw [record_prepare P self d args pos kw (fun v hv => (hn v hv).1) hk]
  -- the values can be converted
  have hload : ∀ vs : List V,
      ((self.toList.map (·, true) ++ vs.zip ((plainArgs P args).map (·.convert))).zipIdx.all fun q =>
        P.loads d ((⟨d, self.isSome, args.length + self.isSome.toNat, pyArgs P self.isSome args⟩ :
          PyFunction V).param q.2) (convert && q.1.2) q.1.1) = true ↔
      Loaded P d convert vs ((plainArgs P args).map (·.convert)) := by
    intro vs
    rw [List.zipIdx_append, List.all_append, Bool.and_eq_true]
    have h1 : ((self.toList.map (·, true)).zipIdx.all fun q =>
        P.loads d ((⟨d, self.isSome, args.length + self.isSome.toNat, pyArgs P self.isSome args⟩ :
          PyFunction V).param q.2) (convert && q.1.2) q.1.1) = true := by
      cases self with
      | none => rfl
      | some v =>
        have := (hn v rfl).2
        have h' : P.loads d none convert v = true := by
          cases convert
          · exact this
          · exact P.loads_more _ _ _ this
        simpa [PyFunction.param] using h'
    simp only [h1, true_and]
    rw [all_zipIdx]
    unfold Loaded
    constructor
    · intro h k v b hv hb
      have := h k (v, b) ((zip_at _ _ k v b).2 ⟨hv, hb⟩)
      dsimp only at this
      rw [List.length_map, Nat.zero_add, record_param] at this
      exact this
    · rintro h k ⟨v, b⟩ hvb
      obtain ⟨hv, hb⟩ := (zip_at _ _ k v b).1 hvb
      dsimp only
      rw [List.length_map, Nat.zero_add, record_param]
      exact h k v b hv hb
  -- which is the same as for the parameters
  have hmatch : ∀ vs : List V, BoundArgs P (plainArgs P args) pos kw vs ∧
      Loaded P d convert vs ((plainArgs P args).map (·.convert)) ↔ Matches P w convert pos kw d vs := by
    intro vs
    rw [boundArgs_iff P hw pos kw hkw ho]
    unfold Matches Accepts Loaded
    constructor
    · rintro ⟨⟨h1, h2⟩, h3⟩
      refine ⟨h1, fun k v hv => ⟨h2 k v hv, ?_⟩⟩
      have hlt : k < args.length := by
        have := (List.getElem?_eq_some_iff.1 hv).1
        rw [h1.length, ← hw.length] at this
        exact this
      have hko := List.getElem?_eq_getElem hlt
      refine ⟨convert && !args[k].noconvert, ?_, h3 k v _ hv ?_⟩
      · rw [Bool.and_eq_true, ← (hw.flags k _ hko).1]
        simp
      · rw [List.getElem?_map, (plainArgs_at P args k _).2 ⟨_, hko, rfl⟩]
        rfl
    · rintro ⟨h1, h2⟩
      refine ⟨⟨h1, fun k v hv => (h2 k v hv).1⟩, ?_⟩
      intro k v b hv hb
      rw [List.getElem?_map, Option.map_eq_some_iff] at hb
      obtain ⟨a, ha, rfl⟩ := hb
      obtain ⟨o, h4, rfl⟩ := (plainArgs_at P args k _).1 ha
      obtain ⟨c, hc, hl⟩ := (h2 k v hv).2
      have : c = (convert && !o.noconvert) := by
        rw [Bool.eq_iff_iff, hc, Bool.and_eq_true, ← (hw.flags k _ h4).1]
        simp
      rw [← this]
      exact hl
  have hlenzip : ∀ vs : List V, BoundArgs P (plainArgs P args) pos kw vs →
      (vs.zip ((plainArgs P args).map (·.convert))).map (·.1) = vs := by
    intro vs hb
    rw [List.map_fst_zip]
    rw [hb.length, List.length_map]
    exact Nat.le_refl _
  constructor
  · intro h
    split at h
    · cases h
    · rename_i given hg
      obtain ⟨L', hL', rfl⟩ := Option.map_eq_some_iff.1 hg
      obtain ⟨vs, hb, rfl⟩ := (hprep L').1 hL'
      split at h
      · rename_i hall
        cases h
        refine ⟨rfl, vs, ?_, (hmatch vs).1 ⟨hb, (hload vs).1 hall⟩⟩
        rw [List.map_append, hlenzip vs hb]
        cases self <;> rfl
      · cases h
  · rintro ⟨rfl, vs, rfl, hm⟩
    obtain ⟨hb, hl⟩ := (hmatch vs).2 hm
    rw [(hprep _).2 ⟨vs, hb, rfl⟩]
    simp only [Option.map_some]
    rw [if_pos ((hload vs).2 hl), List.map_append, hlenzip vs hb]
    cases self <;> rfl

/-- The second attempt is only left out if it could not succeed where the first one failed. -/
theorem worth_attempt (P : PyValues V) (self : Option V) (pos : List V) (kw : List (Str × V)) (d : Nat)
    (args : List ArgOut)
    (hn : ∀ v, self = some v → P.isNone v = false ∧ P.loads d none false v = true)
    (hk : self.isSome = true → ∀ v, (t%"self", v) ∉ kw)
    (h1 : attempt P false (self.toList ++ pos) kw
        ⟨d, self.isSome, args.length + self.isSome.toNat, pyArgs P self.isSome args⟩ = none)
    (h2 : attempt P true (self.toList ++ pos) kw
        ⟨d, self.isSome, args.length + self.isSome.toNat, pyArgs P self.isSome args⟩ ≠ none) :
    worthAnother P (self.toList ++ pos) kw
        ⟨d, self.isSome, args.length + self.isSome.toNat, pyArgs P self.isSome args⟩ = true := by
  unfold attempt at h1 h2
  unfold worthAnother
  rw [record_prepare P self d args pos kw (fun v hv => (hn v hv).1) hk] at h1 h2 ⊢
  cases hp : prepare P ⟨d, false, (plainArgs P args).length, plainArgs P args⟩ pos kw with
  | none => rw [hp] at h2; exact absurd rfl h2
  | some L =>
    rw [hp] at h1 h2
    simp only [Option.map_some] at h1 h2 ⊢
    have hd : (self.toList.map (·, true) ++ L).drop self.isSome.toNat = L := by
      cases self <;> rfl
    rw [hd]
    cases hw : L.any (·.2) with
    | true => rfl
    | false =>
      exfalso
      split at h2
      · rename_i hall
        rw [if_pos] at h1
        · cases h1
        · rw [List.zipIdx_append, List.all_append, Bool.and_eq_true] at hall ⊢
          constructor
          · cases self with
            | none => rfl
            | some v => simpa [PyFunction.param] using (hn v rfl).2
          · have hall := (all_zipIdx _ _ _).1 hall.2
            rw [all_zipIdx]
            rintro k ⟨v, b⟩ hq
            have hb : b = false := by
              have := List.any_eq_false.1 hw _ (List.mem_of_getElem? hq)
              simpa using this
            subst hb
            exact hall k (v, false) hq
      · exact h2 rfl

end Verif
