import Verif.Spec.Variadic
import Verif.Props.Call
/-!
# C106: functions that take `args` and `kwargs`
-/
namespace Verif
open Spec

variable {V : Type}

theorem lookup_filter_mem (kw : List (Str × V)) (S : List Str) (n : Str) (h : n ∈ S) :
    (kw.filter fun q => q.1 ∈ S).lookup n = kw.lookup n := by
  induction kw with
  | nil => rfl
  | cons q kw ih =>
    obtain ⟨m, v⟩ := q
    by_cases hm : m ∈ S
    · rw [List.filter_cons_of_pos (by simpa using hm), List.lookup_cons, List.lookup_cons, ih]
    · have : (n == m) = false := by
        simp only [beq_eq_false_iff_ne]
        rintro rfl
        exact hm h
      rw [List.filter_cons_of_neg (by simpa using hm), List.lookup_cons, this, ih]

theorem positional_filter (P : PyValues V) (kw : List (Str × V)) (S : List Str) :
    ∀ (as : List (PyArg V)) (pos : List V), (∀ a ∈ as, a.name ∈ S) →
      takePositional P (kw.filter fun q => q.1 ∈ S) as pos = takePositional P kw as pos
  | as, [], _ => by cases as <;> rfl
  | [], v :: pos, h => by
    rw [takePositional, takePositional, positional_filter P kw S [] pos h]
  | a :: as, v :: pos, h => by
    rw [takePositional, takePositional, lookup_filter_mem kw S _ (h a (by simp)),
      positional_filter P kw S as pos fun b hb => h b (List.mem_cons_of_mem _ hb)]

theorem keywords_filter (P : PyValues V) (S : List Str) :
    ∀ (as : List (PyArg V)) (kw : List (Str × V)), (∀ a ∈ as, a.name ∈ S) →
      takeKeywords P as (kw.filter fun q => q.1 ∈ S) =
        (takeKeywords P as kw).map fun r => (r.1, r.2.filter fun q => q.1 ∈ S)
  | [], kw, _ => rfl
  | a :: as, kw, h => by
    have ih := fun kw => keywords_filter P S as kw fun b hb => h b (List.mem_cons_of_mem _ hb)
    rw [takeKeywords, takeKeywords, lookup_filter_mem kw S _ (h a (by simp))]
    have hl : (if (kw.lookup a.name).isSome = true then (kw.filter fun q => q.1 ∈ S).filter (·.1 ≠ a.name)
        else kw.filter fun q => q.1 ∈ S) =
        (if (kw.lookup a.name).isSome = true then kw.filter (·.1 ≠ a.name) else kw).filter fun q => q.1 ∈ S := by
      split
      · rw [List.filter_filter, List.filter_filter]
        congr 1
        funext q
        rw [Bool.and_comm]
      · rfl
    rw [hl, ih]
    cases (kw.lookup a.name).or a.value with
    | none => rfl
    | some v =>
      dsimp only
      split
      · rfl
      · cases takeKeywords P as (if (kw.lookup a.name).isSome = true then kw.filter (·.1 ≠ a.name) else kw) <;> rfl

theorem keywords_left (P : PyValues V) :
    ∀ (as : List (PyArg V)) (kw : List (Str × V)) (L : List (V × Bool)) (left : List (Str × V)),
      takeKeywords P as kw = some (L, left) → left = kw.filter fun q => q.1 ∉ as.map (·.name)
  | [], kw, L, left, h => by
    cases h
    rw [List.filter_eq_self.2]
    simp
  | a :: as, kw, L, left, h => by
    rw [takeKeywords] at h
    split at h
    · cases h
    · split at h
      · cases h
      · obtain ⟨⟨L', left'⟩, h', e⟩ := Option.map_eq_some_iff.1 h
        cases e
        rw [keywords_left P as _ _ _ h']
        split
        · rw [List.filter_filter]
          apply List.filter_congr
          intro q _
          simp [Bool.and_comm, not_or]
        · rename_i hn
          have hno := (lookup_none_iff kw a.name).1 (by
            cases hl : kw.lookup a.name with
            | none => rfl
            | some x => rw [hl] at hn; simp at hn)
          apply List.filter_congr
          intro q hq
          have : q.1 ≠ a.name := by
            rintro e
            exact hno q.2 (by rw [← e]; exact hq)
          simp [this]

theorem positional_absent (P : PyValues V) (kw : List (Str × V)) :
    ∀ (as : List (PyArg V)) (pos : List V) (L : List (V × Bool)), takePositional P kw as pos = some L →
      ∀ a ∈ as.take pos.length, ∀ v, (a.name, v) ∉ kw
  | as, [], L, _, a, ha => by simp at ha
  | [], v :: pos, L, _, a, ha => by simp at ha
  | b :: as, v :: pos, L, h, a, ha => by
    rw [takePositional] at h
    split at h
    · cases h
    · rename_i hn
      split at h
      · cases h
      · obtain ⟨L', h', _⟩ := Option.map_eq_some_iff.1 h
        rw [List.length_cons, List.take_succ_cons] at ha
        rcases List.mem_cons.1 ha with rfl | ha
        · apply (lookup_none_iff kw a.name).1
          cases hl : kw.lookup a.name with
          | none => rfl
          | some x => rw [hl] at hn; simp at hn
        · exact positional_absent P kw as pos L' h' a ha

/-- Arguments that go to `args` and `kwargs` do not matter for the others. -/
theorem prepareVariadic_iff (P : PyValues V) (f : PyVariadic V) (pos : List V) (kw : List (Str × V))
    (L : List (V × Bool)) (rest : List V) (left : List (Str × V)) :
    prepareVariadic P f pos kw = some (L, rest, left) ↔
      prepare P ⟨f.fn, f.isMethod, f.nargsPos, f.args⟩ (pos.take f.nargsPos)
        (kw.filter fun q => q.1 ∈ f.args.map (·.name)) = some L ∧
      rest = pos.drop f.nargsPos ∧ left = (kw.filter fun q => q.1 ∉ f.args.map (·.name)) ∧
      (f.hasArgs = false → rest = []) ∧ (f.hasKwargs = false → left = []) := by
  have hS : ∀ a ∈ f.args, a.name ∈ f.args.map (·.name) := fun a ha => List.mem_map_of_mem ha
  generalize hSe : f.args.map (·.name) = S at hS ⊢
  have hlen : (pos.take f.nargsPos).length ≤ f.nargsPos := by simp; omega
  have hlen2 : ((pos.take f.nargsPos).length < f.nargsPos ∧ f.args.length < f.nargsPos) ↔
      (pos.length < f.nargsPos ∧ f.args.length < f.nargsPos) := by
    rw [List.length_take]; omega
  have hdrop : pos.drop f.nargsPos = [] ↔ pos.length ≤ f.nargsPos := List.drop_eq_nil_iff
  unfold prepareVariadic prepare
  dsimp only
  rw [if_neg (show ¬ (pos.take f.nargsPos).length > f.nargsPos by omega),
    positional_filter P kw S f.args _ hS,
    keywords_filter P S _ kw fun a ha => hS a (List.mem_of_mem_drop ha)]
  by_cases h2 : pos.length < f.nargsPos ∧ f.args.length < f.nargsPos
  · rw [if_pos h2, if_pos (hlen2.2 h2)]
    simp
  rw [if_neg h2, if_neg fun h => h2 (hlen2.1 h)]
  cases hp : takePositional P kw f.args (pos.take f.nargsPos) with
  | none => simp
  | some given =>
    dsimp only
    cases hk : takeKeywords P (f.args.drop (pos.take f.nargsPos).length) kw with
    | none => simp
    | some r =>
      obtain ⟨more, left'⟩ := r
      have habsent := positional_absent P kw f.args _ given hp
      have hleft := keywords_left P _ kw more left' hk
      -- what is left
      have hl : left' = kw.filter fun q => q.1 ∉ S := by
        rw [hleft]
        apply List.filter_congr
        intro q hq
        have : q.1 ∈ (f.args.drop (pos.take f.nargsPos).length).map (·.name) ↔ q.1 ∈ S := by
          constructor
          · intro h
            obtain ⟨a, ha, e⟩ := List.mem_map.1 h
            rw [← e]
            exact hS a (List.mem_of_mem_drop ha)
          · intro h
            rw [← hSe] at h
            obtain ⟨a, ha, e⟩ := List.mem_map.1 h
            rw [← List.take_append_drop (pos.take f.nargsPos).length f.args] at ha
            rcases List.mem_append.1 ha with ha | ha
            · exact absurd (by rw [e]; exact hq) (habsent a ha q.2)
            · exact List.mem_map.2 ⟨a, ha, e⟩
        rw [decide_eq_decide, this]
      have hempty : (left'.filter fun q => q.1 ∈ S) = [] := by
        rw [hl, List.filter_filter, List.filter_eq_nil_iff]
        intro q _
        simp
      simp only [Option.map_some, hempty]
      rw [hl]
      by_cases h1 : f.hasArgs = false ∧ pos.length > f.nargsPos
      · rw [if_pos h1]
        constructor
        · intro h; cases h
        · rintro ⟨_, rfl, _, h, _⟩
          have := hdrop.1 (h h1.1)
          omega
      rw [if_neg h1]
      by_cases h3 : (kw.filter fun q => q.1 ∉ S) ≠ [] ∧ f.hasKwargs = false
      · rw [if_pos h3]
        constructor
        · intro h; cases h
        · rintro ⟨_, _, rfl, _, h⟩
          exact absurd (h h3.2) h3.1
      rw [if_neg h3]
      simp only [Option.some.injEq, Prod.mk.injEq]
      constructor
      · rintro ⟨rfl, rfl, rfl⟩
        refine ⟨rfl, rfl, rfl, fun h => hdrop.2 ?_, fun h => ?_⟩
        · rcases Nat.lt_or_ge f.nargsPos pos.length with h' | h'
          · exact absurd ⟨h, h'⟩ h1
          · exact h'
        · apply Classical.byContradiction
          intro h'
          exact h3 ⟨h', h⟩
      · rintro ⟨h, rfl, rfl, _, _⟩
        exact ⟨h, rfl, rfl⟩

theorem attemptVariadic_iff (P : PyValues V) (f : PyVariadic V) (convert : Bool) (pos : List V)
    (kw : List (Str × V)) (d : Nat) (L : List V) (rest : List V) (left : List (Str × V)) :
    attemptVariadic P convert pos kw f = some (d, L, rest, left) ↔
      attempt P convert (pos.take f.nargsPos) (kw.filter fun q => q.1 ∈ f.args.map (·.name))
        ⟨f.fn, f.isMethod, f.nargsPos, f.args⟩ = some (d, L) ∧
      rest = pos.drop f.nargsPos ∧ left = (kw.filter fun q => q.1 ∉ f.args.map (·.name)) ∧
      (f.hasArgs = false → rest = []) ∧ (f.hasKwargs = false → left = []) := by
  have h := prepareVariadic_iff P f pos kw
  unfold attemptVariadic attempt
  constructor
  · intro h'
    split at h'
    · cases h'
    · rename_i given rest' left' hp
      obtain ⟨h1, h2⟩ := (h _ _ _).1 hp
      rw [h1]
      dsimp only
      split at h'
      · rename_i hall
        simp only [Option.some.injEq, Prod.mk.injEq] at h'
        obtain ⟨rfl, rfl, rfl, rfl⟩ := h'
        exact ⟨if_pos hall, h2⟩
      · cases h'
  · rintro ⟨h', h2⟩
    split at h'
    · cases h'
    · rename_i given hp
      rw [(h given rest left).2 ⟨hp, h2⟩]
      dsimp only
      split at h'
      · rename_i hall
        simp only [Option.some.injEq, Prod.mk.injEq] at h'
        obtain ⟨rfl, rfl⟩ := h'
        exact if_pos hall
      · cases h'

/-! ### Without the last parameters -/

/-- The same function, without `args` and `kwargs`. -/
def leadingWorld (w : EmitWorld) (d n : Nat) : EmitWorld :=
  { w with fn := fun x => if x = d then { w.fn d with params := (w.fn d).params.take n } else w.fn x }

theorem leadingWorld_params (w : EmitWorld) (d : Nat) (ps tail : List Param) (h : paramsOf w d = ps ++ tail) :
    paramsOf (leadingWorld w d ps.length) d = ps := by
  have : paramsOf (leadingWorld w d ps.length) d = (paramsOf w d).take ps.length := by
    simp [paramsOf, leadingWorld, List.map_take]
  rw [this, h, List.take_left]

theorem firstAt_append (ns ms : List Str) (s : Str) (k : Nat) (hk : k < ns.length) :
    FirstAt (ns ++ ms) s k ↔ FirstAt ns s k := by
  unfold FirstAt
  rw [List.getElem?_append_left hk]
  constructor
  · rintro ⟨h1, h2⟩
    exact ⟨h1, fun j hj => by rw [← List.getElem?_append_left (l₂ := ms) (by omega)]; exact h2 j hj⟩
  · rintro ⟨h1, h2⟩
    exact ⟨h1, fun j hj => by rw [List.getElem?_append_left (by omega)]; exact h2 j hj⟩

theorem leadingWorld_named (w : EmitWorld) (d : Nat) (ps tail : List Param) (h : paramsOf w d = ps ++ tail)
    (a : AnnotationKind) (k : Nat) (hk : k < ps.length) :
    NamedIn (leadingWorld w d ps.length) d a k ↔ NamedIn w d a k := by
  unfold NamedIn
  rw [leadingWorld_params w d ps tail h, h, List.map_append]
  have := fun s => firstAt_append (ps.map (·.name)) (tail.map (·.name)) s k (by simpa using hk)
  simp only [this]
  exact Iff.rfl

theorem leadingWorld_accepts (P : PyValues V) (w : EmitWorld) (d : Nat) (ps tail : List Param)
    (h : paramsOf w d = ps ++ tail) (convert : Bool) (k : Nat) (hk : k < ps.length) (v : V) :
    Accepts P (leadingWorld w d ps.length) d convert k v ↔ Accepts P w d convert k v := by
  unfold Accepts
  rw [leadingWorld_named w d ps tail h _ k hk, leadingWorld_named w d ps tail h _ k hk]

theorem leading_written (w : EmitWorld) (d : Nat) (ps : List Param) (A K : Bool) (hv : VariadicParams w d ps A K)
    (doc : Str) (args : List ArgOut) (policies : List PolicyOut) (hs : Signature w d doc args policies) :
    WrittenArgs (leadingWorld w d ps.length) d args := by
  obtain ⟨tail, he, ht⟩ := hv.shape
  have htail : ∀ p ∈ tail, p.argsType ≠ none := by
    intro p hp h
    have : (none : Option ArgsType) ∈ tail.map (·.argsType) := List.mem_map.2 ⟨p, hp, h⟩
    rw [ht] at this
    cases A <;> cases K <;> simp at this
  have hf : (paramsOf w d).filter (·.argsType.isNone) = ps := by
    rw [he, List.filter_append, List.filter_eq_self.2 fun p hp => by rw [hv.plain p hp]; rfl,
      List.filter_eq_nil_iff.2 fun p hp => by simpa using htail p hp, List.append_nil]
  have hn := hs.names (by
    rintro ⟨pre, k, mid, p, post, e, hk, hp⟩
    rw [he] at e
    have hkt : ps.length ≤ pre.length := by
      apply Classical.byContradiction
      intro hlt
      have h1 : (ps ++ tail)[pre.length]? = some k := by rw [e]; simp
      rw [List.getElem?_append_left (by omega)] at h1
      have := hv.plain k (List.mem_of_getElem? h1)
      rw [hk] at this
      cases this
    have h2 : (ps ++ tail)[pre.length + 1 + mid.length]? = some p := by
      rw [e, List.append_assoc, List.getElem?_append_right (by omega)]
      have : pre.length + 1 + mid.length - pre.length = mid.length + 1 := by omega
      rw [this]
      simp
    rw [List.getElem?_append_right (by omega)] at h2
    exact htail p (List.mem_of_getElem? h2) hp)
  rw [hf] at hn
  refine ⟨by rw [leadingWorld_params w d ps tail he]; exact hn, ?_⟩
  intro k o hk
  have hl : args.length = ps.length := by simpa using congrArg List.length hn
  have hlt : k < ps.length := by rw [← hl]; exact (List.getElem?_eq_some_iff.1 hk).1
  obtain ⟨o', h1, _, h2⟩ := hs.flags k _ (by
    rw [he, List.getElem?_append_left hlt]; exact List.getElem?_eq_getElem hlt) (by
    intro q hq
    rw [he, List.take_append_of_le_length (by omega)] at hq
    exact hv.plain q (List.mem_of_mem_take hq))
  rw [hk] at h1
  cases h1
  rw [leadingWorld_named w d ps tail he _ k hlt, leadingWorld_named w d ps tail he _ k hlt]
  exact h2

theorem variadic_record (P : PyValues V) (w : EmitWorld) (m : Bool) (s : Stmt) (d : Nat) (hs : IsOverload w s d)
    (ps : List Param) (A K : Bool) (hv : VariadicParams w d ps A K) :
    ∃ args, WrittenArgs (leadingWorld w d ps.length) d args ∧
      pyVariadic P w m s = some ⟨d, m, args.length + m.toNat, A, K, pyArgs P m args⟩ := by
  obtain ⟨tail, he, ht⟩ := hv.shape
  have hrec : ∀ args, WrittenArgs (leadingWorld w d ps.length) d args →
      variadicFor P w m d args = ⟨d, m, args.length + m.toNat, A, K, pyArgs P m args⟩ := by
    intro args hw
    have hl : args.length = ps.length := by rw [hw.length, leadingWorld_params w d ps tail he]
    have h1 : leadingParams w d = ps := by
      unfold leadingParams
      rw [he, List.takeWhile_append_of_pos fun p hp => by rw [hv.plain p hp]; rfl]
      cases tail with
      | nil => simp
      | cons p tail =>
        have : p.argsType.isNone = false := by
          cases hp : p.argsType with
          | some _ => rfl
          | none =>
            rw [List.map_cons, hp] at ht
            cases A <;> cases K <;> simp at ht
        rw [List.takeWhile_cons_of_neg (by simp [this]), List.append_nil]
    have hany : ∀ t : ArgsType, (paramsOf w d).any (·.argsType == some t) =
        ((tail.map (·.argsType)).any (· == some t)) := by
      intro t
      rw [he, List.any_append, List.any_map]
      have : (ps.any fun p => p.argsType == some t) = false := by
        rw [List.any_eq_false]
        intro p hp
        rw [hv.plain p hp]
        simp
      rw [this, Bool.false_or]
      rfl
    unfold variadicFor
    rw [h1, hany, hany, ht, hl]
    cases A <;> cases K <;> rfl
  rcases hs with ⟨isStatic, name, doc, args, policies, rfl, hs⟩ | ⟨doc, args, policies, rfl, hs⟩
  · have hw := leading_written w d ps A K hv doc args policies hs
    exact ⟨args, hw, congrArg some (hrec args hw)⟩
  · have hw := leading_written w d ps A K hv doc args policies hs
    exact ⟨args, hw, congrArg some (hrec args hw)⟩

/-- C106: a function whose last parameters are `args` or `kwargs` (or both) is called with the values its other
parameters would have without them.  Further positional arguments are the elements of `args`, in
this order, and keyword arguments that are not the name of a parameter are the items of `kwargs`.  The call fails if
there are such arguments but no `args` or `kwargs` to take them. -/
theorem C106_call (P : PyValues V) (w : EmitWorld) (s : Stmt) (d : Nat) (hs : IsOverload w s d)
    (ps : List Param) (A K : Bool) (hv : VariadicParams w d ps A K) (self : Option V) (pos : List V)
    (kw : List (Str × V)) (hk : Keywords kw) (hc : CalledFor P [d] kw self) :
    ∃ f, pyVariadic P w self.isSome s = some f ∧
      ∀ convert r, attemptVariadic P convert (self.toList ++ pos) kw f = some r ↔
        ∃ given rest left, r = (d, self.toList ++ given, rest, left) ∧
          BoundVariadic P ps A K pos kw given rest left ∧
          ∀ (k : Nat) v, given[k]? = some v → Accepts P w d convert k v := by
  obtain ⟨args, hw, hf⟩ := variadic_record P w self.isSome s d hs ps A K hv
  obtain ⟨tail, he, _⟩ := hv.shape
  have hp := leadingWorld_params w d ps tail he
  have hl : args.length = ps.length := by rw [hw.length, hp]
  have ho : OrdinaryParams (leadingWorld w d ps.length) d := ⟨by rw [hp]; exact hv.plain, by rw [hp]; exact hv.distinct⟩
  have hn : ∀ v, self = some v → P.isNone v = false ∧ P.loads d none false v = true :=
    fun v hv => ⟨hc.notNone v hv, hc.loads v hv d List.mem_cons_self⟩
  have hnames : args.map (·.name) = ps.map (·.name) := by
    have := congrArg (List.map Prod.fst) hw.names
    rw [List.map_map, List.map_map, hp] at this
    exact this
  refine ⟨_, hf, ?_⟩
  rintro convert ⟨d', L, rest, left⟩
  rw [attemptVariadic_iff]
  dsimp only
  -- names of the arguments
  have hmem : ∀ q ∈ kw, q.1 ∈ (pyArgs P self.isSome args).map (·.name) ↔ q.1 ∈ ps.map (·.name) := by
    intro q hq
    have hself : self.isSome = true → q.1 ≠ t%"self" := fun h e => hc.keyword h q.2 (by rw [← e]; exact hq)
    rw [← hnames]
    unfold pyArgs
    cases args with
    | nil => simp
    | cons a args =>
      rw [if_neg (by simp), List.map_append, List.mem_append, List.map_map]
      constructor
      · rintro (h | h)
        · split at h
          · rename_i hs'
            exact absurd (List.mem_singleton.1 h) (hself hs')
          · cases h
        · exact h
      · exact .inr
  have hin : (kw.filter fun q => q.1 ∈ (pyArgs P self.isSome args).map (·.name)) =
      kw.filter fun q => q.1 ∈ ps.map (·.name) :=
    List.filter_congr fun q hq => decide_eq_decide.2 (hmem q hq)
  have hout : (kw.filter fun q => q.1 ∉ (pyArgs P self.isSome args).map (·.name)) =
      kw.filter fun q => q.1 ∉ ps.map (·.name) :=
    List.filter_congr fun q hq => decide_eq_decide.2 (not_congr (hmem q hq))
  have hlen : args.length + self.isSome.toNat = self.toList.length + ps.length := by
    rw [hl]; cases self <;> simp <;> omega
  rw [hin, hout]
  have htake : (self.toList ++ pos).take (args.length + self.isSome.toNat) = self.toList ++ pos.take ps.length := by
    rw [hlen, List.take_length_add_append]
  have hdrop : (self.toList ++ pos).drop (args.length + self.isSome.toNat) = pos.drop ps.length := by
    rw [hlen, List.drop_length_add_append]
  rw [htake, hdrop]
  have hkw : Keywords (kw.filter fun q => q.1 ∈ ps.map (·.name)) :=
    ⟨hk.distinct.sublist (List.filter_sublist.map _), fun v h => hk.named v (List.mem_filter.1 h).1⟩
  rw [attempt_iff P hw ho self _ _ hkw hn (fun h v hm => hc.keyword h v (List.mem_filter.1 hm).1)]
  unfold Matches
  rw [hp]
  constructor
  · rintro ⟨⟨rfl, given, rfl, hb, ha⟩, hr, hleft, h1, h2⟩
    refine ⟨given, rest, left, rfl, ⟨hb, hr, hleft, h1, h2⟩, fun k v hkv => ?_⟩
    have hlt : k < ps.length := by rw [← hb.length]; exact (List.getElem?_eq_some_iff.1 hkv).1
    exact (leadingWorld_accepts P w d' ps tail he convert k hlt v).1 (ha k v hkv)
  · rintro ⟨given, rest', left', e, hb, ha⟩
    simp only [Prod.mk.injEq] at e
    obtain ⟨rfl, rfl, rfl, rfl⟩ := e
    refine ⟨⟨rfl, given, rfl, hb.ordinary, fun k v hkv => ?_⟩, hb.further, hb.unnamed, hb.noArgs, hb.noKwargs⟩
    have hlt : k < ps.length := by rw [← hb.ordinary.length]; exact (List.getElem?_eq_some_iff.1 hkv).1
    exact (leadingWorld_accepts P w d' ps tail he convert k hlt v).2 (ha k v hkv)

/-! ### Several overloads -/

/-- Two passes over a list, where the second one leaves out elements. -/
def twoPasses {α β : Type} (att : Bool → α → Option β) (worth : α → Bool) : List α → Option β
  | [f] => att true f
  | l => match l.findSome? (att false) with
    | some r => some r
    | none => (l.filter worth).findSome? (att true)

theorem dispatchVariadic_passes (P : PyValues V) (fs : List (PyVariadic V)) (pos : List V) (kw : List (Str × V)) :
    dispatchVariadic P fs pos kw =
      twoPasses (fun c => attemptVariadic P c pos kw) (worthVariadic P pos kw) fs := by
  rcases fs with _ | ⟨f, _ | ⟨g, l⟩⟩
  · rfl
  · rfl
  · simp only [dispatchVariadic, twoPasses]
    cases (f :: g :: l).findSome? (attemptVariadic P false pos kw) <;> rfl

theorem findSome_filterMap {α β γ : Type} (g : α → Option β) (h : β → Option γ) (l : List α) :
    (l.filterMap g).findSome? h = l.findSome? fun x => (g x).bind h := by
  induction l with
  | nil => rfl
  | cons x l ih =>
    cases hx : g x with
    | none => rw [List.filterMap_cons_none hx, List.findSome?_cons, hx, ih]; rfl
    | some y => rw [List.filterMap_cons_some hx, List.findSome?_cons, List.findSome?_cons, hx, ih]; rfl

theorem two_passes {α β : Type} (att : Bool → α → Option β) (worth : α → Bool) (l : List α)
    (hmore : ∀ f ∈ l, ∀ r, att false f = some r → att true f = some r)
    (hworth : ∀ f ∈ l, att false f = none → att true f ≠ none → worth f = true) (r : β) :
    twoPasses att worth l = some r ↔
      l.findSome? (att false) = some r ∨ (∀ f ∈ l, att false f = none) ∧ l.findSome? (att true) = some r := by
  have hgeneral : (match l.findSome? (att false) with
        | some r => some r
        | none => (l.filter worth).findSome? (att true)) = some r ↔
      l.findSome? (att false) = some r ∨ (∀ f ∈ l, att false f = none) ∧ l.findSome? (att true) = some r := by
    cases h : l.findSome? (att false) with
    | some r' =>
      dsimp only
      constructor
      · exact .inl
      · rintro (h' | ⟨h', _⟩)
        · exact h'
        · rw [List.findSome?_eq_none_iff.2 h'] at h
          cases h
    | none =>
      have h' := List.findSome?_eq_none_iff.1 h
      dsimp only
      rw [findSome_filter (att true) worth l fun f hf hn => hworth f hf (h' f hf) hn]
      constructor
      · exact fun h2 => .inr ⟨h', h2⟩
      · rintro (h2 | ⟨_, h2⟩)
        · cases h2
        · exact h2
  match l, hmore, hgeneral with
  | [], _, hgeneral => exact hgeneral
  | [f], hmore, _ =>
    have hone : ∀ c, [f].findSome? (att c) = att c f := by
      intro c
      rw [List.findSome?_cons]
      cases att c f <;> rfl
    rw [hone, hone]
    show att true f = some r ↔ _
    constructor
    · intro h
      cases hf : att false f with
      | none => exact .inr ⟨fun g hg => by rw [List.mem_singleton.1 hg]; exact hf, h⟩
      | some r' =>
        have := hmore f List.mem_cons_self r' hf
        rw [h] at this
        exact .inl this.symm
    · rintro (h | ⟨_, h⟩)
      · exact hmore f List.mem_cons_self r h
      · exact h
  | f :: f' :: l, _, hgeneral => exact hgeneral

theorem matchesVariadic_more (P : PyValues V) (w : EmitWorld) (pos : List V) (kw : List (Str × V)) (d : Nat)
    (given rest : List V) (left : List (Str × V)) (h : MatchesVariadic P w false pos kw d given rest left) :
    MatchesVariadic P w true pos kw d given rest left := by
  obtain ⟨ps, A, K, hv, hb, ha⟩ := h
  refine ⟨ps, A, K, hv, hb, fun k v hkv => ?_⟩
  obtain ⟨h1, c, h2, h3⟩ := ha k v hkv
  have hc : c = false := by
    cases c with
    | false => rfl
    | true => exact absurd (h2.1 rfl).1 (by simp)
  subst hc
  refine ⟨h1, ?_⟩
  by_cases hn : NamedIn w d .noconvert k
  · exact ⟨false, by simp [hn], h3⟩
  · exact ⟨true, by simp [hn], P.loads_more _ _ _ h3⟩

/-- What is known about one of the overloads. -/
theorem variadic_overload (P : PyValues V) (w : EmitWorld) (s : Stmt) (d : Nat) (hs : IsOverload w s d)
    (hv : ∃ ps A K, VariadicParams w d ps A K) (self : Option V) (pos : List V)
    (kw : List (Str × V)) (hk : Keywords kw) (hc : CalledFor P [d] kw self) :
    ∃ f, pyVariadic P w self.isSome s = some f ∧
      (∀ convert r, attemptVariadic P convert (self.toList ++ pos) kw f = some r ↔
        ∃ given rest left, r = (d, self.toList ++ given, rest, left) ∧
          MatchesVariadic P w convert pos kw d given rest left) ∧
      (attemptVariadic P false (self.toList ++ pos) kw f = none →
        attemptVariadic P true (self.toList ++ pos) kw f ≠ none →
        worthVariadic P (self.toList ++ pos) kw f = true) := by
  obtain ⟨ps, A, K, hv⟩ := hv
  obtain ⟨args, hw, hf⟩ := variadic_record P w self.isSome s d hs ps A K hv
  refine ⟨_, hf, ?_, ?_⟩
  · intro convert r
    constructor
    · intro h
      obtain ⟨f, hf', hcall⟩ := C106_call P w s d hs ps A K hv self pos kw hk hc
      rw [hf] at hf'
      cases hf'
      obtain ⟨given, rest, left, e, h1, h2⟩ := (hcall convert r).1 h
      exact ⟨given, rest, left, e, ps, A, K, hv, h1, h2⟩
    · rintro ⟨given, rest, left, e, ps', A', K', hv', h1, h2⟩
      obtain ⟨f, hf', hcall⟩ := C106_call P w s d hs ps' A' K' hv' self pos kw hk hc
      rw [hf] at hf'
      cases hf'
      exact (hcall convert r).2 ⟨given, rest, left, e, h1, h2⟩
  · intro hfalse htrue
    have hn : ∀ v, self = some v → P.isNone v = false ∧ P.loads d none false v = true :=
      fun v hv => ⟨hc.notNone v hv, hc.loads v hv d List.mem_cons_self⟩
    obtain ⟨tail, he, _⟩ := hv.shape
    have hl : args.length = ps.length := by rw [hw.length, leadingWorld_params w d ps tail he]
    have htake : (self.toList ++ pos).take (args.length + self.isSome.toNat) =
        self.toList ++ pos.take ps.length := by
      have hlen : args.length + self.isSome.toNat = self.toList.length + ps.length := by
        rw [hl]; cases self <;> simp <;> omega
      rw [hlen, List.take_length_add_append]
    cases ht : attemptVariadic P true (self.toList ++ pos) kw
        ⟨d, self.isSome, args.length + self.isSome.toNat, A, K, pyArgs P self.isSome args⟩ with
    | none => exact absurd ht htrue
    | some r =>
      obtain ⟨d', L, rest, left⟩ := r
      obtain ⟨h1, h2⟩ := (attemptVariadic_iff ..).1 ht
      dsimp only at h1 h2
      rw [htake] at h1
      have hworth := worth_attempt P self (pos.take ps.length)
        (kw.filter fun q => q.1 ∈ (pyArgs P self.isSome args).map (·.name)) d args hn
        (fun h v hm => hc.keyword h v (List.mem_filter.1 hm).1)
        (by
          cases h : attempt P false (self.toList ++ pos.take ps.length)
              (kw.filter fun q => q.1 ∈ (pyArgs P self.isSome args).map (·.name))
              ⟨d, self.isSome, args.length + self.isSome.toNat, pyArgs P self.isSome args⟩ with
          | none => rfl
          | some q =>
            have := (attemptVariadic_iff P
              ⟨d, self.isSome, args.length + self.isSome.toNat, A, K, pyArgs P self.isSome args⟩ false
              (self.toList ++ pos) kw q.1 q.2 rest left).2 ⟨by dsimp only; rw [htake]; exact h, h2⟩
            rw [hfalse] at this
            cases this)
        (by rw [h1]; simp)
      unfold worthAnother at hworth
      unfold worthVariadic
      split at hworth
      · cases hworth
      · rename_i given hp
        rw [(prepareVariadic_iff P
          ⟨d, self.isSome, args.length + self.isSome.toNat, A, K, pyArgs P self.isSome args⟩
          (self.toList ++ pos) kw given rest left).2 ⟨by dsimp only; rw [htake]; exact hp, h2⟩]
        exact hworth

/-- C106: if there are several overloads, with or without `args` and `kwargs`, the first one that can be called
without conversions is called, or else the first one that can be called at all. -/
theorem C106_dispatch (P : PyValues V) (w : EmitWorld) (ss : List Stmt)
    (hs : ∀ s ∈ ss, ∃ d, IsOverload w s d)
    (hv : ∀ d ∈ ss.filterMap overloadOf, ∃ ps A K, VariadicParams w d ps A K)
    (self : Option V) (pos : List V) (kw : List (Str × V)) (hk : Keywords kw)
    (hc : CalledFor P (ss.filterMap overloadOf) kw self) (r : Nat × List V × List V × List (Str × V)) :
    dispatchVariadic P (ss.filterMap (pyVariadic P w self.isSome)) (self.toList ++ pos) kw = some r ↔
      ∃ d given rest left, r = (d, self.toList ++ given, rest, left) ∧
        ResolvedVariadic P w pos kw ss d given rest left := by
  -- every overload
  have hall : ∀ s ∈ ss, ∃ d f, overloadOf s = some d ∧ pyVariadic P w self.isSome s = some f ∧
      (∀ convert r, attemptVariadic P convert (self.toList ++ pos) kw f = some r ↔
        ∃ given rest left, r = (d, self.toList ++ given, rest, left) ∧
          MatchesVariadic P w convert pos kw d given rest left) ∧
      (attemptVariadic P false (self.toList ++ pos) kw f = none →
        attemptVariadic P true (self.toList ++ pos) kw f ≠ none →
        worthVariadic P (self.toList ++ pos) kw f = true) := by
    intro s hss
    obtain ⟨d, hd⟩ := hs s hss
    have hod : overloadOf s = some d := by
      rcases hd with ⟨_, _, _, _, _, rfl, _⟩ | ⟨_, _, _, rfl, _⟩ <;> rfl
    have hmem : d ∈ ss.filterMap overloadOf := List.mem_filterMap.2 ⟨s, hss, hod⟩
    obtain ⟨f, h⟩ := variadic_overload P w s d hd (hv d hmem) self pos kw hk
      ⟨hc.notNone, fun v hv x hx => hc.loads v hv x (by rw [List.mem_singleton.1 hx]; exact hmem), hc.keyword⟩
    exact ⟨d, f, hod, h⟩
  have hnone : ∀ convert, ∀ s ∈ ss,
      (pyVariadic P w self.isSome s).bind (attemptVariadic P convert (self.toList ++ pos) kw) = none ↔
        ∀ d', overloadOf s = some d' →
          ∀ given rest left, ¬ MatchesVariadic P w convert pos kw d' given rest left := by
    intro convert s hss
    obtain ⟨d, f, hod, hf, ha, _⟩ := hall s hss
    rw [hf, Option.bind_some, hod]
    constructor
    · intro h d' e given rest left hm
      cases e
      have := (ha convert _).2 ⟨given, rest, left, rfl, hm⟩
      rw [h] at this
      cases this
    · intro h
      cases hr : attemptVariadic P convert (self.toList ++ pos) kw f with
      | none => rfl
      | some r' =>
        obtain ⟨given, rest, left, _, hm⟩ := (ha convert r').1 hr
        exact absurd hm (h d rfl given rest left)
  -- the first one
  have hfirst : ∀ convert, (ss.filterMap (pyVariadic P w self.isSome)).findSome?
        (attemptVariadic P convert (self.toList ++ pos) kw) = some r ↔
      ∃ d given rest left, r = (d, self.toList ++ given, rest, left) ∧
        FirstVariadic P w convert pos kw ss d given rest left := by
    intro convert
    rw [findSome_filterMap, List.findSome?_eq_some_iff]
    constructor
    · rintro ⟨pre, s, post, e, h1, h2⟩
      obtain ⟨d, f, hod, hf, ha, _⟩ := hall s (by rw [e]; simp)
      rw [hf] at h1
      obtain ⟨given, rest, left, er, hm⟩ := (ha convert r).1 h1
      exact ⟨d, given, rest, left, er, pre, s, post, e, hod, hm,
        fun s' hs' => (hnone convert s' (by rw [e]; simp [hs'])).1 (h2 s' hs')⟩
    · rintro ⟨d, given, rest, left, er, pre, s, post, e, hod, hm, h2⟩
      obtain ⟨d', f, hod', hf, ha, _⟩ := hall s (by rw [e]; simp)
      rw [hod] at hod'
      cases hod'
      refine ⟨pre, s, post, e, ?_, fun s' hs' => (hnone convert s' (by rw [e]; simp [hs'])).2 (h2 s' hs')⟩
      rw [hf]
      exact (ha convert r).2 ⟨given, rest, left, er, hm⟩
  have hrec : ∀ f ∈ ss.filterMap (pyVariadic P w self.isSome), ∃ s ∈ ss, ∃ d,
      (∀ convert r, attemptVariadic P convert (self.toList ++ pos) kw f = some r ↔
        ∃ given rest left, r = (d, self.toList ++ given, rest, left) ∧
          MatchesVariadic P w convert pos kw d given rest left) ∧
      (attemptVariadic P false (self.toList ++ pos) kw f = none →
        attemptVariadic P true (self.toList ++ pos) kw f ≠ none →
        worthVariadic P (self.toList ++ pos) kw f = true) := by
    intro f hf
    obtain ⟨s, hss, hf⟩ := List.mem_filterMap.1 hf
    obtain ⟨d, f', _, hf', h⟩ := hall s hss
    rw [hf] at hf'
    cases hf'
    exact ⟨s, hss, d, h⟩
  have htwo := two_passes (fun c => attemptVariadic P c (self.toList ++ pos) kw)
    (worthVariadic P (self.toList ++ pos) kw) (ss.filterMap (pyVariadic P w self.isSome))
    (by
      intro f hf r h
      obtain ⟨_, _, d, ha, _⟩ := hrec f hf
      obtain ⟨given, rest, left, e, hm⟩ := (ha false r).1 h
      exact (ha true r).2 ⟨given, rest, left, e, matchesVariadic_more P w pos kw d given rest left hm⟩)
    (fun f hf => by
      obtain ⟨_, _, d, _, h⟩ := hrec f hf
      exact h) r
  have hno : (∀ f ∈ ss.filterMap (pyVariadic P w self.isSome),
        attemptVariadic P false (self.toList ++ pos) kw f = none) ↔
      ∀ s' ∈ ss, ∀ d', overloadOf s' = some d' →
        ∀ given' rest' left', ¬ MatchesVariadic P w false pos kw d' given' rest' left' := by
    constructor
    · intro h s hss
      obtain ⟨d, f, _, hf, _⟩ := hall s hss
      apply (hnone false s hss).1
      rw [hf]
      exact h f (List.mem_filterMap.2 ⟨s, hss, hf⟩)
    · intro h f hf
      obtain ⟨s, hss, hf⟩ := List.mem_filterMap.1 hf
      have := (hnone false s hss).2 (h s hss)
      rw [hf] at this
      exact this
  rw [dispatchVariadic_passes, htwo, hfirst, hfirst, hno]
  unfold ResolvedVariadic
  constructor
  · rintro (⟨d, given, rest, left, e, h⟩ | ⟨h0, d, given, rest, left, e, h⟩)
    · exact ⟨d, given, rest, left, e, .inl h⟩
    · exact ⟨d, given, rest, left, e, .inr ⟨h0, h⟩⟩
  · rintro ⟨d, given, rest, left, e, h | ⟨h0, h⟩⟩
    · exact .inl ⟨d, given, rest, left, e, h⟩
    · exact .inr ⟨h0, d, given, rest, left, e, h⟩

/-! ### Functions without `args` and `kwargs` -/

/-- The same function, which takes neither `args` nor `kwargs`. -/
def ordinaryRecord (f : PyFunction V) : PyVariadic V := ⟨f.fn, f.isMethod, f.nargs, false, false, f.args⟩

theorem prepare_ordinary (P : PyValues V) (f : PyFunction V) (pos : List V) (kw : List (Str × V)) :
    prepareVariadic P (ordinaryRecord f) pos kw = (prepare P f pos kw).map fun L => (L, [], []) := by
  unfold prepareVariadic prepare ordinaryRecord
  dsimp only
  by_cases h1 : pos.length > f.nargs
  · rw [if_pos ⟨rfl, h1⟩, if_pos h1]
    rfl
  rw [if_neg fun h => h1 h.2, if_neg h1, List.take_of_length_le (by omega),
    show pos.drop f.nargs = [] from List.drop_of_length_le (by omega)]
  by_cases h2 : pos.length < f.nargs ∧ f.args.length < f.nargs
  · rw [if_pos h2, if_pos h2]
    rfl
  rw [if_neg h2, if_neg h2]
  cases takePositional P kw f.args pos with
  | none => rfl
  | some given =>
    dsimp only
    cases takeKeywords P (f.args.drop pos.length) kw with
    | none => rfl
    | some r =>
      obtain ⟨more, left⟩ := r
      cases left with
      | nil => simp
      | cons q left => simp

theorem attempt_ordinary (P : PyValues V) (convert : Bool) (f : PyFunction V) (pos : List V) (kw : List (Str × V)) :
    attemptVariadic P convert pos kw (ordinaryRecord f) =
      (attempt P convert pos kw f).map fun r => (r.1, r.2, [], []) := by
  unfold attemptVariadic attempt
  rw [prepare_ordinary]
  cases prepare P f pos kw with
  | none => rfl
  | some given =>
    simp only [Option.map_some]
    have : (ordinaryRecord f).record = f := rfl
    rw [this]
    show (if (given.zipIdx.all fun q => P.loads f.fn (f.param q.2) (convert && q.1.2) q.1.1) = true then _ else _) = _
    split <;> rfl

theorem worth_ordinary (P : PyValues V) (f : PyFunction V) (pos : List V) (kw : List (Str × V)) :
    worthVariadic P pos kw (ordinaryRecord f) = worthAnother P pos kw f := by
  unfold worthVariadic worthAnother
  rw [prepare_ordinary]
  cases prepare P f pos kw <;> rfl

theorem findSome_map_option {α β γ δ : Type} (g : α → β) (h : β → Option γ) (h' : α → Option δ) (k : δ → γ)
    (e : ∀ x, h (g x) = (h' x).map k) (l : List α) : (l.map g).findSome? h = (l.findSome? h').map k := by
  induction l with
  | nil => rfl
  | cons x l ih =>
    rw [List.map_cons, List.findSome?_cons, List.findSome?_cons, e, ih]
    cases h' x <;> rfl

/-- C106: for functions that take neither `args` nor `kwargs` this is what C80 is about. -/
theorem C106_ordinary (P : PyValues V) (fs : List (PyFunction V)) (pos : List V) (kw : List (Str × V)) :
    dispatchVariadic P (fs.map ordinaryRecord) pos kw =
      (dispatch P fs pos kw).map fun r => (r.1, r.2, [], []) := by
  rcases fs with _ | ⟨f, _ | ⟨g, l⟩⟩
  · rfl
  · exact attempt_ordinary P true f pos kw
  · have h : ∀ c fs, (List.map ordinaryRecord fs).findSome? (attemptVariadic P c pos kw) =
        (fs.findSome? (attempt P c pos kw)).map fun r => (r.1, r.2, [], []) :=
      fun c fs => findSome_map_option _ _ _ _ (fun f => attempt_ordinary P c f pos kw) fs
    have hf : (List.map ordinaryRecord (f :: g :: l)).filter (worthVariadic P pos kw) =
        ((f :: g :: l).filter (worthAnother P pos kw)).map ordinaryRecord := by
      rw [List.filter_map]
      congr 1
      apply List.filter_congr
      intro x _
      exact worth_ordinary P x pos kw
    have e1 : dispatchVariadic P (List.map ordinaryRecord (f :: g :: l)) pos kw =
        match (List.map ordinaryRecord (f :: g :: l)).findSome? (attemptVariadic P false pos kw) with
        | some r => some r
        | none => ((List.map ordinaryRecord (f :: g :: l)).filter (worthVariadic P pos kw)).findSome?
            (attemptVariadic P true pos kw) := rfl
    have e2 : dispatch P (f :: g :: l) pos kw =
        match (f :: g :: l).findSome? (attempt P false pos kw) with
        | some r => some r
        | none => ((f :: g :: l).filter (worthAnother P pos kw)).findSome? (attempt P true pos kw) := rfl
    rw [e1, e2, h, hf, h]
    cases (f :: g :: l).findSome? (attempt P false pos kw) <;> rfl

theorem record_ordinary (P : PyValues V) (w : EmitWorld) (m : Bool) (s : Stmt) (d : Nat) (hs : IsOverload w s d)
    (ho : OrdinaryParams w d) : pyVariadic P w m s = (pyFunction P m s).map ordinaryRecord := by
  have h1 : leadingParams w d = paramsOf w d := by
    unfold leadingParams
    have := List.takeWhile_append_of_pos (p := fun p : Param => p.argsType.isNone) (l₁ := paramsOf w d) (l₂ := [])
      fun p hp => by rw [ho.plain p hp]; rfl
    simpa using this
  have hany : ∀ t : ArgsType, ((paramsOf w d).any (·.argsType == some t)) = false := by
    intro t
    rw [List.any_eq_false]
    intro p hp
    rw [ho.plain p hp]
    simp
  have hl : (paramsOf w d).length = ((w.fn d).params.map (·.originalType)).length := by simp [paramsOf]
  rcases hs with ⟨isStatic, name, doc, args, policies, rfl, _⟩ | ⟨doc, args, policies, rfl, _⟩
  · show some (variadicFor P w m d args) = _
    unfold variadicFor
    rw [h1, hany, hany, hl]
    rfl
  · show some (variadicFor P w m d args) = _
    unfold variadicFor
    rw [h1, hany, hany, hl]
    rfl

/-- C106: for whole runs, and all attributes of objects of the imported module that consist of exposed functions or
constructors, in the order of their definitions. -/
theorem C106_run (o : ToolOptions) (i : ToolInput) (ok : InputOK i) (lk : LookupOK i.world)
    (re : Reopening i.world.toWorld) (hu : NoBareReopening i.world.toWorld i.tree) (files : Files)
    (r : ToolResult) (hr : runTool o i files = some r) (hx : o.expectFailure = false) (h0 : r.exitCode = 0)
    (hnd : o.outputFiles.Nodup) :
    ∃ name g b order place, moduleNameFor o.moduleName i.mainFile = some name ∧
      Placement i name g b order place ∧
      ∃ lines : List (List Line), lines.length = o.outputFiles.length ∧
        (∀ (k : Nat) path ls, o.outputFiles[k]? = some path → lines[k]? = some ls →
          (path ≠ ['-'] → r.files path = some (fileText i ls)) ∧
          (path = ['-'] → r.printed = [fileText i ls])) ∧
        ∀ st, importModule lines = .ok st → ∀ mro names,
          PyNames.run mro (.start (st.types.map (·.2)) st.modules)
            (definitions (fun x => decide (x ∈ st.types.map (·.2))) [] st.executed) = .ok names →
          ∀ object n m overloads, names object n = some (.functions m overloads) →
          (∀ s ∈ overloads, overloadOf s ≠ none) →
          (∀ d ∈ overloads.filterMap overloadOf, ∃ ps A K, VariadicParams i.world d ps A K) →
          ∀ (V : Type) (P : PyValues V) (self : Option V) (pos : List V) (kw : List (Str × V)),
          self.isSome = m → Keywords kw → CalledFor P (overloads.filterMap overloadOf) kw self →
          ∀ result, dispatchVariadic P (overloads.filterMap (pyVariadic P i.world m)) (self.toList ++ pos) kw =
              some result ↔
            ∃ d given rest left, result = (d, self.toList ++ given, rest, left) ∧
              ResolvedVariadic P i.world pos kw overloads d given rest left := by
  obtain ⟨name, g, b, order, place, hn, hb, hv, hp, lines, h1, h2, _, h4⟩ :=
    C69_module o i ok files r hr hx h0 hnd
  have pl : Placement i name g b order place := ⟨hb, hv, hp⟩
  refine ⟨name, g, b, order, place, hn, pl, lines, h1, h2, ?_⟩
  intro st hst mro names hrun object n m overloads hattr hall hvar V P self pos kw hm hk hc result
  rw [show st.executed = executed i name g b order place from (h4 st hst).1] at hrun
  subst hm
  refine C106_dispatch P i.world overloads ?_ hvar self pos kw hk hc result
  intro s hs
  obtain ⟨x, hxd, rfl, rfl, hw, rfl⟩ := run_origin mro _ _ _ _ hrun (fun _ h => h)
    (by
      intro o n m ss h
      rcases start_cases _ _ _ _ _ h with h | h <;> cases h) object n _ overloads hattr s hs
  obtain ⟨e, he, hde⟩ := definitions_functions _ _ _ x hxd _ hw
  have hstmt : e.stmt = x.stmt := by
    unfold definedBy at hde
    split at hde <;> cases hde <;> first | rfl | assumption
  rw [← hstmt] at hs ⊢
  cases hd : overloadOf e.stmt with
  | none => exact absurd hd (hall _ hs)
  | some d => exact ⟨d, executed_overload i ok lk re hu name g b order place pl e he d hd⟩

/-! ### Examples -/

/-- `struct visible 1 { int 2(double y = 1, tail...); int 3(args a); };` where the second one has these
annotations. -/
def exVariadic (tail : List (Str × ArgsType)) (g : List Str) : EmitWorld := { exCall [] [] t%"y" (some t%"1") with
  info := fun
    | 2 => { kind := .method, name := t%"f", params := t%"y" :: tail.map (·.1), minRequired := 0 }
    | 3 => { kind := .method, name := t%"g", params := [t%"a"], attrTexts := g }
    | x => (exCall [] [] t%"y" (some t%"1")).info x
  fn := fun
    | 2 => { exPlain t%"S::f" 0 with
             params := ⟨{ id := 0, name := t%"y", default := some t%"1" }, { text := t%"double" }, t%"double"⟩ ::
               tail.map fun q => ⟨{ id := 0, name := q.1, argsType := some q.2 }, { text := t%"object" }, t%"object"⟩ }
    | 3 => { exPlain t%"S::g" 0 with
             params := [⟨{ id := 0, name := t%"a", argsType := some .args }, { text := t%"object" }, t%"object"⟩] }
    | x => exUnit.fn x }

/-- The result of a call of attribute `f` of `S`, for some instance of it. -/
def exVariadicResult (tail : List (Str × ArgsType)) (g : List Str) (pos : List ExValue) (kw : List (Str × ExValue)) :
    Option (Option (Nat × List ExValue × List ExValue × List (Str × ExValue))) :=
  let w := exVariadic tail g
  let i : ToolInput := { exInput with world := w, pick := fun _ => lastSmallest w.loc }
  let b := buildGraph w.toWorld i.tree
  match b.1 with
  | none => none
  | some graph =>
    let a' := analyze w.toWorld b.2.storage i.members t%"my_lib" graph
    let m := emitModule w b.2.storage a'.pruned a'.vis i.pick a'.pruned.nodes 1 t%"my_lib"
    match importModule [m.stream 0] with
    | .error _ => none
    | .ok st =>
      match PyNames.run (fun _ => []) (.start (st.types.map (·.2)) st.modules)
          (definitions (fun x => decide (x ∈ st.types.map (·.2))) [] st.executed) with
      | .error _ => none
      | .ok names => match names [t%"S"] t%"f" with
        | some (.functions true l) =>
          some (dispatchVariadic exValues (l.filterMap (pyVariadic exValues w true)) (.object :: pos) kw)
        | _ => none

/-- Rewrites a run to a form that can be evaluated. -/
local macro "eval_run" : tactic => `(tactic| (
  simp only [handleTranslationUnit, emitModule, findEnclosingScopes, analyze, pruneGraph, hideNamespaces,
    declContextsWithVisibleNamedDecls, deriveEffectiveVisibility, dfs_fuel]
  decide +kernel))

local instance : DecidableEq (List (Str × ExValue)) := inferInstance

local instance : DecidableEq (List ExValue × List ExValue × List (Str × ExValue)) := inferInstance

/-- `s.f(1.0, 2, s, z=4)`, `s.f(z=4)` and `s.f(1.0, y=2)` for `f(double y = 1, args a, kwargs k)`. -/
example : exVariadicResult [(t%"a", .args), (t%"k", .kwargs)] [] [.float, .int, .object] [(t%"z", .int)] =
      some (some (2, [.object, .float], [.int, .object], [(t%"z", .int)])) ∧
    exVariadicResult [(t%"a", .args), (t%"k", .kwargs)] [] [] [(t%"z", .int)] =
      some (some (2, [.object, .int], [], [(t%"z", .int)])) ∧
    exVariadicResult [(t%"a", .args), (t%"k", .kwargs)] [] [.float] [(t%"y", .int)] = some none := by
  refine ⟨?_, ?_, ?_⟩ <;> (unfold exVariadicResult; eval_run)

/-- Without `kwargs` there are no further keyword arguments, without `args` no further positional ones. -/
example : exVariadicResult [(t%"a", .args)] [] [.float, .int] [] = some (some (2, [.object, .float], [.int], [])) ∧
    exVariadicResult [(t%"a", .args)] [] [.float, .int] [(t%"z", .int)] = some none ∧
    exVariadicResult [(t%"k", .kwargs)] [] [.float] [(t%"z", .int)] =
      some (some (2, [.object, .float], [], [(t%"z", .int)])) ∧
    exVariadicResult [(t%"k", .kwargs)] [] [.float, .int] [] = some none := by
  refine ⟨?_, ?_, ?_, ?_⟩ <;> (unfold exVariadicResult; eval_run)

/-- With `g` exposed as `f`, integers are passed to `args`: this does not need a conversion to `double`. -/
example : exVariadicResult [] [lozenge ++ t%"expose_as(f)"] [.float] [] = some (some (2, [.object, .float], [], [])) ∧
    exVariadicResult [] [lozenge ++ t%"expose_as(f)"] [.int] [] = some (some (3, [.object], [.int], [])) ∧
    exVariadicResult [] [] [.int] [] = some (some (2, [.object, .int], [], [])) ∧
    exVariadicResult [] [lozenge ++ t%"expose_as(f)"] [.float] [(t%"z", .int)] = some none := by
  refine ⟨?_, ?_, ?_, ?_⟩ <;> (unfold exVariadicResult; eval_run)

example : VariadicParams (exVariadic [(t%"a", .args), (t%"k", .kwargs)] []) 2
    [{ id := 0, name := t%"y", default := some t%"1" }] true true where
  shape := ⟨[{ id := 0, name := t%"a", argsType := some .args }, { id := 0, name := t%"k", argsType := some .kwargs }],
    rfl, rfl⟩
  plain := by simp
  distinct := by
    intro j k p q hj hk _ _
    have h1 := (List.getElem?_eq_some_iff.1 hj).1
    have h2 := (List.getElem?_eq_some_iff.1 hk).1
    simp at h1 h2
    omega

end Verif
