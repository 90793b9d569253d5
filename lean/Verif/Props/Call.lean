import Verif.Lemmas.Call
import Verif.Props.Names
import Verif.Props.Signature
/-!
# C80: calls of exposed functions
-/
namespace Verif
open Spec

variable {V : Type}

theorem firstMatch_cons (P : PyValues V) (w : EmitWorld) (convert : Bool) (pos : List V) (kw : List (Str × V))
    (x : Nat) (ds : List Nat) (d : Nat) (given : List V) :
    FirstMatch P w convert pos kw (x :: ds) d given ↔
      x = d ∧ Matches P w convert pos kw d given ∨
        (∀ given', ¬ Matches P w convert pos kw x given') ∧ FirstMatch P w convert pos kw ds d given := by
  constructor
  · rintro ⟨pre, post, e, h1, h2⟩
    cases pre with
    | nil =>
      cases e
      exact .inl ⟨rfl, h1⟩
    | cons y pre =>
      cases e
      exact .inr ⟨h2 _ List.mem_cons_self, pre, post, rfl, h1, fun z hz => h2 z (List.mem_cons_of_mem _ hz)⟩
  · rintro (⟨rfl, h⟩ | ⟨h, pre, post, rfl, h1, h2⟩)
    · exact ⟨[], ds, rfl, h, by simp⟩
    · refine ⟨x :: pre, post, rfl, h1, fun z hz => ?_⟩
      rcases List.mem_cons.1 hz with rfl | hz
      · exact h
      · exact h2 z hz

/-- The record for an overload. -/
theorem overload_record (P : PyValues V) (w : EmitWorld) (m : Bool) (s : Stmt) (d : Nat)
    (h : IsOverload w s d) (ho : OrdinaryParams w d) :
    overloadOf s = some d ∧ ∃ args, WrittenArgs w d args ∧
      pyFunction P m s = some ⟨d, m, args.length + m.toNat, pyArgs P m args⟩ := by
  rcases h with ⟨isStatic, name, doc, args, policies, rfl, hs⟩ | ⟨doc, args, policies, rfl, hs⟩
  · have hw := writtenArgs hs ho
    refine ⟨rfl, args, hw, ?_⟩
    have hl : ((w.fn d).params.map (·.originalType)).length = args.length := by
      rw [hw.length, paramsOf, List.length_map, List.length_map]
    unfold pyFunction
    simp only [emitFunctionPointer, hl]
  · have hw := writtenArgs hs ho
    refine ⟨rfl, args, hw, ?_⟩
    have hl : ((w.fn d).params.map (·.originalType)).length = args.length := by
      rw [hw.length, paramsOf, List.length_map, List.length_map]
    unfold pyFunction
    simp only [hl]

/-- What an attempt to call an overload results in. -/
theorem attempt_overload (P : PyValues V) (w : EmitWorld) (s : Stmt) (d : Nat) (hs : IsOverload w s d)
    (ho : OrdinaryParams w d) (self : Option V) (pos : List V) (kw : List (Str × V)) (hk : Keywords kw)
    (hc : CalledFor P [d] kw self) :
    ∃ f, pyFunction P self.isSome s = some f ∧
      (∀ convert r, attempt P convert (self.toList ++ pos) kw f = some r ↔
        ∃ given, r = (d, self.toList ++ given) ∧ Matches P w convert pos kw d given) ∧
      (attempt P false (self.toList ++ pos) kw f = none → attempt P true (self.toList ++ pos) kw f ≠ none →
        worthAnother P (self.toList ++ pos) kw f = true) := by
  obtain ⟨_, args, hw, hf⟩ := overload_record P w self.isSome s d hs ho
  have hn : ∀ v, self = some v → P.isNone v = false ∧ P.loads d none false v = true :=
    fun v hv => ⟨hc.notNone v hv, hc.loads v hv d List.mem_cons_self⟩
  refine ⟨_, hf, ?_, worth_attempt P self pos kw d args hn hc.keyword⟩
  rintro convert ⟨d', L⟩
  rw [attempt_iff P hw ho self pos kw hk hn hc.keyword]
  constructor
  · rintro ⟨rfl, given, rfl, h⟩; exact ⟨given, rfl, h⟩
  · rintro ⟨given, e, h⟩
    cases e
    exact ⟨rfl, given, rfl, h⟩

theorem attempt_none (P : PyValues V) (w : EmitWorld) (self : Option V) (pos : List V) (kw : List (Str × V))
    (d : Nat) (f : PyFunction V) (convert : Bool)
    (h : ∀ r, attempt P convert (self.toList ++ pos) kw f = some r ↔
        ∃ given, r = (d, self.toList ++ given) ∧ Matches P w convert pos kw d given) :
    attempt P convert (self.toList ++ pos) kw f = none ↔ ∀ given, ¬ Matches P w convert pos kw d given := by
  constructor
  · intro hn given hg
    have := (h (d, self.toList ++ given)).2 ⟨given, rfl, hg⟩
    rw [hn] at this
    cases this
  · intro hg
    cases hr : attempt P convert (self.toList ++ pos) kw f with
    | none => rfl
    | some r =>
      obtain ⟨given, _, hm⟩ := (h r).1 hr
      exact absurd hm (hg given)

/-- The first of several overloads that can be called. -/
theorem first_overload (P : PyValues V) (w : EmitWorld) (self : Option V) (pos : List V)
    (kw : List (Str × V)) (hk : Keywords kw) (convert : Bool) (ss : List Stmt)
    (hs : ∀ s ∈ ss, ∃ d, IsOverload w s d) (ho : ∀ d ∈ ss.filterMap overloadOf, OrdinaryParams w d)
    (hc : CalledFor P (ss.filterMap overloadOf) kw self) (r : Nat × List V) :
    (ss.filterMap (pyFunction P self.isSome)).findSome? (attempt P convert (self.toList ++ pos) kw) = some r ↔
      ∃ d given, r = (d, self.toList ++ given) ∧
        FirstMatch P w convert pos kw (ss.filterMap overloadOf) d given := by
  induction ss with
  | nil =>
    constructor
    · intro h; cases h
    · rintro ⟨d, given, _, pre, post, h, _⟩
      simp at h
  | cons s ss ih =>
    obtain ⟨d, hd⟩ := hs s List.mem_cons_self
    have hod : overloadOf s = some d := by
      rcases hd with ⟨_, _, _, _, _, rfl, _⟩ | ⟨_, _, _, rfl, _⟩ <;> rfl
    rw [List.filterMap_cons_some hod] at ho hc ⊢
    obtain ⟨f, hf, ha, _⟩ := attempt_overload P w s d hd (ho d List.mem_cons_self) self pos kw hk
      ⟨hc.notNone, fun v hv x hx => hc.loads v hv x (by
        rw [List.mem_singleton.1 hx]; exact List.mem_cons_self), hc.keyword⟩
    rw [List.filterMap_cons_some hf, List.findSome?_cons]
    have ih := ih (fun s hs' => hs s (List.mem_cons_of_mem _ hs')) (fun x hx => ho x (List.mem_cons_of_mem _ hx))
      ⟨hc.notNone, fun v hv x hx => hc.loads v hv x (List.mem_cons_of_mem _ hx), hc.keyword⟩
    cases hr : attempt P convert (self.toList ++ pos) kw f with
    | none =>
      have hnone := (attempt_none P w self pos kw d f convert (ha convert)).1 hr
      dsimp only
      rw [ih]
      constructor
      · rintro ⟨x, given, e, h⟩
        exact ⟨x, given, e, (firstMatch_cons ..).2 (.inr ⟨hnone, h⟩)⟩
      · rintro ⟨x, given, e, h⟩
        rcases (firstMatch_cons ..).1 h with ⟨rfl, h⟩ | ⟨_, h⟩
        · exact absurd h (hnone given)
        · exact ⟨x, given, e, h⟩
    | some r' =>
      obtain ⟨given, e, hm⟩ := (ha convert r').1 hr
      dsimp only
      rw [Option.some.injEq]
      constructor
      · rintro rfl
        exact ⟨d, given, e, (firstMatch_cons ..).2 (.inl ⟨rfl, hm⟩)⟩
      · rintro ⟨x, given', e', h⟩
        rcases (firstMatch_cons ..).1 h with ⟨rfl, h⟩ | ⟨h, _⟩
        · have := (ha convert r).2 ⟨given', e', h⟩
          rw [hr] at this
          exact Option.some.inj this
        · exact absurd hm (h given)

theorem findSome_filter {α β : Type} (f : α → Option β) (p : α → Bool) (l : List α)
    (h : ∀ x ∈ l, f x ≠ none → p x = true) : (l.filter p).findSome? f = l.findSome? f := by
  induction l with
  | nil => rfl
  | cons x l ih =>
    have ih := ih fun y hy => h y (List.mem_cons_of_mem _ hy)
    cases hp : p x with
    | true => rw [List.filter_cons_of_pos hp, List.findSome?_cons, List.findSome?_cons, ih]
    | false =>
      rw [List.filter_cons_of_neg (by simp [hp]), List.findSome?_cons, ih]
      cases hf : f x with
      | none => rfl
      | some y =>
        have := h x List.mem_cons_self (by rw [hf]; simp)
        rw [hp] at this
        cases this

theorem matches_more (P : PyValues V) (w : EmitWorld) (pos : List V) (kw : List (Str × V)) (d : Nat)
    (given : List V) (h : Matches P w false pos kw d given) : Matches P w true pos kw d given := by
  refine ⟨h.1, fun k v hv => ?_⟩
  obtain ⟨h1, c, h2, h3⟩ := h.2 k v hv
  have hc : c = false := by
    cases c with
    | false => rfl
    | true => exact absurd (h2.1 rfl).1 (by simp)
  subst hc
  refine ⟨h1, ?_⟩
  by_cases hn : NamedIn w d .noconvert k
  · exact ⟨false, by simp [hn], h3⟩
  · exact ⟨true, by simp [hn], P.loads_more _ _ _ h3⟩

/-- C80: when exposed functions with the same name are called from Python, the first one that can
be called with these arguments without conversions is the one that is called, or else the
first one that can be called at all.  The values of its parameters are the positional
arguments, keyword arguments and default arguments, as in C++.  A parameter annotated with
`noconvert` is never converted, and one annotated with `required` is never `None`.  If there is no such
function, the call fails. -/
theorem C80_dispatch (P : PyValues V) (w : EmitWorld) (ss : List Stmt)
    (hs : ∀ s ∈ ss, ∃ d, IsOverload w s d) (ho : ∀ d ∈ ss.filterMap overloadOf, OrdinaryParams w d)
    (self : Option V) (pos : List V) (kw : List (Str × V)) (hk : Keywords kw)
    (hc : CalledFor P (ss.filterMap overloadOf) kw self) (r : Nat × List V) :
    dispatch P (ss.filterMap (pyFunction P self.isSome)) (self.toList ++ pos) kw = some r ↔
      ∃ d given, r = (d, self.toList ++ given) ∧ Resolved P w pos kw (ss.filterMap overloadOf) d given := by
  have hfirst := fun convert => first_overload P w self pos kw hk convert ss hs ho hc
  -- two attempts for all of them
  have hgeneral : (match (ss.filterMap (pyFunction P self.isSome)).findSome?
        (attempt P false (self.toList ++ pos) kw) with
      | some r => some r
      | none => ((ss.filterMap (pyFunction P self.isSome)).filter
          (worthAnother P (self.toList ++ pos) kw)).findSome? (attempt P true (self.toList ++ pos) kw)) = some r ↔
      ∃ d given, r = (d, self.toList ++ given) ∧ Resolved P w pos kw (ss.filterMap overloadOf) d given := by
    cases hr : (ss.filterMap (pyFunction P self.isSome)).findSome?
        (attempt P false (self.toList ++ pos) kw) with
    | some r' =>
      dsimp only
      constructor
      · intro h
        cases h
        obtain ⟨d, given, e, h⟩ := (hfirst false r).1 hr
        exact ⟨d, given, e, .inl h⟩
      · rintro ⟨d, given, e, h | ⟨h, _⟩⟩
        · rw [← hr, (hfirst false r).2 ⟨d, given, e, h⟩]
        · obtain ⟨d', given', _, pre, post, e', h', _⟩ := (hfirst false r').1 hr
          exact absurd h' (h d' (by rw [e']; simp) given')
    | none =>
      have hnone : ∀ d ∈ ss.filterMap overloadOf, ∀ given, ¬ Matches P w false pos kw d given := by
        intro d hd given hm
        obtain ⟨s, hs', hd'⟩ := List.mem_filterMap.1 hd
        obtain ⟨d2, hd2⟩ := hs s hs'
        have : d2 = d := by
          rcases hd2 with ⟨_, _, _, _, _, rfl, _⟩ | ⟨_, _, _, rfl, _⟩ <;> exact Option.some.inj hd'
        subst this
        obtain ⟨f, hf, ha, _⟩ := attempt_overload P w s d2 hd2 (ho d2 hd) self pos kw hk
          ⟨hc.notNone, fun v hv x hx => hc.loads v hv x (by rw [List.mem_singleton.1 hx]; exact hd), hc.keyword⟩
        have h1 := (ha false _).2 ⟨given, rfl, hm⟩
        have h2 := List.findSome?_eq_none_iff.1 hr f (List.mem_filterMap.2 ⟨s, hs', hf⟩)
        rw [h1] at h2
        cases h2
      dsimp only
      rw [findSome_filter]
      · rw [hfirst true]
        constructor
        · rintro ⟨d, given, e, h⟩
          exact ⟨d, given, e, .inr ⟨hnone, h⟩⟩
        · rintro ⟨d, given, e, h | ⟨_, h⟩⟩
          · obtain ⟨pre, post, e', h', _⟩ := h
            exact absurd h' (hnone d (by rw [e']; simp) given)
          · exact ⟨d, given, e, h⟩
      · intro f hf hne
        obtain ⟨s, hs', hf⟩ := List.mem_filterMap.1 hf
        obtain ⟨d, hd⟩ := hs s hs'
        have hmem : d ∈ ss.filterMap overloadOf := List.mem_filterMap.2 ⟨s, hs', by
          rcases hd with ⟨_, _, _, _, _, rfl, _⟩ | ⟨_, _, _, rfl, _⟩ <;> rfl⟩
        obtain ⟨f', hf', ha, hw⟩ := attempt_overload P w s d hd (ho d hmem) self pos kw hk
          ⟨hc.notNone, fun v hv x hx => hc.loads v hv x (by rw [List.mem_singleton.1 hx]; exact hmem), hc.keyword⟩
        rw [hf] at hf'
        cases hf'
        exact hw ((attempt_none P w self pos kw d f false (ha false)).2 (hnone d hmem)) hne
  match ss, hs, ho, hc, hfirst, hgeneral with
  | [], _, _, _, _, hgeneral => exact hgeneral
  | [s], hs, ho, hc, hfirst, _ =>
    obtain ⟨d, hd⟩ := hs s List.mem_cons_self
    have hod : overloadOf s = some d := by
      rcases hd with ⟨_, _, _, _, _, rfl, _⟩ | ⟨_, _, _, rfl, _⟩ <;> rfl
    have hds : [s].filterMap overloadOf = [d] := by rw [List.filterMap_cons_some hod]; rfl
    rw [hds] at ho hc ⊢
    obtain ⟨f, hf, ha, _⟩ := attempt_overload P w s d hd (ho d List.mem_cons_self) self pos kw hk hc
    have hfs : [s].filterMap (pyFunction P self.isSome) = [f] := by rw [List.filterMap_cons_some hf]; rfl
    rw [hfs]
    show attempt P true (self.toList ++ pos) kw f = some r ↔ _
    rw [ha true r]
    have hone : ∀ convert x given, FirstMatch P w convert pos kw [d] x given ↔
        d = x ∧ Matches P w convert pos kw x given := by
      intro convert x given
      rw [firstMatch_cons]
      constructor
      · rintro (h | ⟨_, pre, post, e, _⟩)
        · exact h
        · simp at e
      · exact .inl
    constructor
    · rintro ⟨given, e, hm⟩
      refine ⟨d, given, e, ?_⟩
      unfold Resolved
      by_cases h : ∃ given', Matches P w false pos kw d given'
      · obtain ⟨given', h⟩ := h
        have h1 := (ha true _).2 ⟨given', rfl, matches_more P w pos kw d given' h⟩
        have h2 := (ha true _).2 ⟨given, rfl, hm⟩
        rw [h1, Option.some.injEq, Prod.mk.injEq] at h2
        have : given' = given := List.append_cancel_left h2.2
        subst this
        exact .inl ((hone ..).2 ⟨rfl, h⟩)
      · refine .inr ⟨?_, (hone ..).2 ⟨rfl, hm⟩⟩
        intro x hx given' hg
        rw [List.mem_singleton.1 hx] at hg
        exact h ⟨given', hg⟩
    · rintro ⟨x, given, e, h | ⟨_, h⟩⟩
      · obtain ⟨rfl, h⟩ := (hone ..).1 h
        exact ⟨given, e, matches_more P w pos kw d given h⟩
      · obtain ⟨rfl, h⟩ := (hone ..).1 h
        exact ⟨given, e, h⟩
  | s :: s' :: ss, hs, ho, hc, _, hgeneral =>
    rw [← hgeneral]
    obtain ⟨d, hd⟩ := hs s List.mem_cons_self
    obtain ⟨d', hd'⟩ := hs s' (List.mem_cons_of_mem _ List.mem_cons_self)
    have h1 : ∃ f, pyFunction P self.isSome s = some f := by
      rcases hd with ⟨_, _, _, _, _, rfl, _⟩ | ⟨_, _, _, rfl, _⟩ <;> exact ⟨_, rfl⟩
    have h2 : ∃ f, pyFunction P self.isSome s' = some f := by
      rcases hd' with ⟨_, _, _, _, _, rfl, _⟩ | ⟨_, _, _, rfl, _⟩ <;> exact ⟨_, rfl⟩
    obtain ⟨f, h1⟩ := h1
    obtain ⟨f', h2⟩ := h2
    rw [List.filterMap_cons_some h1, List.filterMap_cons_some h2]
    rfl

theorem bound_unique (P : PyValues V) (ps : List Param) (pos : List V) (kw : List (Str × V))
    (hk : Keywords kw) (given given' : List V) (h : Bound P ps pos kw given) (h' : Bound P ps pos kw given') :
    given = given' := by
  apply List.ext_getElem (h.length.trans h'.length.symm)
  intro k h1 h2
  have hlt : k < ps.length := by rw [← h.length]; exact h1
  have e1 := h.values k _ _ (List.getElem?_eq_getElem hlt) (List.getElem?_eq_getElem h1)
  have e2 := h'.values k _ _ (List.getElem?_eq_getElem hlt) (List.getElem?_eq_getElem h2)
  rcases e1 with e1 | ⟨l1, e1⟩
  · rcases e2 with e2 | ⟨l2, _⟩
    · rw [e1] at e2
      exact Option.some.inj e2
    · rw [List.getElem?_eq_none l2] at e1
      cases e1
  · rcases e2 with e2 | ⟨_, e2⟩
    · rw [List.getElem?_eq_none l1] at e2
      cases e2
    · rcases e1 with e1 | ⟨n1, x, hx, e1⟩
      · rcases e2 with e2 | ⟨n2, _⟩
        · have h1 := (lookup_some_iff kw hk.distinct _ _).2 e1
          have h2 := (lookup_some_iff kw hk.distinct _ _).2 e2
          rw [h1] at h2
          exact Option.some.inj h2
        · exact absurd e1 (n2 _)
      · rcases e2 with e2 | ⟨_, y, hy, e2⟩
        · exact absurd e2 (n1 _)
        · rw [hx] at hy
          cases hy
          rw [e1, e2]

/-- For a function without overloads conversions are always possible. -/
theorem resolved_single (P : PyValues V) (w : EmitWorld) (pos : List V) (kw : List (Str × V))
    (hk : Keywords kw) (d x : Nat) (given : List V) :
    Resolved P w pos kw [d] x given ↔ x = d ∧ Matches P w true pos kw d given := by
  have hone : ∀ convert, FirstMatch P w convert pos kw [d] x given ↔
      x = d ∧ Matches P w convert pos kw d given := by
    intro convert
    rw [firstMatch_cons]
    constructor
    · rintro (⟨rfl, h⟩ | ⟨_, pre, post, e, _⟩)
      · exact ⟨rfl, h⟩
      · simp at e
    · rintro ⟨rfl, h⟩; exact .inl ⟨rfl, h⟩
  unfold Resolved
  rw [hone, hone]
  constructor
  · rintro (⟨rfl, h⟩ | ⟨_, h⟩)
    · exact ⟨rfl, matches_more P w pos kw x given h⟩
    · exact h
  · rintro ⟨rfl, h⟩
    by_cases h' : ∃ given', Matches P w false pos kw x given'
    · obtain ⟨given', h'⟩ := h'
      have := bound_unique P _ pos kw hk given given' h.1 h'.1
      subst this
      exact .inl ⟨rfl, h'⟩
    · refine .inr ⟨fun y hy given' hg => ?_, rfl, h⟩
      rw [List.mem_singleton.1 hy] at hg
      exact h' ⟨given', hg⟩

/-- C80: arguments for parameters with default arguments can be omitted, if the function is not
overloaded: as long as the values of the default arguments can be converted at all, and
these parameters are annotated neither with `noconvert` nor with `required`, the function is called
with the arguments that have been given, followed by the default arguments. -/
theorem C80_defaults_partial (P : PyValues V) (w : EmitWorld) (s : Stmt) (d : Nat) (hs : IsOverload w s d)
    (ho : OrdinaryParams w d) (self : Option V) (pos : List V) (hc : CalledFor P [d] [] self)
    (hl : pos.length ≤ (paramsOf w d).length)
    (hp : ∀ (k : Nat) v, pos[k]? = some v → Accepts P w d true k v)
    (hd : ∀ (k : Nat) p, pos.length ≤ k → (paramsOf w d)[k]? = some p →
      ∃ e, p.default = some e ∧ P.loads d (some k) true (P.object e) = true ∧
        ¬ NamedIn w d .noconvert k ∧ ¬ NamedIn w d .required k) :
    dispatch P ([s].filterMap (pyFunction P self.isSome)) (self.toList ++ pos) [] =
      some (d, self.toList ++ (pos ++ defaultsFrom P (paramsOf w d) pos.length)) := by
  have hod : [s].filterMap overloadOf = [d] := by
    rcases hs with ⟨_, _, _, _, _, rfl, _⟩ | ⟨_, _, _, rfl, _⟩ <;> rfl
  rw [C80_dispatch P w [s] (by simpa using ⟨d, hs⟩) (by rw [hod]; simpa using ho) self pos []
    ⟨by simp, by simp⟩ (by rw [hod]; exact hc), hod]
  refine ⟨d, _, rfl, (resolved_single P w pos [] ⟨by simp, by simp⟩ d d _).2 ⟨rfl, ?_⟩⟩
  have hval : ∀ (k : Nat) p v, (paramsOf w d)[k]? = some p →
      (pos ++ defaultsFrom P (paramsOf w d) pos.length)[k]? = some v →
      pos[k]? = some v ∨ pos.length ≤ k ∧ ∃ e, p.default = some e ∧ v = P.object e := by
    intro k p v hk hv
    by_cases hlt : k < pos.length
    · rw [List.getElem?_append_left hlt] at hv
      exact .inl hv
    · have hle := Nat.not_lt.1 hlt
      rw [List.getElem?_append_right hle] at hv
      unfold defaultsFrom at hv
      rw [List.getElem?_map, List.getElem?_drop, show pos.length + (k - pos.length) = k by omega, hk] at hv
      simp only [Option.map_some, Option.some.injEq] at hv
      obtain ⟨e, he, _⟩ := hd k p hle hk
      rw [he] at hv
      exact .inr ⟨hle, e, he, hv.symm⟩
  have hlen : (pos ++ defaultsFrom P (paramsOf w d) pos.length).length = (paramsOf w d).length := by
    simp [defaultsFrom]
    omega
  refine ⟨⟨hlen, hl, ?_, by simp⟩, ?_⟩
  · intro k p v hk hv
    rcases hval k p v hk hv with h | ⟨h, h'⟩
    · exact .inl h
    · exact .inr ⟨h, .inr ⟨by simp, h'⟩⟩
  · intro k v hv
    have hlt : k < (paramsOf w d).length := by
      rw [← hlen]; exact (List.getElem?_eq_some_iff.1 hv).1
    rcases hval k _ v (List.getElem?_eq_getElem hlt) hv with h | ⟨h, e, he, rfl⟩
    · exact hp k v h
    · obtain ⟨e', he', h1, h2, h3⟩ := hd k _ h (List.getElem?_eq_getElem hlt)
      rw [he] at he'
      cases he'
      exact ⟨fun h => absurd h h3, true, by simp [h2], h1⟩

/-! ### Whole runs -/

/-- Where the overloads of an attribute come from. -/
theorem run_origin (mro : List Str → List (List Str)) (L : List Definition) (l : List Definition) :
    ∀ (names st : PyNames), PyNames.run mro names l = .ok st → (∀ d ∈ l, d ∈ L) →
    (∀ o n m ss, names o n = some (.functions m ss) → ∀ s ∈ ss, ∃ d ∈ L, d.object = o ∧ d.name = n ∧
      d.what = .function m ∧ d.stmt = s) →
    ∀ o n m ss, st o n = some (.functions m ss) → ∀ s ∈ ss, ∃ d ∈ L, d.object = o ∧ d.name = n ∧
      d.what = .function m ∧ d.stmt = s := by
  induction l with
  | nil =>
    intro names st h _ hn
    cases h
    exact hn
  | cons d l ih =>
    intro names st h hl hn
    unfold PyNames.run at h
    split at h
    · rename_i names' hd
      refine ih names' st h (fun x hx => hl x (List.mem_cons_of_mem _ hx)) ?_
      have hdL := hl d List.mem_cons_self
      -- a single function
      have hone : ∀ m, d.what = .function m →
          ∀ o n m' ss, names.set d.object d.name (.functions m [d.stmt]) o n = some (.functions m' ss) →
          ∀ s ∈ ss, ∃ d ∈ L, d.object = o ∧ d.name = n ∧ d.what = .function m' ∧ d.stmt = s := by
        intro m hm o n m' ss h s hs
        unfold PyNames.set at h
        split at h
        · rename_i hon
          cases h
          rw [List.mem_singleton.1 hs]
          exact ⟨d, hdL, hon.1.symm, hon.2.symm, hm, rfl⟩
        · exact hn o n m' ss h s hs
      -- anything else
      have hdata : ∀ what, ∀ o n m' ss, names.set d.object d.name (.data what d.stmt) o n =
          some (.functions m' ss) →
          ∀ s ∈ ss, ∃ d ∈ L, d.object = o ∧ d.name = n ∧ d.what = .function m' ∧ d.stmt = s := by
        intro what o n m' ss h s hs
        unfold PyNames.set at h
        split at h
        · cases h
        · exact hn o n m' ss h s hs
      unfold PyNames.define at hd
      split at hd
      · rename_i m hm
        split at hd
        · rename_i m' ov hov
          split at hd
          · rename_i he
            cases hd
            subst he
            intro o n m' ss h s hs
            unfold PyNames.set at h
            split at h
            · rename_i hon
              cases h
              rcases List.mem_append.1 hs with hs | hs
              · obtain ⟨rfl, rfl⟩ := hon
                exact hn _ _ _ _ hov s hs
              · rw [List.mem_singleton.1 hs]
                exact ⟨d, hdL, hon.1.symm, hon.2.symm, hm, rfl⟩
            · exact hn o n m' ss h s hs
          · cases hd
        · split at hd
          · cases hd; exact hone m hm
          · cases hd; exact hone m hm
          · split at hd
            · cases hd
            · split at hd
              · cases hd
              · cases hd; exact hone m hm
      · cases hd; exact hdata _
      · split at hd
        · cases hd
        · split at hd
          · cases hd
          · cases hd; exact hdata _
        · cases hd; exact hdata _
    · cases h

/-- Functions are not copied from elsewhere. -/
theorem definitions_functions (isClass : List Str → Bool) (l before : List Execution) (d : Definition)
    (h : d ∈ definitions isClass before l) (m : Bool) (hm : d.what = .function m) :
    ∃ e ∈ l, definedBy isClass e.object e.stmt = some d := by
  induction l generalizing before with
  | nil => cases h
  | cons e l ih =>
    unfold definitions at h
    rcases List.mem_append.1 h with h | h
    · rcases List.mem_append.1 h with h | h
      · exact ⟨e, List.mem_cons_self, by simpa using h⟩
      · unfold exportedBy at h
        split at h
        · obtain ⟨b, _, hb⟩ := List.mem_filterMap.1 h
          split at hb
          · split at hb
            · cases hb; cases hm
            · cases hb
          · cases hb
        · cases h
    · obtain ⟨e', he', h⟩ := ih _ h
      exact ⟨e', List.mem_cons_of_mem _ he', h⟩

/-- What is executed for an exposed function or constructor is for its own parameters. -/
theorem executed_overload (i : ToolInput) (ok : InputOK i) (lk : LookupOK i.world)
    (re : Reopening i.world.toWorld) (hu : NoBareReopening i.world.toWorld i.tree)
    (name : Str) (g : Graph) (b : Building) (order : List Nat) (place : Nat → List Str)
    (pl : Placement i name g b order place) (e : Execution) (he : e ∈ executed i name g b order place)
    (d : Nat) (hd : overloadOf e.stmt = some d) : IsOverload i.world e.stmt d := by
  have hder := derived_built i.world i.tree ok.unit g b pl.graph
  obtain ⟨x, hx, _, hst⟩ := (executed_iff i.world b.storage _ order place
    (fun s => if (overloadOf s).isSome then some s else none) (fun _ _ => rfl) e.object e.stmt).1
    ⟨e, he, rfl, by rw [if_pos (by rw [hd]; rfl)]⟩
  obtain ⟨s, hs, hse⟩ := List.mem_filterMap.1 hst
  split at hse
  · cases hse
    have hk : (i.world.info x).kind ≠ .enum → Exposer.create i.world b.storage x ≠ .enum x := fun hk h =>
      hk ((create_kind i.world b.storage x).1 x h).2
    have hnot : (i.world.info x).kind ≠ .enum → ∀ y, Exposer.create i.world b.storage x ≠ .enum y :=
      fun hk y h => hk ((create_kind i.world b.storage x).1 y h).2
    cases hs' : e.stmt with
    | function d' isStatic python p doc args policies =>
      rw [hs'] at hs hd
      cases hd
      have hkind := ((functions_of_context i.world ok.emit lk b.storage hder _ x d isStatic python p).1
        (List.mem_filterMap.2 ⟨_, hs, rfl⟩)).1
      have hp := ((C71_functions i ok lk re hu name g b order place pl e.object d isStatic python p).1
        ⟨e, he, rfl, by rw [hs']; rfl⟩).2.2.2
      subst hp
      exact .inl ⟨isStatic, python, doc, args, policies, rfl,
        C66_function i.world ok.emit b.storage hder _ _ (hnot hkind) x d _ _ _ _ _ _ hs⟩
    | init d' types doc args policies =>
      rw [hs'] at hs hd
      cases hd
      have ht := ((C71_constructors i ok lk re hu name g b order place pl e.object d types).1
        ⟨e, he, rfl, by rw [hs']; rfl⟩).2
      subst ht
      have hkind : (i.world.info x).kind = .record := by
        apply Classical.byContradiction
        intro hk
        have := only_classes i.world ok.emit b.storage
          (analyze i.world.toWorld b.storage i.members name g).vis initOf (fun _ _ _ _ _ => rfl) rfl rfl
          (by
            intro a d
            unfold handleDeclGeneric
            repeat' (first | rfl | split | (dsimp only; split))) x hk
        have h' : (d, (i.world.fn d).params.map (·.originalType)) ∈
            (exposeContext i.world (analyze i.world.toWorld b.storage i.members name g).vis b.storage
              (Exposer.create i.world b.storage x) x).emitted.stmts.filterMap initOf :=
          List.mem_filterMap.2 ⟨_, hs, rfl⟩
        rw [this] at h'
        cases h'
      exact .inr ⟨doc, args, policies, rfl,
        C66_constructor i.world ok.emit b.storage hder _ _ (hnot (by rw [hkind]; decide)) x d _ _ _ _ hs⟩
    | _ => rw [hs'] at hd; cases hd
  · cases hse

/-- C80: for whole runs.  Whenever an attribute of an object of the imported module consists of
exposed functions or constructors only, calls are resolved among them as expected, in the order
of their definitions; all of them are offered by a context that belongs to this object. -/
theorem C80_run (o : ToolOptions) (i : ToolInput) (ok : InputOK i) (lk : LookupOK i.world)
    (re : Reopening i.world.toWorld) (hu : NoBareReopening i.world.toWorld i.tree) (files : Files)
    (r : ToolResult) (hr : runTool o i files = some r) (hx : o.expectFailure = false) (h0 : r.exitCode = 0)
    (hnd : o.outputFiles.Nodup) :
    ∃ name g b order place, moduleNameFor o.moduleName i.mainFile = some name ∧
      Placement i name g b order place ∧
      ∃ lines : List (List Line), lines.length = o.outputFiles.length ∧
        (∀ (k : Nat) path ls, o.outputFiles[k]? = some path → lines[k]? = some ls →
          (path ≠ ['-'] → r.files path = some (fileText i ls)) ∧
          (path = ['-'] → r.printed = [fileText i ls])) ∧
        ∀ st, importModule lines = .ok st → ∀ mro names,
          PyNames.run mro (.start (st.types.map (·.2)) st.modules)
            (definitions (fun x => decide (x ∈ st.types.map (·.2))) [] st.executed) = .ok names →
          ∀ object n m overloads, names object n = some (.functions m overloads) →
          (∀ s ∈ overloads, overloadOf s ≠ none) →
          (∀ d ∈ overloads.filterMap overloadOf,
            ∃ x, Fills i.world.toWorld b.storage i.members name g place x object ∧
              Offers i.world b.storage g x d ∧
              (FunctionIn i.world b.storage x d ∧ n = pythonName i.world b.storage d ∨
                callable i.world x d = true ∧ n = t%"__init__")) ∧
          ((∀ d ∈ overloads.filterMap overloadOf, OrdinaryParams i.world d) →
            ∀ (V : Type) (P : PyValues V) (self : Option V) (pos : List V) (kw : List (Str × V)),
            self.isSome = m → Keywords kw → CalledFor P (overloads.filterMap overloadOf) kw self →
            ∀ result, dispatch P (overloads.filterMap (pyFunction P m)) (self.toList ++ pos) kw = some result ↔
              ∃ d given, result = (d, self.toList ++ given) ∧
                Resolved P i.world pos kw (overloads.filterMap overloadOf) d given) := by
  obtain ⟨name, g, b, order, place, hn, hb, hv, hp, lines, h1, h2, _, h4⟩ :=
    C69_module o i ok files r hr hx h0 hnd
  have pl : Placement i name g b order place := ⟨hb, hv, hp⟩
  refine ⟨name, g, b, order, place, hn, pl, lines, h1, h2, ?_⟩
  intro st hst mro names hrun object n m overloads hattr hall
  rw [show st.executed = executed i name g b order place from (h4 st hst).1] at hrun
  -- every overload has been executed
  have horigin : ∀ s ∈ overloads, ∃ e ∈ executed i name g b order place, e.object = object ∧ e.stmt = s ∧
      definedBy (fun x => decide (x ∈ st.types.map (·.2))) object s = some ⟨object, n, .function m, s⟩ := by
    intro s hs
    obtain ⟨d, hd, rfl, rfl, hw, rfl⟩ := run_origin mro _ _ _ _ hrun (fun _ h => h)
      (by
        intro o n m ss h
        rcases start_cases _ _ _ _ _ h with h | h <;> cases h) object n m overloads hattr s hs
    obtain ⟨e, he, hde⟩ := definitions_functions _ _ _ d hd m hw
    have hobj : e.object = d.object ∧ e.stmt = d.stmt := by
      unfold definedBy at hde
      split at hde <;> cases hde <;> exact ⟨rfl, by first | rfl | assumption⟩
    refine ⟨e, he, hobj.1, hobj.2, ?_⟩
    rw [← hobj.1, ← hobj.2, hde, hobj.1, hobj.2, ← hw]
  refine ⟨?_, ?_⟩
  · intro d hd
    obtain ⟨s, hs, hsd⟩ := List.mem_filterMap.1 hd
    obtain ⟨e, he, ho, rfl, hdef⟩ := horigin s hs
    rcases executed_overload i ok lk re hu name g b order place pl e he d hsd with
      ⟨isStatic, python, doc, args, policies, hst', _⟩ | ⟨doc, args, policies, hst', _⟩
    · obtain ⟨⟨x, hx1, _, hx2, hx3⟩, _, hpy, _⟩ :=
        (C71_functions i ok lk re hu name g b order place pl object d isStatic python _).1
          ⟨e, he, ho, by rw [hst']; rfl⟩
      refine ⟨x, hx1, hx2, .inl ⟨hx3, ?_⟩⟩
      rw [hst'] at hdef
      simp only [definedBy, Option.some.injEq, Definition.mk.injEq] at hdef
      rw [← hdef.2.1, hpy]
    · obtain ⟨⟨x, hx1, _, hx2, hx3⟩, _⟩ :=
        (C71_constructors i ok lk re hu name g b order place pl object d _).1
          ⟨e, he, ho, by rw [hst']; rfl⟩
      refine ⟨x, hx1, hx2, .inr ⟨hx3, ?_⟩⟩
      rw [hst'] at hdef
      simp only [definedBy, Option.some.injEq, Definition.mk.injEq] at hdef
      exact hdef.2.1.symm
  · intro hord V P self pos kw hm hk hc result
    subst hm
    refine C80_dispatch P i.world overloads ?_ hord self pos kw hk hc result
    intro s hs
    obtain ⟨e, he, _, rfl, _⟩ := horigin s hs
    cases hd : overloadOf e.stmt with
    | none => exact absurd hd (hall _ hs)
    | some d => exact ⟨d, executed_overload i ok lk re hu name g b order place pl e he d hd⟩

/-! ### Examples -/

/-- Some values of Python. -/
inductive ExValue where
  | none | int | float | object
  deriving DecidableEq, Repr

/-- A parameter of type `double`, or of a pointer type if the function is number 3.  Integers can
be converted to `double`. -/
def exValues : PyValues ExValue where
  isNone := fun v => decide (v = .none)
  loads := fun fn param convert v => match param, v with
    | none, .object => true
    | some _, .float => decide (fn ≠ 3)
    | some _, .int => decide (fn ≠ 3) && convert
    | some _, .object => decide (fn = 3)
    | some _, .none => decide (fn = 3)
    | _, _ => false
  object := fun e => if e = t%"1" then .int else if e = t%"nullptr" then .none else .float
  loads_more := by
    intro fn param v
    cases param <;> cases v <;> simp

/-- `struct visible 1 { int 2(double n = value); int 3(S *x = nullptr); };` where the methods have
these annotations. -/
def exCall (f g : List Str) (n : Str) (value : Option Str) : EmitWorld := { exUnit with
  info := fun
    | 2 => { kind := .method, name := t%"f", params := [n], minRequired := if value.isSome then 0 else 1
             attrTexts := f }
    | 3 => { kind := .method, name := t%"g", params := [t%"x"], attrTexts := g }
    | x => exUnit.info x
  fn := fun
    | 2 => { exPlain t%"S::f" 0 with
             params := [⟨{ id := 0, name := n, default := value }, { text := t%"double" }, t%"double"⟩] }
    | 3 => { exPlain t%"S::g" 0 with
             params := [⟨{ id := 0, name := t%"x", default := some t%"nullptr" }, { text := t%"S *" }, t%"S *"⟩] }
    | x => exUnit.fn x }

def exCallInput (f g : List Str) (n : Str) (value : Option Str) : ToolInput := { exInput with
  world := exCall f g n value
  pick := fun _ => lastSmallest (exCall f g n value).loc }

/-- The result of a call of attribute `a` of `S`, for some instance of it. -/
def exCallResult (f g : List Str) (n : Str) (value : Option Str) (a : Str) (pos : List ExValue)
    (kw : List (Str × ExValue)) : Option (Option (Nat × List ExValue)) :=
  let w := exCall f g n value
  let i := exCallInput f g n value
  let b := buildGraph w.toWorld i.tree
  match b.1 with
  | none => none
  | some graph =>
    let a' := analyze w.toWorld b.2.storage i.members t%"my_lib" graph
    let m := emitModule w b.2.storage a'.pruned a'.vis i.pick a'.pruned.nodes 1 t%"my_lib"
    match importModule [m.stream 0] with
    | .error _ => none
    | .ok st =>
      match PyNames.run (fun _ => []) (.start (st.types.map (·.2)) st.modules)
          (definitions (fun x => decide (x ∈ st.types.map (·.2))) [] st.executed) with
      | .error _ => none
      | .ok names => match names [t%"S"] a with
        | some (.functions true l) =>
          some (dispatch exValues (l.filterMap (pyFunction exValues true)) (.object :: pos) kw)
        | _ => none

/-- What the tool reports for the example. -/
def exCallDiags (f g : List Str) (n : Str) (value : Option Str) : List Diag :=
  (handleTranslationUnit (exCallInput f g n value) t%"my_lib" [t%"/a"]).diags

/-- Rewrites a run to a form that can be evaluated. -/
local macro "eval_run" : tactic => `(tactic| (
  simp only [handleTranslationUnit, emitModule, findEnclosingScopes, analyze, pruneGraph, hideNamespaces,
    declContextsWithVisibleNamedDecls, deriveEffectiveVisibility, dfs_fuel]
  decide +kernel))

/-- Arguments can be given by position or name or be omitted; integers are converted. -/
example : exCallResult [] [] t%"y" (some t%"1") t%"f" [.float] [] = some (some (2, [.object, .float])) ∧
    exCallResult [] [] t%"y" (some t%"1") t%"f" [] [(t%"y", .int)] = some (some (2, [.object, .int])) ∧
    exCallResult [] [] t%"y" (some t%"1") t%"f" [] [] = some (some (2, [.object, .int])) ∧
    exCallResult [] [] t%"y" (some t%"1") t%"f" [.float] [(t%"y", .int)] = some none ∧
    exCallResult [] [] t%"y" (some t%"1") t%"f" [] [(t%"z", .int)] = some none := by
  refine ⟨?_, ?_, ?_, ?_, ?_⟩ <;> (unfold exCallResult; eval_run)

/-- Overloads: the second one takes pointers. -/
example : exCallResult [] [lozenge ++ t%"expose_as(f)"] t%"y" none t%"f" [.int] [] =
      some (some (2, [.object, .int])) ∧
    exCallResult [] [lozenge ++ t%"expose_as(f)"] t%"y" none t%"f" [.object] [] =
      some (some (3, [.object, .object])) ∧
    exCallResult [] [lozenge ++ t%"expose_as(f)"] t%"y" none t%"f" [] [] =
      some (some (3, [.object, .none])) := by
  refine ⟨?_, ?_, ?_⟩ <;> (unfold exCallResult; eval_run)

/-- C80: the default argument of a parameter annotated with `noconvert` is not converted either:
if it has another type, it cannot be omitted.  Nothing is reported. -/
theorem C80_noconvert_default :
    exCallDiags [lozenge ++ t%"noconvert(y)"] [lozenge ++ t%"visible"] t%"y" (some t%"1") = [] ∧
    exCallResult [lozenge ++ t%"noconvert(y)"] [lozenge ++ t%"visible"] t%"y" (some t%"1") t%"f" [] [] = some none ∧
    exCallResult [lozenge ++ t%"noconvert(y)"] [lozenge ++ t%"visible"] t%"y" (some t%"1.0") t%"f" [] [] =
      some (some (2, [.object, .float])) := by
  refine ⟨?_, ?_, ?_⟩
  · unfold exCallDiags
    eval_run
  all_goals (unfold exCallResult; eval_run)

/-- C80: neither can that of a parameter annotated with `required`, if it is a null pointer. -/
theorem C80_required_default :
    exCallDiags [] [lozenge ++ t%"required(x)"] t%"y" none = [] ∧
    exCallResult [] [lozenge ++ t%"required(x)"] t%"y" none t%"g" [] [] = some none ∧
    exCallResult [] [lozenge ++ t%"visible"] t%"y" none t%"g" [] [] = some (some (3, [.object, .none])) := by
  refine ⟨?_, ?_, ?_⟩
  · unfold exCallDiags
    eval_run
  all_goals (unfold exCallResult; eval_run)

/-- C80: an argument for a parameter called `self` cannot be given by name. -/
theorem C80_self :
    exCallDiags [] [] t%"self" none = [] ∧
    exCallResult [] [] t%"self" none t%"f" [] [(t%"self", .float)] = some none ∧
    exCallResult [] [] t%"y" none t%"f" [] [(t%"y", .float)] = some (some (2, [.object, .float])) := by
  refine ⟨?_, ?_, ?_⟩
  · unfold exCallDiags
    eval_run
  all_goals (unfold exCallResult; eval_run)

/-- The hypotheses are met by a function with an annotation `noconvert(x)`, called with an
argument by name. -/
example : IsOverload exDoc (.function 33 false t%"f" (emitFunctionPointer exDoc 33) t%"Text."
    [⟨t%"x", true, false, none⟩] [.returnValuePolicy t%"move"]) 33 :=
  .inl ⟨_, _, _, _, _, rfl,
    C66_function exDoc exDoc_ok .empty (empty_derived _) exAll .plain (by simp) 0 _ _ _ _ _ _ _ exDoc_stmt⟩

example : OrdinaryParams exDoc 33 where
  plain := by decide +kernel
  distinct := by
    have : paramsOf exDoc 33 = [{ id := 0, name := t%"x" }] := by decide +kernel
    rw [this]
    intro j k p q hj hk
    have hj := (List.getElem?_eq_some_iff.1 hj).1
    have hk := (List.getElem?_eq_some_iff.1 hk).1
    simp at hj hk
    omega

example : Keywords [(t%"x", ExValue.float)] := ⟨by simp, by simp⟩

example : CalledFor exValues [2, 3] [(t%"x", .float)] (some .object) :=
  ⟨by simp [exValues], by simp [exValues], by simp⟩

example : CalledFor exValues [33] [(t%"x", .float)] none := ⟨by simp, by simp, by simp⟩

/-- Functions called with the default arguments only. -/
example : defaultsFrom exValues (paramsOf (exCall [] [] t%"y" (some t%"1")) 2) 0 = [.int] := by decide +kernel

end Verif
