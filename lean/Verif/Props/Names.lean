import Verif.Spec.Names
import Verif.Props.Members
/-!
# C73: the attributes of the objects of an imported module
-/
namespace Verif
open Spec

theorem start_cases (types modules : List (List Str)) (o : List Str) (n : Str) (a : Attribute)
    (h : PyNames.start types modules o n = some a) : a = .type ∨ a = .module := by
  unfold PyNames.start at h
  split at h
  · exact .inl (Option.some.inj h).symm
  · split at h
    · exact .inr (Option.some.inj h).symm
    · cases h

theorem mem_definitionsOf (l : List Definition) (o : List Str) (n : Str) (d : Definition) :
    d ∈ definitionsOf l o n ↔ d ∈ l ∧ d.object = o ∧ d.name = n := by
  simp [definitionsOf]

/-- Something that is defined by one of the definitions. -/
theorem expected_defined (types modules : List (List Str)) (l : List Definition) (o : List Str) (n : Str)
    (a : Attribute) (h : expectedNames (.start types modules) l o n = some a) :
    (PyNames.start types modules o n = some a ∧ (a = .type ∨ a = .module)) ∨
      PyNames.start types modules o n = none ∧ ∃ d ∈ l, d.object = o ∧ d.name = n ∧
        ((∃ m ds, d.what = .function m ∧ a = .functions m ds) ∨
          (¬ d.isFunction) ∧ a = .data d.what d.stmt) := by
  unfold expectedNames at h
  cases hs : PyNames.start types modules o n with
  | some b =>
    rw [hs] at h
    cases h
    exact .inl ⟨rfl, start_cases types modules o n _ hs⟩
  | none =>
    rw [hs] at h
    refine .inr ⟨rfl, ?_⟩
    cases hd : definitionsOf l o n with
    | nil => rw [hd] at h; cases h
    | cons d ds =>
      rw [hd] at h
      dsimp only at h
      obtain ⟨h1, h2, h3⟩ := (mem_definitionsOf l o n d).1 (hd ▸ List.mem_cons_self)
      refine ⟨d, h1, h2, h3, ?_⟩
      cases hw : d.what with
      | function m => rw [hw] at h; exact .inl ⟨m, _, rfl, (Option.some.inj h).symm⟩
      | _ =>
        rw [hw] at h
        exact .inr ⟨(by rintro ⟨m, hm⟩; rw [hw] at hm; cases hm), (Option.some.inj h).symm⟩

theorem definitionsOf_append (l : List Definition) (d : Definition) (o : List Str) (n : Str) :
    definitionsOf (l ++ [d]) o n =
      definitionsOf l o n ++ if d.object = o ∧ d.name = n then [d] else [] := by
  unfold definitionsOf
  rw [List.filter_append]
  congr 1
  by_cases h : d.object = o ∧ d.name = n
  · simp [h]
  · rw [if_neg h]
    simp only [List.filter_cons, List.filter_nil]
    rw [if_neg (by simpa using h)]

/-- The attribute before the definition is executed. -/
theorem expected_before (start : PyNames) (l : List Definition) (d : Definition)
    (hn : ∀ d' ∈ l, d'.object = d.object → d'.name = d.name →
      d' = d ∨ ∃ m, d'.what = .function m ∧ d.what = .function m)
    (hf : start d.object d.name = none) :
    (definitionsOf l d.object d.name = [] ∧ expectedNames start l d.object d.name = none) ∨
      (∃ m, d.what = .function m ∧ definitionsOf l d.object d.name ≠ [] ∧
        expectedNames start l d.object d.name =
          some (.functions m ((definitionsOf l d.object d.name).map (·.stmt)))) ∨
      (¬ d.isFunction) ∧ d ∈ l ∧ (definitionsOf l d.object d.name).head? = some d ∧
        expectedNames start l d.object d.name = some (.data d.what d.stmt) := by
  unfold expectedNames
  rw [hf]
  cases hd : definitionsOf l d.object d.name with
  | nil => exact .inl ⟨rfl, rfl⟩
  | cons d' ds =>
    obtain ⟨h1, h2, h3⟩ := (mem_definitionsOf l _ _ d').1 (hd ▸ List.mem_cons_self)
    rcases hn d' h1 h2 h3 with rfl | ⟨m, h4, h5⟩
    · cases hw : d'.what with
      | function m => exact .inr (.inl ⟨m, rfl, by simp, by simp [hw]⟩)
      | _ =>
        refine .inr (.inr ⟨?_, h1, by simp, by simp [hw]⟩)
        rintro ⟨m, hm⟩
        rw [hw] at hm
        cases hm
    · exact .inr (.inl ⟨m, h5, by simp, by simp [h4]⟩)

/-- The attributes after one more definition. -/
theorem expected_append (start : PyNames) (l : List Definition) (d : Definition) (a : Attribute)
    (ha : expectedNames start (l ++ [d]) d.object d.name = some a) :
    expectedNames start (l ++ [d]) = (expectedNames start l).set d.object d.name a := by
  funext o n
  unfold PyNames.set
  split
  · rename_i h
    rw [h.1, h.2, ha]
  · rename_i h
    have : definitionsOf (l ++ [d]) o n = definitionsOf l o n := by
      rw [definitionsOf_append, if_neg (fun e => h ⟨e.1.symm, e.2.symm⟩), List.append_nil]
    simp only [expectedNames, this]

theorem findSome_none {α β : Type} (f : α → Option β) (l : List α) (h : ∀ x ∈ l, f x = none) :
    l.findSome? f = none := by
  rw [List.findSome?_eq_none_iff]
  exact h

/-- One more definition is executed as expected. -/
theorem define_expected (mro : List Str → List (List Str)) (types modules : List (List Str))
    (l : List Definition) (d : Definition)
    (hc : NoClash mro (.start types modules) (l ++ [d])) :
    (expectedNames (.start types modules) l).define mro d =
      .ok (expectedNames (.start types modules) (l ++ [d])) := by
  have hf := hc.fresh d (by simp)
  have hn : ∀ d' ∈ l, d'.object = d.object → d'.name = d.name →
      d' = d ∨ ∃ m, d'.what = .function m ∧ d.what = .function m :=
    fun d' h => hc.names d' (by simp [h]) d (by simp)
  have hb := expected_before _ l d hn hf
  -- what is found in bases
  have hbase : ∀ b ∈ mro d.object, ∀ a, expectedNames (.start types modules) l b d.name = some a →
      (d.isFunction → isPrivateName d.name = false → ∃ m ds, a = .functions m ds) ∧
      (d.what ≠ .staticData → ∀ s, a ≠ .data .staticData s) := by
    intro b hb a ha
    rcases expected_defined types modules l b d.name a ha with ⟨hs, hk⟩ | ⟨hs, d', h1, h2, h3, h4⟩
    · refine ⟨fun hi hp => ?_, fun _ s e => by subst e; rcases hk with e | e <;> cases e⟩
      have := (hc.functions d (by simp) hi hp b hb).1
      rw [hs] at this
      cases this
    · refine ⟨fun hi hp => ?_, fun hd s e => ?_⟩
      · rcases h4 with ⟨m, ds, _, e⟩ | ⟨hnf, _⟩
        · exact ⟨m, ds, e⟩
        · exact absurd ((hc.functions d (by simp) hi hp b hb).2 d' (by simp [h1]) h2 h3) hnf
      · rcases h4 with ⟨m, ds, _, e'⟩ | ⟨_, e'⟩
        · rw [e'] at e; cases e
        · rw [e'] at e
          exact hc.statics d (by simp) hd b hb d' (by simp [h1]) h2 h3 (Attribute.data.inj e).1
  have hown : ∀ m, d.what = .function m → expectedNames (.start types modules) (l ++ [d]) d.object d.name =
      some (.functions m ((definitionsOf l d.object d.name).map (·.stmt) ++ [d.stmt])) := by
    intro m hm
    unfold expectedNames
    rw [hf, definitionsOf_append, if_pos ⟨rfl, rfl⟩]
    cases hd : definitionsOf l d.object d.name with
    | nil => simp [hm]
    | cons d' ds =>
      obtain ⟨h1, h2, h3⟩ := (mem_definitionsOf l _ _ d').1 (hd ▸ List.mem_cons_self)
      rcases hn d' h1 h2 h3 with rfl | ⟨m', h4, h5⟩
      · simp [hm]
      · rw [hm] at h5
        cases h5
        simp [h4]
  have hown' : (¬ d.isFunction) → (definitionsOf l d.object d.name = [] ∨
        (definitionsOf l d.object d.name).head? = some d) →
      expectedNames (.start types modules) (l ++ [d]) d.object d.name = some (.data d.what d.stmt) := by
    intro hnf he
    unfold expectedNames
    rw [hf, definitionsOf_append, if_pos ⟨rfl, rfl⟩]
    have : ∃ ds, definitionsOf l d.object d.name ++ [d] = d :: ds := by
      rcases he with he | he
      · exact ⟨[], by rw [he]; rfl⟩
      · cases hd : definitionsOf l d.object d.name with
        | nil => rw [hd] at he; cases he
        | cons c cs => rw [hd] at he; cases he; exact ⟨_, rfl⟩
    obtain ⟨ds, hds⟩ := this
    rw [hds]
    cases hw : d.what with
    | function m => exact absurd ⟨m, hw⟩ hnf
    | _ => simp [hw]
  -- what is found at all, if the object itself has no such attribute
  have hfind : expectedNames (.start types modules) l d.object d.name = none →
      ∀ a, (expectedNames (.start types modules) l).find mro d.object d.name = some a →
        ∃ b ∈ mro d.object, expectedNames (.start types modules) l b d.name = some a := by
    intro he a ha
    unfold PyNames.find at ha
    rw [List.findSome?_cons, he] at ha
    obtain ⟨b, h1, h2⟩ := List.exists_of_findSome?_eq_some ha
    exact ⟨b, h1, h2⟩
  cases hw : d.what with
  | function m =>
    rw [expected_append _ l d _ (hown m hw)]
    unfold PyNames.define
    rw [hw]
    rcases hb with ⟨he, hno⟩ | ⟨m', hm', hne, hso⟩ | ⟨hnf, _⟩
    · simp only [hno, he, List.map_nil, List.nil_append]
      cases hfd : (expectedNames (.start types modules) l).find mro d.object d.name with
      | none => rfl
      | some a =>
        obtain ⟨b, h1, h2⟩ := hfind hno a hfd
        obtain ⟨h3, h4⟩ := hbase b h1 a h2
        have h4 := h4 (by rw [hw]; simp)
        cases hp : isPrivateName d.name with
        | false =>
          obtain ⟨m', ds, rfl⟩ := h3 ⟨m, hw⟩ hp
          rfl
        | true =>
          cases a with
          | type => simp
          | module => simp
          | functions => simp
          | data k s =>
            cases k with
            | staticData => exact absurd rfl (h4 s)
            | _ => simp
    · rw [hw] at hm'
      cases hm'
      simp only [hso]
      simp
    · exact absurd ⟨m, hw⟩ hnf
  | staticData =>
    have hnf : ¬ d.isFunction := by rintro ⟨m, hm⟩; rw [hw] at hm; cases hm
    rcases hb with ⟨he, hno⟩ | ⟨m', hm', _⟩ | ⟨_, _, he, _⟩
    · rw [expected_append _ l d _ (hown' hnf (.inl he))]
      unfold PyNames.define
      rw [hw]
    · exact absurd ⟨m', hm'⟩ hnf
    · rw [expected_append _ l d _ (hown' hnf (.inr he))]
      unfold PyNames.define
      rw [hw]
  | enumerator =>
    have hnf : ¬ d.isFunction := by rintro ⟨m, hm⟩; rw [hw] at hm; cases hm
    rcases hb with ⟨he, hno⟩ | ⟨m', hm', _⟩ | ⟨_, hl, he, hso⟩
    · rw [expected_append _ l d _ (hown' hnf (.inl he))]
      unfold PyNames.define
      rw [hw]
      simp only [hno]
      cases hfd : (expectedNames (.start types modules) l).find mro d.object d.name with
      | none => rfl
      | some a =>
        obtain ⟨b, h1, h2⟩ := hfind hno a hfd
        have h4 := (hbase b h1 a h2).2 (by rw [hw]; simp)
        cases a with
        | data k s =>
          cases k with
          | staticData => exact absurd rfl (h4 s)
          | _ => rfl
        | _ => rfl
    · exact absurd ⟨m', hm'⟩ hnf
    · exfalso
      have hnd := hc.enumerators
      rw [List.filter_append] at hnd
      have h1 : d ∈ l.filter fun d => decide (d.what = .enumerator) := by simp [hl, hw]
      have h2 : d ∈ [d].filter fun d => decide (d.what = .enumerator) := by simp [hw]
      exact (List.nodup_append.1 hnd).2.2 d h1 d h2 rfl
  | value =>
    have hnf : ¬ d.isFunction := by rintro ⟨m, hm⟩; rw [hw] at hm; cases hm
    rcases hb with ⟨he, hno⟩ | ⟨m', hm', _⟩ | ⟨_, hl, he, hso⟩
    · rw [expected_append _ l d _ (hown' hnf (.inl he))]
      unfold PyNames.define
      rw [hw]
      simp only [hno]
      cases hfd : (expectedNames (.start types modules) l).find mro d.object d.name with
      | none => rfl
      | some a =>
        obtain ⟨b, h1, h2⟩ := hfind hno a hfd
        have h4 := (hbase b h1 a h2).2 (by rw [hw]; simp)
        cases a with
        | data k s =>
          cases k with
          | staticData => exact absurd rfl (h4 s)
          | _ => rfl
        | _ => rfl
    · exact absurd ⟨m', hm'⟩ hnf
    · rw [expected_append _ l d _ (hown' hnf (.inr he))]
      unfold PyNames.define
      rw [hw]
      have hfd : (expectedNames (.start types modules) l).find mro d.object d.name =
          some (.data .value d.stmt) := by
        unfold PyNames.find
        rw [List.findSome?_cons, hso, hw]
      simp only [hfd, hso, hw]

theorem names_append (mro : List Str → List (List Str)) (l : List Definition) (d : Definition) :
    ∀ names, PyNames.run mro names (l ++ [d]) = match PyNames.run mro names l with
      | .ok names => names.define mro d
      | .error e => .error e := by
  induction l with
  | nil =>
    intro names
    simp only [List.nil_append, PyNames.run]
    cases names.define mro d <;> rfl
  | cons c l ih =>
    intro names
    simp only [List.cons_append, PyNames.run]
    cases names.define mro c with
    | ok n => exact ih n
    | error e => rfl

theorem noClash_prefix (mro : List Str → List (List Str)) (start : PyNames) (l l' : List Definition)
    (h : NoClash mro start (l ++ l')) : NoClash mro start l where
  names d hd d' hd' := h.names d (by simp [hd]) d' (by simp [hd'])
  enumerators := by
    have := h.enumerators
    rw [List.filter_append] at this
    exact (List.nodup_append.1 this).1
  fresh d hd := h.fresh d (by simp [hd])
  functions d hd hf hp b hb :=
    have := h.functions d (by simp [hd]) hf hp b hb
    ⟨this.1, fun d' hd' => this.2 d' (by simp [hd'])⟩
  statics d hd hk b hb d' hd' := h.statics d (by simp [hd]) hk b hb d' (by simp [hd'])

/-- C73: if nothing but functions share a name, the statements are executed without error, and
then every object has the attributes one expects. -/
theorem C73_names (mro : List Str → List (List Str)) (types modules : List (List Str)) (l : List Definition)
    (hc : NoClash mro (.start types modules) l) :
    PyNames.run mro (.start types modules) l = .ok (expectedNames (.start types modules) l) := by
  generalize hr : l.reverse = r
  induction r generalizing l with
  | nil =>
    have : l = [] := by simpa using hr
    subst this
    have : expectedNames (.start types modules) [] = .start types modules := by
      funext o n
      unfold expectedNames
      cases PyNames.start types modules o n <;> rfl
    rw [this]
    rfl
  | cons d r ih =>
    have hl : l = r.reverse ++ [d] := by
      have := congrArg List.reverse hr
      simpa using this
    subst hl
    rw [names_append, ih r.reverse (noClash_prefix _ _ _ _ hc) (by simp)]
    exact define_expected mro types modules _ _ hc

/-- What the attributes found during execution say about the definitions executed before. -/
theorem run_sound (mro : List Str → List (List Str)) (types modules : List (List Str)) (l : List Definition)
    (st : PyNames) (h : PyNames.run mro (.start types modules) l = .ok st) (o : List Str) (n : Str) :
    (st o n = none → PyNames.start types modules o n = none ∧ definitionsOf l o n = []) ∧
    (∀ m ds, st o n = some (.functions m ds) → isPrivateName n = false →
      PyNames.start types modules o n = none ∧ ∀ d ∈ definitionsOf l o n, d.what = .function m) := by
  generalize hr : l.reverse = r
  induction r generalizing l st with
  | nil =>
    have : l = [] := by simpa using hr
    subst this
    cases h
    refine ⟨fun h => ⟨h, rfl⟩, fun m ds h _ => ?_⟩
    rcases start_cases types modules o n _ h with e | e <;> cases e
  | cons d r ih =>
    have hl : l = r.reverse ++ [d] := by
      have := congrArg List.reverse hr
      simpa using this
    subst hl
    rw [names_append] at h
    cases hn : PyNames.run mro (.start types modules) r.reverse with
    | error e => rw [hn] at h; cases h
    | ok names =>
      rw [hn] at h
      dsimp only at h
      have ih := ih r.reverse names hn (by simp)
      rw [definitionsOf_append]
      -- the attribute of another name, or object
      have hother : ∀ a, st = names.set d.object d.name a → ¬ (d.object = o ∧ d.name = n) →
          st o n = names o n := by
        intro a ha hk
        rw [ha]
        unfold PyNames.set
        rw [if_neg fun e => hk ⟨e.1.symm, e.2.symm⟩]
      have hset : ∃ a, st = names.set d.object d.name a ∧
          ((∀ m ds, a ≠ .functions m ds) ∨ ∃ m ds, a = .functions m ds ∧ d.what = .function m ∧
            (isPrivateName d.name = false →
              names d.object d.name = none ∨ ∃ ds', names d.object d.name = some (.functions m ds'))) := by
        unfold PyNames.define at h
        cases hw : d.what with
        | function m =>
          rw [hw] at h
          dsimp only at h
          cases ha : names d.object d.name with
          | none =>
            rw [ha] at h
            dsimp only at h
            refine ⟨.functions m [d.stmt], ?_, .inr ⟨m, _, rfl, rfl, fun _ => .inl rfl⟩⟩
            split at h
            · exact (Except.ok.inj h).symm
            · exact (Except.ok.inj h).symm
            · split at h
              · cases h
              · split at h
                · cases h
                · exact (Except.ok.inj h).symm
          | some a =>
            rw [ha] at h
            cases a with
            | functions m' ds =>
              dsimp only at h
              split at h
              · rename_i e
                subst e
                exact ⟨_, (Except.ok.inj h).symm, .inr ⟨m, _, rfl, rfl, fun _ => .inr ⟨ds, rfl⟩⟩⟩
              · cases h
            | _ =>
              dsimp only at h
              have hfd : ∀ b, names d.object d.name = some b → names.find mro d.object d.name = some b := by
                intro b hb
                unfold PyNames.find
                rw [List.findSome?_cons, hb]
              rw [hfd _ ha] at h
              dsimp only at h
              split at h
              · cases h
              · rename_i hp
                have : st = names.set d.object d.name (.functions m [d.stmt]) := by
                  revert h
                  first
                  | (intro h; exact (Except.ok.inj h).symm)
                  | (split
                     · intro h; cases h
                     · intro h; exact (Except.ok.inj h).symm)
                exact ⟨_, this, .inr ⟨m, _, rfl, rfl, fun e => absurd e hp⟩⟩
        | staticData =>
          rw [hw] at h
          exact ⟨_, (Except.ok.inj h).symm, .inl (by simp)⟩
        | enumerator =>
          rw [hw] at h
          dsimp only at h
          refine ⟨.data .enumerator d.stmt, ?_, .inl (by simp)⟩
          split at h
          · cases h
          · simp at h
          · exact (Except.ok.inj h).symm
        | value =>
          rw [hw] at h
          dsimp only at h
          refine ⟨.data .value d.stmt, ?_, .inl (by simp)⟩
          split at h
          · cases h
          · rw [if_neg (by simp)] at h
            exact (Except.ok.inj h).symm
          · exact (Except.ok.inj h).symm
      obtain ⟨a, ha, hcase⟩ := hset
      by_cases hk : d.object = o ∧ d.name = n
      · rw [if_pos hk]
        obtain ⟨rfl, rfl⟩ := hk
        have hat : st d.object d.name = some a := by
          rw [ha]
          unfold PyNames.set
          rw [if_pos ⟨rfl, rfl⟩]
        refine ⟨fun e => (by rw [hat] at e; cases e), fun m ds e hp => ?_⟩
        rw [hat] at e
        cases e
        rcases hcase with hno | ⟨m', ds', e, hw, hprev⟩
        · exact absurd rfl (hno m ds)
        · cases e
          have hprev := hprev hp
          have : PyNames.start types modules d.object d.name = none ∧
              ∀ c ∈ definitionsOf r.reverse d.object d.name, c.what = .function m := by
            rcases hprev with e | ⟨ds', e⟩
            · refine ⟨(ih.1 e).1, fun c hc => ?_⟩
              rw [(ih.1 e).2] at hc
              cases hc
            · exact ih.2 m ds' e hp
          refine ⟨this.1, fun c hc => ?_⟩
          rcases List.mem_append.1 hc with hc | hc
          · exact this.2 c hc
          · rw [List.mem_singleton.1 hc]
            exact hw
      · rw [if_neg hk, List.append_nil, hother a ha hk]
        exact ih

/-- C73: if the import succeeds, a function (whose name does not begin with an underscore) has
not been preceded by something else with the same name in the same object: neither a class, enum
or submodule, nor a static method if it is not static or vice versa, nor anything else. -/
theorem C73_conflicts (mro : List Str → List (List Str)) (types modules : List (List Str))
    (pre post : List Definition) (d : Definition) (m : Bool) (hd : d.what = .function m)
    (hp : isPrivateName d.name = false) (st : PyNames)
    (h : PyNames.run mro (.start types modules) (pre ++ d :: post) = .ok st) :
    PyNames.start types modules d.object d.name = none ∧
      ∀ c ∈ pre, c.object = d.object → c.name = d.name → c.what = .function m := by
  have hpre : ∀ (post : List Definition) (names : PyNames) (l : List Definition),
      PyNames.run mro names (l ++ post) = .ok st → ∃ st', PyNames.run mro names l = .ok st' := by
    intro post names l
    induction l generalizing names with
    | nil => exact fun _ => ⟨names, rfl⟩
    | cons c l ih =>
      intro h
      simp only [List.cons_append, PyNames.run] at h ⊢
      cases hc : names.define mro c with
      | ok n => rw [hc] at h; exact ih n h
      | error e => rw [hc] at h; cases h
  rw [show pre ++ d :: post = (pre ++ [d]) ++ post by simp] at h
  obtain ⟨st', h'⟩ := hpre post _ _ h
  have hs := run_sound mro types modules (pre ++ [d]) st' h' d.object d.name
  have hmem : ∀ c, c ∈ definitionsOf (pre ++ [d]) d.object d.name ↔
      c ∈ pre ++ [d] ∧ c.object = d.object ∧ c.name = d.name := mem_definitionsOf _ _ _
  cases ha : st' d.object d.name with
  | none =>
    have := (hs.1 ha).2
    have h2 := (hmem d).2 ⟨by simp, rfl, rfl⟩
    rw [this] at h2
    cases h2
  | some a =>
    rw [names_append] at h'
    cases hn : PyNames.run mro (.start types modules) pre with
    | error e => rw [hn] at h'; cases h'
    | ok names =>
      rw [hn] at h'
      dsimp only at h'
      have : ∃ ds, a = .functions m ds := by
        unfold PyNames.define at h'
        rw [hd] at h'
        dsimp only at h'
        have hset : ∀ b, st' = names.set d.object d.name b → a = b := by
          intro b hb
          rw [hb] at ha
          unfold PyNames.set at ha
          rw [if_pos ⟨rfl, rfl⟩] at ha
          exact (Option.some.inj ha).symm
        split at h'
        · split at h'
          · exact ⟨_, hset _ (Except.ok.inj h').symm⟩
          · cases h'
        · split at h'
          · exact ⟨_, hset _ (Except.ok.inj h').symm⟩
          · exact ⟨_, hset _ (Except.ok.inj h').symm⟩
          · rw [if_pos hp] at h'
            cases h'
      obtain ⟨ds, rfl⟩ := this
      obtain ⟨h1, h2⟩ := hs.2 m ds ha hp
      exact ⟨h1, fun c hc ho hn => h2 c ((hmem c).2 ⟨by simp [hc], ho, hn⟩)⟩



/-- What statements define themselves, in order. -/
theorem defined_sublist (isClass : List Str → Bool) (l : List Execution) : ∀ before,
    (l.filterMap fun e => definedBy isClass e.object e.stmt).Sublist (definitions isClass before l) := by
  induction l with
  | nil => exact fun _ => .slnil
  | cons e l ih =>
    intro before
    rw [definitions, List.filterMap_cons]
    have h1 := ih (before ++ [e])
    cases hd : definedBy isClass e.object e.stmt with
    | none => simpa using h1.trans (List.sublist_append_right _ _)
    | some d =>
      simp only [Option.toList_some, List.cons_append, List.nil_append]
      exact .cons_cons d (h1.trans (List.sublist_append_right _ _))

/-- One of two elements comes first. -/
theorem one_first {α : Type} (l : List α) (x y : α) (hx : x ∈ l) (hy : y ∈ l) (hne : x ≠ y) :
    (∃ pre post, l = pre ++ y :: post ∧ x ∈ pre) ∨ ∃ pre post, l = pre ++ x :: post ∧ y ∈ pre := by
  induction l with
  | nil => cases hx
  | cons z l ih =>
    rcases List.mem_cons.1 hx with rfl | hx1
    · rcases List.mem_cons.1 hy with rfl | hy1
      · exact absurd rfl hne
      · obtain ⟨pre, post, rfl⟩ := List.append_of_mem hy1
        exact .inl ⟨x :: pre, post, rfl, by simp⟩
    · rcases List.mem_cons.1 hy with rfl | hy1
      · obtain ⟨pre, post, rfl⟩ := List.append_of_mem hx1
        exact .inr ⟨y :: pre, post, rfl, by simp⟩
      · rcases ih hx1 hy1 with ⟨pre, post, rfl, h⟩ | ⟨pre, post, rfl, h⟩
        · exact .inl ⟨z :: pre, post, rfl, by simp [h]⟩
        · exact .inr ⟨z :: pre, post, rfl, by simp [h]⟩

theorem defined_function (isClass : List Str → Bool) (o : List Str) (s : Stmt) (d : Nat) (isStatic : Bool)
    (n : Str) (p : FnPtr) (h : functionOf s = some (d, isStatic, n, p)) :
    definedBy isClass o s = some ⟨o, n, .function (isClass o && !isStatic), s⟩ := by
  cases s <;> simp [functionOf] at h
  obtain ⟨rfl, rfl, rfl, rfl⟩ := h
  rfl

/-- C73: a class with visible static and other methods of the same name cannot be imported. -/
theorem C73_static_instance (i : ToolInput) (ok : InputOK i) (lk : LookupOK i.world)
    (re : Reopening i.world.toWorld) (hu : NoBareReopening i.world.toWorld i.tree)
    (name : Str) (g : Graph) (b : Building) (order : List Nat) (place : Nat → List Str)
    (pl : Placement i name g b order place) (isClass : List Str → Bool)
    (mro : List Str → List (List Str)) (types modules : List (List Str)) (x d d' : Nat) (object : List Str)
    (hx : Fills i.world.toWorld b.storage i.members name g place x object)
    (hk : (i.world.info x).kind = .record) (hcl : isClass object = true)
    (hd : Offers i.world b.storage g x d ∧ FunctionIn i.world b.storage x d)
    (hd' : Offers i.world b.storage g x d' ∧ FunctionIn i.world b.storage x d')
    (hm : (i.world.info d).kind.isMethod = true) (hs : (i.world.fn d).isStatic = true)
    (hs' : (i.world.fn d').isStatic = false)
    (hn : pythonName i.world b.storage d = pythonName i.world b.storage d')
    (hp : isPrivateName (pythonName i.world b.storage d) = false) :
    ∃ e, PyNames.run mro (.start types modules)
      (definitions isClass [] (executed i name g b order place)) = .error e := by
  have hne : (i.world.info x).kind ≠ .enum := by rw [hk]; decide
  obtain ⟨e, he, ho, hf⟩ := (C71_functions i ok lk re hu name g b order place pl object d true
    (pythonName i.world b.storage d) (emitFunctionPointer i.world d)).2
    ⟨⟨x, hx, hne, hd⟩, by simp [hm, hs], rfl, rfl⟩
  obtain ⟨e', he', ho', hf'⟩ := (C71_functions i ok lk re hu name g b order place pl object d' false
    (pythonName i.world b.storage d') (emitFunctionPointer i.world d')).2
    ⟨⟨x, hx, hne, hd'⟩, by simp [hs'], rfl, rfl⟩
  generalize executed i name g b order place = E at he he' ⊢
  have hsub := defined_sublist isClass E []
  have h1 := defined_function isClass object e.stmt _ _ _ _ hf
  have h1' := defined_function isClass object e'.stmt _ _ _ _ hf'
  rw [hcl] at h1 h1'
  have hmem := hsub.subset (List.mem_filterMap.2 ⟨e, he, by rw [ho]; exact h1⟩)
  have hmem' := hsub.subset (List.mem_filterMap.2 ⟨e', he', by rw [ho']; exact h1'⟩)
  cases hr : PyNames.run mro (.start types modules) (definitions isClass [] E) with
  | error p => exact ⟨p, rfl⟩
  | ok st =>
    exfalso
    rcases one_first _ _ _ hmem hmem' (by simp) with ⟨pre, post, hl, hin⟩ | ⟨pre, post, hl, hin⟩
    · rw [hl] at hr
      have := (C73_conflicts mro types modules pre post _ true (by simp) (hn ▸ hp) st hr).2 _ hin rfl hn
      simp at this
    · rw [hl] at hr
      have := (C73_conflicts mro types modules pre post _ false (by simp) hp st hr).2 _ hin rfl hn.symm
      simp at this

/-! ### Order of overloads -/

theorem pair_sublist_of_sorted {α : Type} (R : α → α → Prop) (l : List α) (h : l.Pairwise R) (x y : α)
    (hx : x ∈ l) (hy : y ∈ l) (hne : x ≠ y) (hn : ¬ R y x) : [x, y].Sublist l := by
  rcases one_first l x y hx hy hne with ⟨pre, post, rfl, hin⟩ | ⟨pre, post, rfl, hin⟩
  · have h1 : [x].Sublist pre := List.singleton_sublist.2 hin
    have h2 : [y].Sublist (y :: post) := List.singleton_sublist.2 (by simp)
    exact h1.append h2
  · exact absurd ((List.pairwise_append.1 h).2.2 y hin x (by simp)) hn

theorem sublist_flatMap {α β : Type} (f : α → List β) {l l' : List α} (h : l.Sublist l') :
    (l.flatMap f).Sublist (l'.flatMap f) := by
  induction h with
  | slnil => exact .slnil
  | cons a _ ih =>
    rw [List.flatMap_cons]
    exact ih.trans (List.sublist_append_right _ _)
  | cons_cons a _ ih =>
    rw [List.flatMap_cons, List.flatMap_cons]
    exact (List.Sublist.refl _).append ih

theorem pair_flatMap {α β : Type} (f : α → List β) (l : List α) (x y : α) (h : [x, y].Sublist l) (u v : β)
    (hu : u ∈ f x) (hv : v ∈ f y) : [u, v].Sublist (l.flatMap f) := by
  have h1 : ([x, y].flatMap f).Sublist (l.flatMap f) := sublist_flatMap f h
  refine List.Sublist.trans ?_ h1
  simp only [List.flatMap_cons, List.flatMap_nil, List.append_nil]
  exact (List.singleton_sublist.2 hu).append (List.singleton_sublist.2 hv)

theorem pair_filterMap {α β : Type} (f : α → Option β) (l : List α) (u v : β)
    (h : [u, v].Sublist (l.filterMap f)) : ∃ x y, [x, y].Sublist l ∧ f x = some u ∧ f y = some v := by
  obtain ⟨l', hl, he⟩ := List.sublist_filterMap_iff.1 h
  have hf : l'.filterMap f = (l'.filter fun x => (f x).isSome).filterMap f := by
    rw [List.filterMap_filter]
    congr 1
    funext x
    cases f x <;> rfl
  rw [hf] at he
  have hlen : (l'.filter fun x => (f x).isSome).length = 2 := by
    have := congrArg List.length he
    have hall : ∀ (q : List α), (∀ x ∈ q, (f x).isSome = true) → (q.filterMap f).length = q.length := by
      intro q
      induction q with
      | nil => intro _; rfl
      | cons z q ih =>
        intro hq
        obtain ⟨c, hc⟩ := Option.isSome_iff_exists.1 (hq z (by simp))
        rw [List.filterMap_cons_some hc, List.length_cons, ih fun x hx => hq x (by simp [hx])]
        rfl
    rw [hall _ (fun x hx => (List.mem_filter.1 hx).2)] at this
    exact this.symm
  have htwo : ∀ (q : List α), q.length = 2 → ∃ x y, q = [x, y]
    | [x, y], _ => ⟨x, y, rfl⟩
  obtain ⟨x, y, hxy⟩ := htwo _ hlen
  refine ⟨x, y, ?_, ?_⟩
  · rw [← hxy]
    exact List.filter_sublist.trans hl
  · rw [hxy] at he
    cases hx : f x with
    | none =>
      have : x ∈ l'.filter fun x => (f x).isSome := by rw [hxy]; simp
      have := (List.mem_filter.1 this).2
      rw [hx] at this
      cases this
    | some a =>
      cases hy : f y with
      | none =>
        have : y ∈ l'.filter fun x => (f x).isSome := by rw [hxy]; simp
        have := (List.mem_filter.1 this).2
        rw [hy] at this
        cases this
      | some c =>
        simp only [List.filterMap_cons, hx, hy, List.filterMap_nil, List.cons.injEq, and_true] at he
        exact ⟨by rw [he.1], by rw [he.2]⟩

/-- Functions are written in the order in which they are proposed. -/
theorem written_ordered (w : EmitWorld) (s : Storage) (hd : Derived w s) (vis : Visibilities)
    (e : Exposer) (he : ∀ x, e ≠ .enum x) (x d d' : Nat) (hpair : [d, d'].Sublist (proposedDecls w e x))
    (hs : shown w s vis x d = true) (hs' : shown w s vis x d' = true)
    (h : isPlainFunction (w.info d) = true ∧ (w.fn d).isDeleted = false ∧ isAccessor w s d = false ∧
      ∀ r p, e = .record r p → isOperator (w.info d) = false)
    (h' : isPlainFunction (w.info d') = true ∧ (w.fn d').isDeleted = false ∧ isAccessor w s d' = false ∧
      ∀ r p, e = .record r p → isOperator (w.info d') = false) :
    ∃ f f', [f, f'].Sublist (exposeContext w vis s e x).emitted.stmts ∧
      functionOf f = some (d, (w.info d).kind.isMethod && (w.fn d).isStatic, pythonName w s d,
        emitFunctionPointer w d) ∧
      functionOf f' = some (d', (w.info d').kind.isMethod && (w.fn d').isStatic, pythonName w s d',
        emitFunctionPointer w d') := by
  refine pair_filterMap functionOf _ _ _ ?_
  rw [C56_functions w s hd vis _ he x]
  refine List.Sublist.map (fun d => (d, (w.info d).kind.isMethod && (w.fn d).isStatic, pythonName w s d,
    emitFunctionPointer w d)) (l₁ := [d, d']) ?_
  have hfilter : ∀ (q : Nat → Bool) (l : List Nat), [d, d'].Sublist l → q d = true → q d' = true →
      [d, d'].Sublist (l.filter q) := by
    intro q l hl h1 h2
    have := hl.filter q
    simpa [h1, h2] using this
  refine hfilter _ _ (hfilter _ _ hpair hs hs') ?_ ?_
  · obtain ⟨h1, h2, h3, h4⟩ := h
    rw [h1, h2, h3]
    cases e with
    | record r p => simp [h4 r p rfl]
    | enum y => exact absurd rfl (he y)
    | _ => simp
  · obtain ⟨h1, h2, h3, h4⟩ := h'
    rw [h1, h2, h3]
    cases e with
    | record r p => simp [h4 r p rfl]
    | enum y => exact absurd rfl (he y)
    | _ => simp

/-- The functions written for a context are in the order of declaration. -/
theorem functions_ordered (w : EmitWorld) (s : Storage) (hd : Derived w s) (vis : Visibilities)
    (x : Nat) (hk : (w.info x).kind ≠ .enum) (m m' d d' : Nat) (hm : FoundIn w s x m) (hm' : FoundIn w s x m')
    (hloc : w.loc m < w.loc m') (h : d ∈ specializationsOf w m) (h' : d' ∈ specializationsOf w m')
    (hs : shown w s vis x d = true) (hs' : shown w s vis x d' = true)
    (hf : FunctionIn w s x d) (hf' : FunctionIn w s x d') :
    ∃ f f', [f, f'].Sublist (exposeContext w vis s (Exposer.create w s x) x).emitted.stmts ∧
      functionOf f = some (d, (w.info d).kind.isMethod && (w.fn d).isStatic, pythonName w s d,
        emitFunctionPointer w d) ∧
      functionOf f' = some (d', (w.info d').kind.isMethod && (w.fn d').isStatic, pythonName w s d',
        emitFunctionPointer w d') := by
  have hpair : [d, d'].Sublist (proposedDecls w (Exposer.create w s x) x) := by
    unfold proposedDecls expandTemplates
    refine pair_flatMap _ _ m m' ?_ d d' ?_ ?_
    · refine List.Sublist.trans ?_ (List.sublist_append_left _ _)
      refine pair_sublist_of_sorted _ _ (sortDecls_sorted _ _) m m' ?_ ?_ ?_ (Nat.not_le.2 hloc)
      · rw [mem_sortDecls, collected_iff]; exact hm
      · rw [mem_sortDecls, collected_iff]; exact hm'
      · rintro rfl; exact Nat.lt_irrefl _ hloc
    · unfold specializationsOf at h
      cases hw : w.specializations m <;> rw [hw] at h <;> exact h
    · unfold specializationsOf at h'
      cases hw : w.specializations m' <;> rw [hw] at h' <;> exact h'
  have he : ∀ y, Exposer.create w s x ≠ .enum y := fun y e => hk ((create_kind w s x).1 y e).2
  exact written_ordered w s hd vis _ he x d d' hpair hs hs'
    ⟨hf.1, hf.2.1, hf.2.2.1, fun r p e => hf.2.2.2 ((create_kind w s x).2 r p e).2⟩
    ⟨hf'.1, hf'.2.1, hf'.2.2.1, fun r p e => hf'.2.2.2 ((create_kind w s x).2 r p e).2⟩

/-- C73: if a visible function has the Python name of a class, enum or submodule of the same object
the module cannot be imported. -/
theorem C73_class_function (i : ToolInput) (ok : InputOK i) (lk : LookupOK i.world)
    (re : Reopening i.world.toWorld) (hu : NoBareReopening i.world.toWorld i.tree)
    (name : Str) (g : Graph) (b : Building) (order : List Nat) (place : Nat → List Str)
    (pl : Placement i name g b order place) (isClass : List Str → Bool)
    (mro : List Str → List (List Str)) (types modules : List (List Str)) (x d : Nat) (object : List Str)
    (hx : Fills i.world.toWorld b.storage i.members name g place x object)
    (hk : (i.world.info x).kind ≠ .enum)
    (hd : Offers i.world b.storage g x d ∧ FunctionIn i.world b.storage x d)
    (hn : object ++ [pythonName i.world b.storage d] ∈ types ∨
      object ++ [pythonName i.world b.storage d] ∈ modules)
    (hp : isPrivateName (pythonName i.world b.storage d) = false) :
    ∃ e, PyNames.run mro (.start types modules)
      (definitions isClass [] (executed i name g b order place)) = .error e := by
  obtain ⟨e, he, ho, hf⟩ := (C71_functions i ok lk re hu name g b order place pl object d _ _ _).2
    ⟨⟨x, hx, hk, hd⟩, rfl, rfl, rfl⟩
  generalize executed i name g b order place = E at he ⊢
  have h1 := defined_function isClass object e.stmt _ _ _ _ hf
  have hmem := (defined_sublist isClass E []).subset (List.mem_filterMap.2 ⟨e, he, by rw [ho]; exact h1⟩)
  cases hr : PyNames.run mro (.start types modules) (definitions isClass [] E) with
  | error p => exact ⟨p, rfl⟩
  | ok st =>
    exfalso
    obtain ⟨pre, post, hl⟩ := List.append_of_mem hmem
    rw [hl] at hr
    have := (C73_conflicts mro types modules pre post _ _ rfl hp st hr).1
    unfold PyNames.start at this
    dsimp only at this
    split at this
    · cases this
    · rcases hn with h | h
      · contradiction
      · simp [h] at this

/-- C73: overloads are tried in the order in which the functions are declared. -/
theorem C73_overloads (i : ToolInput) (ok : InputOK i) (lk : LookupOK i.world)
    (re : Reopening i.world.toWorld) (hu : NoBareReopening i.world.toWorld i.tree)
    (name : Str) (g : Graph) (b : Building) (order : List Nat) (place : Nat → List Str)
    (pl : Placement i name g b order place) (isClass : List Str → Bool)
    (mro : List Str → List (List Str)) (types modules : List (List Str))
    (hc : NoClash mro (.start types modules) (definitions isClass [] (executed i name g b order place)))
    (x m m' d d' : Nat) (object : List Str) (n : Str)
    (hx : Fills i.world.toWorld b.storage i.members name g place x object)
    (hk : (i.world.info x).kind ≠ .enum)
    (hm : FoundIn i.world b.storage x m) (hm' : FoundIn i.world b.storage x m')
    (hloc : i.world.loc m < i.world.loc m')
    (h : d ∈ specializationsOf i.world m) (h' : d' ∈ specializationsOf i.world m')
    (hv : VisibleIn i.world b.storage g x d) (hv' : VisibleIn i.world b.storage g x d')
    (hf : FunctionIn i.world b.storage x d) (hf' : FunctionIn i.world b.storage x d')
    (hn : pythonName i.world b.storage d = n) (hn' : pythonName i.world b.storage d' = n) :
    ∃ names, PyNames.run mro (.start types modules)
        (definitions isClass [] (executed i name g b order place)) = .ok names ∧
      ∃ k overloads f f', names object n = some (.functions k overloads) ∧ [f, f'].Sublist overloads ∧
        functionOf f = some (d, (i.world.info d).kind.isMethod && (i.world.fn d).isStatic, n,
          emitFunctionPointer i.world d) ∧
        functionOf f' = some (d', (i.world.info d').kind.isMethod && (i.world.fn d').isStatic, n,
          emitFunctionPointer i.world d') := by
  refine ⟨_, C73_names mro types modules _ hc, ?_⟩
  have hcg := C23_graphs i.world.toWorld i.tree ok.unit g b pl.graph
  have hder := derived_built i.world i.tree ok.unit g b pl.graph
  have hkn := kept_nodes i.world.toWorld b.storage i.members name g hcg
  have heg := C29_graphs i.world.toWorld b.storage i.members name g hcg
  obtain ⟨h1, h2, hp⟩ := hx
  -- the declaration of the context for which code is written
  have hxn := (hkn x).2 ⟨h1, h2⟩
  have hxo := pl.sorted.perm.mem_iff.2 hxn
  obtain ⟨r, hr⟩ := representative_isSome i.world order x hxo
  obtain ⟨hs, hro⟩ := representative_same i.world order x r hr
  have hrn := pl.sorted.perm.mem_iff.1 hro
  have hrr : representative i.world order r = some r := by
    rw [← representative_congr i.world order x r hs, hr]
  have hpr : place r = place x := by
    by_cases hrx : r = x
    · rw [hrx]
    · exact refers_unique _ _ _ heg order (.again hr hrx (pl.objects r hrn)) (pl.objects x hxn)
  have hrc := (hkn r).1 hrn
  have hfound : ∀ m, FoundIn i.world b.storage x m → FoundIn i.world b.storage r m := by
    intro m hm
    rcases sameContext_cases i.world x r hs with rfl | hxr
    · exact hm
    · have hI : InlinedInto i.world b.storage x = InlinedInto i.world b.storage r := by
        funext y
        unfold InlinedInto
        rw [hxr.1, hxr.2.1]
        simp
      unfold FoundIn at hm ⊢
      rw [← hI, ← lk.same x r hxr]
      exact hm
  have hvis : ∀ d, VisibleIn i.world b.storage g x d → VisibleIn i.world b.storage g r d := by
    intro d hd
    rcases sameContext_cases i.world x r hs with rfl | hxr
    · exact hd
    · obtain ⟨a, ha, hv⟩ := hd
      refine ⟨a, ha, hv.imp id fun hv => ⟨hv.1, ?_⟩⟩
      exact same_visible i.world i.tree ok.unit re hu g b pl.graph x hv.2 h1.1 r hrc.1.1 hxr
  have hfun : ∀ d, FunctionIn i.world b.storage x d → FunctionIn i.world b.storage r d := by
    intro d hd
    rcases sameContext_cases i.world x r hs with rfl | hxr
    · exact hd
    · refine ⟨hd.1, hd.2.1, hd.2.2.1, fun e => ?_⟩
      rw [hxr.2.1] at e
      cases e
  have hkr : (i.world.info r).kind ≠ .enum := by
    rcases sameContext_cases i.world x r hs with rfl | hxr
    · exact hk
    · rw [hxr.2.1]; decide
  have hsh := fun d => shown_iff i.world b.storage i.members name g hcg r d hrc.1.1 hrc.1.2.1
  obtain ⟨f, f', hsub, hff, hff'⟩ := functions_ordered i.world b.storage hder
    (analyze i.world.toWorld b.storage i.members name g).vis r hkr m m' d d' (hfound m hm) (hfound m' hm')
    hloc h h' ((hsh d).2 (hvis d hv)) ((hsh d').2 (hvis d' hv')) (hfun d hf) (hfun d' hf')
  rw [hn] at hff
  rw [hn'] at hff'
  -- both are executed, in this order
  let E : Stmt → Execution := fun st => { object := place r, stmt := st, known := typesOf i.world order place }
  have hexec : [E f, E f'].Sublist (executed i name g b order place) := by
    unfold executed executionsOf
    refine List.Sublist.trans ?_ (List.sublist_append_left _ _)
    have hone : [r].Sublist (contextsOf i.world order) :=
      List.singleton_sublist.2 (List.mem_filter.2 ⟨hro, by simp [hrr]⟩)
    refine List.Sublist.trans ?_ (sublist_flatMap _ hone)
    simp only [List.flatMap_cons, List.flatMap_nil, List.append_nil]
    exact hsub.map E
  have hobj : place r = object := hpr.trans hp
  have hdef := defined_function isClass object f _ _ _ _ hff
  have hdef' := defined_function isClass object f' _ _ _ _ hff'
  have hlist := (hexec.filterMap fun e => definedBy isClass e.object e.stmt).trans
    (defined_sublist isClass _ [])
  have hE : ∀ st, (E st).object = object := fun _ => hobj
  simp only [List.filterMap_cons, hE, List.filterMap_nil] at hlist
  have hE' : ∀ st, (E st).stmt = st := fun _ => rfl
  simp only [hE', hdef, hdef'] at hlist
  have hov := hlist.filter fun d => decide (d.object = object ∧ d.name = n)
  simp only [List.filter_cons, decide_true, and_self, if_true, List.filter_nil] at hov
  have hov' := hov.map (·.stmt)
  simp only [List.map_cons, List.map_nil] at hov'
  have hmem := hlist.subset List.mem_cons_self
  have hst := hc.fresh _ hmem
  simp only at hst
  have hex : ∃ k, expectedNames (.start types modules)
      (definitions isClass [] (executed i name g b order place)) object n =
        some (.functions k ((definitionsOf (definitions isClass [] (executed i name g b order place))
          object n).map (·.stmt))) := by
    unfold expectedNames
    rw [hst]
    cases hl : definitionsOf (definitions isClass [] (executed i name g b order place)) object n with
    | nil =>
      have : (⟨object, n, .function (isClass object && !((i.world.info d).kind.isMethod &&
          (i.world.fn d).isStatic)), f⟩ : Definition) ∈ definitionsOf
            (definitions isClass [] (executed i name g b order place)) object n :=
        (mem_definitionsOf ..).2 ⟨hmem, rfl, rfl⟩
      rw [hl] at this
      cases this
    | cons c cs =>
      obtain ⟨c1, c2, c3⟩ := (mem_definitionsOf _ object n c).1 (hl ▸ List.mem_cons_self)
      rcases hc.names c c1 _ hmem c2 c3 with rfl | ⟨k, hk1, _⟩
      · exact ⟨_, rfl⟩
      · exact ⟨k, by simp [hk1]⟩
  obtain ⟨k, hex⟩ := hex
  exact ⟨k, _, f, f', hex, hov', hff, hff'⟩

/-- C73: for whole runs.  If the generated files can be imported as far as types are concerned,
and no two things have the same name, then executing the statements succeeds as well, and every
object has the expected attributes, in addition to the classes, enums and submodules in it. -/
theorem C73_run (o : ToolOptions) (i : ToolInput) (ok : InputOK i) (files : Files)
    (r : ToolResult) (hr : runTool o i files = some r) (hx : o.expectFailure = false) (h0 : r.exitCode = 0)
    (hnd : o.outputFiles.Nodup) :
    ∃ name g b order place, moduleNameFor o.moduleName i.mainFile = some name ∧
      Placement i name g b order place ∧
      ∃ lines : List (List Line), lines.length = o.outputFiles.length ∧
        (∀ (k : Nat) path ls, o.outputFiles[k]? = some path → lines[k]? = some ls →
          (path ≠ ['-'] → r.files path = some (fileText i ls)) ∧
          (path = ['-'] → r.printed = [fileText i ls])) ∧
        ∀ st, importModule lines = .ok st → ∀ mro,
          let l := definitions (fun x => decide (x ∈ st.types.map (·.2))) [] (executed i name g b order place)
          let start := PyNames.start (st.types.map (·.2)) st.modules
          st.executed = executed i name g b order place ∧
          (NoClash mro start l → PyNames.run mro start l = .ok (expectedNames start l)) := by
  obtain ⟨name, g, b, order, place, hn, hb, hv, hp, lines, h1, h2, _, h4⟩ :=
    C69_module o i ok files r hr hx h0 hnd
  exact ⟨name, g, b, order, place, hn, ⟨hb, hv, hp⟩, lines, h1, h2, fun st hst mro =>
    ⟨(h4 st hst).1, fun hc => C73_names mro _ _ _ hc⟩⟩

/-! ### Examples -/

example : NoClash (fun _ => []) (.start [[t%"S"]] [])
    [⟨[t%"S"], t%"f", .function true, .useContext⟩, ⟨[t%"S"], t%"f", .function true, .exportValues⟩,
     ⟨[t%"S"], t%"g", .value, .useContext⟩] where
  names := by simp
  enumerators := by simp
  fresh := by simp [PyNames.start]
  functions := by simp
  statics := by simp

/-- The class `S` of `exUnit` with other annotations, and a function `f` with these annotations. -/
def exSameName (s f g : List Str) (isStatic : Bool) (free : List Str) : EmitWorld := { exUnit with
  info := fun
    | 1 => { kind := .record, name := t%"S", attrTexts := s }
    | 2 => { kind := .method, name := t%"f", params := [t%"x"], minRequired := 1, attrTexts := f }
    | 3 => { kind := .method, name := t%"g", attrTexts := g }
    | 7 => { kind := .function, name := t%"f", attrTexts := free }
    | x => exUnit.info x
  fn := fun
    | 3 => { exPlain t%"S::g" 0 with isStatic := isStatic }
    | 7 => exPlain t%"f" 0
    | x => exUnit.fn x
  found := fun
    | 0 => [⟨7, none, false, .none, false, false, none, none⟩]
    | x => exUnit.found x }

def exSameNameInput (s f g : List Str) (isStatic : Bool) (free : List Str) : ToolInput := { exInput with
  world := exSameName s f g isStatic free
  pick := fun _ => lastSmallest (exSameName s f g isStatic free).loc
  tree := .node 0 [.node 1 [.node 2 [], .node 3 []], .node 4 [.node 5 [.node 6 []]], .node 7 []] }

/-- The result of importing the file generated for the example: a problem, or what has become of
the attributes with this name, as far as it is given by declarations: the functions, or nothing. -/
def exSameNameResult (s f g : List Str) (isStatic : Bool) (free : List Str) (o : List Str) (n : Str) :
    Option (NameProblem ⊕ List Nat) :=
  let w := exSameName s f g isStatic free
  let i := exSameNameInput s f g isStatic free
  let b := buildGraph w.toWorld i.tree
  match b.1 with
  | none => none
  | some graph =>
    let a := analyze w.toWorld b.2.storage i.members t%"my_lib" graph
    let m := emitModule w b.2.storage a.pruned a.vis i.pick a.pruned.nodes 1 t%"my_lib"
    match importModule [m.stream 0] with
    | .error _ => none
    | .ok st =>
      match PyNames.run (fun _ => []) (.start (st.types.map (·.2)) st.modules)
          (definitions (fun x => decide (x ∈ st.types.map (·.2))) [] st.executed) with
      | .error e => some (.inl e)
      | .ok names => match names o n with
        | some (.functions _ l) => some (.inr (l.filterMap fun s => (functionOf s).map (·.1)))
        | some _ => some (.inr [])
        | none => none

/-- Whether the tool reports anything for the example. -/
def exSameNameDiags (s f g : List Str) (isStatic : Bool) (free : List Str) : List Diag :=
  (handleTranslationUnit (exSameNameInput s f g isStatic free) t%"my_lib" [t%"/a"]).diags

/-- Rewrites a run to a form that can be evaluated. -/
local macro "eval_run" : tactic => `(tactic| (
  simp only [handleTranslationUnit, emitModule, findEnclosingScopes, analyze, pruneGraph, hideNamespaces,
    declContextsWithVisibleNamedDecls, deriveEffectiveVisibility, dfs_fuel]
  decide +kernel))

/-- Methods with the same name are overloads, in the order of their declarations. -/
example : exSameNameResult [lozenge ++ t%"visible"] [] [lozenge ++ t%"expose_as(f)"] false [] [t%"S"] t%"f" =
    some (.inr [2, 3]) := by
  unfold exSameNameResult
  eval_run

/-- C73: none of the clashes is diagnosed by the tool.  A static method with the same name as
another method prevents the module from being imported, ... -/
theorem C73_static_undiagnosed :
    exSameNameDiags [lozenge ++ t%"visible"] [] [lozenge ++ t%"expose_as(f)"] true [] = [] ∧
    exSameNameResult [lozenge ++ t%"visible"] [] [lozenge ++ t%"expose_as(f)"] true [] [t%"S"] t%"f" =
      some (.inl (.staticAndInstance [t%"S"] t%"f")) := by
  constructor
  · unfold exSameNameDiags; eval_run
  · unfold exSameNameResult; eval_run

/-- ... a function with the same name as a class does so, too, ... -/
theorem C73_class_undiagnosed :
    exSameNameDiags [lozenge ++ t%"visible, expose_as(f)"] [] [] false [lozenge ++ t%"visible"] = [] ∧
    exSameNameResult [lozenge ++ t%"visible, expose_as(f)"] [] [] false [lozenge ++ t%"visible"] [] t%"f" =
      some (.inl (.notAFunction [] t%"f")) := by
  constructor
  · unfold exSameNameDiags; eval_run
  · unfold exSameNameResult; eval_run

/-- ... and a property replaces a method of the same name. -/
theorem C73_replaced :
    exSameNameDiags [lozenge ++ t%"visible"] [] [lozenge ++ t%"getter_for(f)"] false [] = [] ∧
    exSameNameResult [lozenge ++ t%"visible"] [] [lozenge ++ t%"getter_for(f)"] false [] [t%"S"] t%"f" =
      some (.inr []) := by
  constructor
  · unfold exSameNameDiags; eval_run
  · unfold exSameNameResult; eval_run
end Verif
