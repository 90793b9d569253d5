import Verif.Lemmas.Objects
import Verif.Props.Module
/-!
# C28: where classes, enums and submodules are created
-/
namespace Verif
open Spec

/-- C28: running the generated module definition, the variable of each context refers to
the object its members belong to, given by the scopes around the first declaration. -/
theorem C28_objects (w : EmitWorld) (ok : EmitOK w) (s : Storage) (g : Graph)
    (vis : Visibilities) (pick : Pick) (nodes : List Nat) (hi : EmitInput w g pick nodes)
    (streams : Nat) (name : Str) (order : List Nat)
    (hr : declContextsSortedByDependencies w.toWorld w.bases pick nodes g
      (findEnclosingScopes w.toWorld s g) = (order, none))
    (hid : (identifiersOf w order).Nodup) :
    ∃ env, runIntroducers [(t%"root", [])] ((emitModule w s g vis pick nodes streams name).stream 0) =
        some env ∧
      ∀ x ∈ g.nodes, ∃ path, Refers w s g order x path ∧
        env.lookup (identifierOf w order x) = some path := by
  have hg := hi.graph
  have hv := C29_order w.toWorld s g hg w.bases hi.bases pick hi.picks nodes hi.perm order hr
  have hnd : order.Nodup := hv.perm.nodup_iff.2 hg.nodup
  -- the introducers
  have hintro : ∀ (m pre : List (Nat × Str)) env,
      (contextsOf w order).zip (identifiersOf w order) = pre ++ m →
      env.lookup t%"root" = some [] →
      (∀ v, v ∈ env.map (·.1) ↔ v ∈ t%"root" :: pre.map (·.2)) →
      (∀ p ∈ pre, ∃ path, Refers w s g order p.1 path ∧ env.lookup p.2 = some path) →
      ∃ env', runIntroducers env (m.map fun p => Line.introduce p.2
          ((Exposer.create w s p.1).introducer w s g (parentIdentifier w s g order p.1))) = some env' ∧
        ∀ p ∈ pre ++ m, ∃ path, Refers w s g order p.1 path ∧ env'.lookup p.2 = some path := by
    intro m
    induction m with
    | nil =>
      intro pre env _ _ _ h
      exact ⟨env, rfl, by simpa using h⟩
    | cons p m ih =>
      intro pre env hl hroot hkeys hpre
      have hb := parent_before w s g hg order hv pre m p hl
      have hpc : p.1 ∈ contextsOf w order := by
        rw [← zip_contexts, hl]
        simp
      have hpo : p.1 ∈ order := (List.mem_filter.1 hpc).1
      have hrep : representative w order p.1 = some p.1 := by
        simpa using (List.mem_filter.1 hpc).2
      -- the object of the parent
      have hpar : ∃ pp, env.lookup (parentIdentifier w s g order p.1) = some pp ∧
          Refers w s g order p.1 (extend w s p.1 pp) := by
        unfold parentIdentifier
        rcases scopes_spec (s := s) hg.toContextGraph p.1 (hg.reach _ (hv.perm.mem_iff.1 hpo)) with
          ⟨he, hs⟩ | ⟨hne, q, hs, hq⟩
        · rw [hs]
          refine ⟨[], hroot, ?_⟩
          rw [he]
          unfold extend hasObject
          rw [hg.root_kind]
          exact .root
        · rw [hs]
          dsimp only
          obtain ⟨r, hrm, hr1, hr2⟩ := hb.2 q hs
          obtain ⟨pr, hpr, hlr⟩ := hpre r hrm
          rw [hr2]
          refine ⟨pr, hlr, ?_⟩
          have hq' : Refers w s g order q pr := by
            by_cases e : r.1 = q
            · rwa [e] at hpr
            · exact .again hr1 e hpr
          unfold extend
          cases ho : hasObject w s p.1 with
          | true => exact .own hrep hq hq' ho
          | false => exact .inside hrep hq hq' ho
      obtain ⟨pp, hlp, hext⟩ := hpar
      -- the identifier is new
      have hnew : env.lookup p.2 = none := by
        rw [lookup_mem_keys, hkeys]
        have hids : identifiersOf w order = pre.map (·.2) ++ p.2 :: m.map (·.2) := by
          rw [← zip_identifiers w order, hl]
          simp
        intro hm
        rcases List.mem_cons.1 hm with hm | hm
        · exact root_not_identifier w order (by rw [hids, hm]; simp)
        · rw [hids] at hid
          exact (List.nodup_append.1 hid).2.2 _ hm _ (by simp) rfl
      have hrun := ih (pre ++ [p]) ((p.2, extend w s p.1 pp) :: env) (by simpa using hl) ?_ ?_ ?_
      · obtain ⟨env', h1, h2⟩ := hrun
        refine ⟨env', ?_, by simpa using h2⟩
        simp only [List.map_cons, runIntroducers]
        rw [introducer_parent, hlp, hnew]
        dsimp only
        rw [introducer_object]
        exact h1
      · have : t%"root" ≠ p.2 := by
          intro e
          rw [← e] at hnew
          rw [hnew] at hroot
          cases hroot
        rw [List.lookup, beq_eq_false_iff_ne.2 this]
        exact hroot
      · intro v
        simp only [List.map_cons, List.mem_cons, List.map_append, List.map_nil, List.mem_append,
          List.not_mem_nil, or_false]
        have := hkeys v
        simp only [List.mem_cons] at this
        rw [this]
        constructor
        · rintro (h | h | h)
          · exact .inr (.inr h)
          · exact .inl h
          · exact .inr (.inl h)
        · rintro (h | h | h)
          · exact .inr (.inl h)
          · exact .inr (.inr h)
          · exact .inl h
      · intro q hq
        rcases List.mem_append.1 hq with hq | hq
        · obtain ⟨path, hpath, hlq⟩ := hpre q hq
          refine ⟨path, hpath, ?_⟩
          have : q.2 ≠ p.2 := by
            intro e
            rw [e, hnew] at hlq
            cases hlq
          rw [List.lookup, beq_eq_false_iff_ne.2 this]
          exact hlq
        · rw [List.mem_singleton] at hq
          subst hq
          refine ⟨_, hext, ?_⟩
          rw [List.lookup, beq_self_eq_true]
  obtain ⟨env, h1, h2⟩ := hintro _ [] [(t%"root", [])] rfl rfl (by simp) (by simp)
  refine ⟨env, ?_, ?_⟩
  · rw [stream_eq w ok s g vis pick nodes hi streams name order hr, if_pos rfl]
    unfold mainOf
    dsimp only
    simp only [List.append_assoc]
    rw [run_append, run_skip]
    · simp only [Option.bind_some]
      rw [run_append, run_skip]
      · simp only [Option.bind_some]
        rw [run_append]
        refine (congrArg (fun o => Option.bind o _) h1).trans ?_
        simp only [Option.bind_some]
        refine run_skip _ _ fun x hx => ?_
        simp only [List.mem_append, List.mem_map, List.mem_cons, List.not_mem_nil, or_false,
          List.mem_filterMap, List.mem_flatMap] at hx
        rcases hx with rfl | ⟨p, _, rfl⟩ | ⟨v, _, hx⟩ | rfl | ⟨p, _, hx⟩
        · rfl
        · rfl
        · obtain ⟨l, _, rfl⟩ := Option.map_eq_some_iff.1 hx
          rfl
        · rfl
        · have := definition_select w s g vis 0 p.1.1 p.1.2 introducedOf (fun _ _ => rfl) (fun _ => rfl) rfl
          exact List.filterMap_eq_nil_iff.1 this x hx
      · intro x hx
        simp only [List.mem_cons, List.not_mem_nil, or_false] at hx
        rcases hx with rfl | rfl <;> rfl
    · intro x hx
      obtain ⟨p, _, rfl⟩ := List.mem_map.1 hx
      rfl
  · intro x hx
    obtain ⟨r, hrep⟩ := representative_isSome w order x (hv.perm.mem_iff.2 hx)
    obtain ⟨_, hro⟩ := representative_same w order x r hrep
    have hrc : r ∈ contextsOf w order :=
      List.mem_filter.2 ⟨hro, by simpa using representative_idem w order x r hrep⟩
    rw [← zip_contexts] at hrc
    obtain ⟨p, hp, rfl⟩ := List.mem_map.1 hrc
    obtain ⟨path, hpath, hl⟩ := h2 p hp
    refine ⟨path, ?_, ?_⟩
    · by_cases e : p.1 = x
      · rwa [e] at hpath
      · exact .again hrep e hpath
    · rw [← hl]
      congr 1
      rw [← identifierOf_zip w order hnd p hp]
      unfold identifierOf
      rw [hrep, representative_idem w order x _ hrep]

/-- The object is determined. -/
theorem refers_unique (w : EmitWorld) (s : Storage) (g : Graph) (hg : ExposedGraph w.toWorld g)
    (order : List Nat) {x : Nat} {a b : List Str}
    (ha : Refers w s g order x a) (hb : Refers w s g order x b) : a = b := by
  have hroot : ∀ r, representative w order g.root = some r → r = g.root := by
    intro r h
    have := (representative_same w order _ _ h).1
    unfold sameContext at this
    simp only [Bool.or_eq_true, decide_eq_true_eq, hg.root_kind] at this
    rcases this with h | h
    · exact h.symm
    · simp at h
  have hno : ∀ q, ¬ EnclosingScope s g q g.root := by
    intro q h
    generalize e : g.root = r at h
    cases h with
    | here hE _ => exact hg.root_top q (e ▸ hE)
    | above _ hE _ _ => exact hg.root_top _ (e ▸ hE)
  have huniq : ∀ x q r, EnclosingScope s g q x → EnclosingScope s g r x → q = r := by
    intro x q r hq hr
    have hx : x ∈ g.nodes := by
      cases hq with
      | here hE _ => exact hg.child _ _ hE
      | above _ hE _ _ => exact hg.child _ _ hE
    have h := (C29_scope w.toWorld s g hg x hx).2.1
    have := (h q).2 hq
    rw [(h r).2 hr] at this
    cases this
    rfl
  induction ha generalizing b with
  | root =>
    generalize e : g.root = r at hb
    cases hb with
    | root => rfl
    | again h1 h2 _ => exact absurd (by rw [← e]; exact hroot _ (e ▸ h1)) h2
    | inside _ h _ _ => exact absurd (e ▸ h) (hno _)
    | own _ h _ _ => exact absurd (e ▸ h) (hno _)
  | again h1 h2 _ ih =>
    cases hb with
    | root => exact absurd (hroot _ h1) h2
    | again h3 _ h4 =>
      rw [h1] at h3
      cases h3
      exact ih h4
    | inside h3 _ _ _ => rw [h1] at h3; cases h3; exact absurd rfl h2
    | own h3 _ _ _ => rw [h1] at h3; cases h3; exact absurd rfl h2
  | inside h1 h2 _ h3 ih =>
    cases hb with
    | root => exact absurd h2 (hno _)
    | again h4 h5 _ => rw [h1] at h4; cases h4; exact absurd rfl h5
    | inside _ h5 h6 _ =>
      cases huniq _ _ _ h2 h5
      exact ih h6
    | own _ _ _ h5 => rw [h3] at h5; cases h5
  | own h1 h2 _ h3 ih =>
    cases hb with
    | root => exact absurd h2 (hno _)
    | again h4 h5 _ => rw [h1] at h4; cases h4; exact absurd rfl h5
    | inside _ _ _ h5 => rw [h3] at h5; cases h5
    | own _ h5 h6 _ =>
      cases huniq _ _ _ h2 h5
      rw [ih h6]

/-- If declarations of the same namespace agree the first one is like the others. -/
theorem refers_placed (w : EmitWorld) (s : Storage) (hd : Derived w s) (g : Graph)
    (hg : ExposedGraph w.toWorld g) (order : List Nat) (hp : order.Perm g.nodes) (ag : Agree w s g)
    {x : Nat} {path : List Str} (h : Refers w s g order x path) (hx : x ∈ g.nodes) :
    PlacedAt w s g x path := by
  have key : ∀ q x path, EnclosingScope s g q x → (q ∈ g.nodes → PlacedAt w s g q path) → x ∈ g.nodes →
      PlacedAt w s g x (extend w s x path) := by
    intro q x path hq ih hx
    have hqn := ((C29_scope w.toWorld s g hg x hx).2.2.1 q hq).1
    obtain ⟨px, hpx⟩ := placed_exists w s g x (hg.reach x hx)
    obtain ⟨pq, h1, h2⟩ := scope_placed w s hd g hg.toForest q x hq px hpx
    rw [placed_unique w s g hg.toForest (ih hqn) h1, ← h2]
    exact hpx
  induction h with
  | root => exact .root
  | again h1 h2 _ ih =>
    obtain ⟨hs, ho⟩ := representative_same w order _ _ h1
    obtain ⟨px, hpx⟩ := placed_exists w s g _ (hg.reach _ hx)
    rw [← agree_placed w s g hg.toContextGraph ag hs hpx (ih (hp.mem_iff.1 ho))]
    exact hpx
  | inside _ h2 _ h3 ih =>
    have := key _ _ _ h2 ih hx
    rwa [extend, h3] at this
  | own _ h2 _ h3 ih =>
    have := key _ _ _ h2 ih hx
    rwa [extend, h3] at this

/-- C28: classes, enums and submodules are created in the object of the innermost class,
enum or `module` namespace around them.

Partial: declarations of the same namespace have to agree, see `C28_reopened` (and
`C28_agree` for when they do); and the identifiers have to be distinct, see C09. -/
theorem C28_objects_partial (w : EmitWorld) (ok : EmitOK w) (s : Storage) (hd : Derived w s) (g : Graph)
    (vis : Visibilities) (pick : Pick) (nodes : List Nat) (hi : EmitInput w g pick nodes)
    (streams : Nat) (name : Str) (order : List Nat)
    (hr : declContextsSortedByDependencies w.toWorld w.bases pick nodes g
      (findEnclosingScopes w.toWorld s g) = (order, none))
    (ag : Agree w s g) (hid : (identifiersOf w order).Nodup) :
    ∃ env, runIntroducers [(t%"root", [])] ((emitModule w s g vis pick nodes streams name).stream 0) =
        some env ∧
      ∀ x ∈ g.nodes, ∃ path, PlacedAt w s g x path ∧ env.lookup (identifierOf w order x) = some path := by
  obtain ⟨env, h1, h2⟩ := C28_objects w ok s g vis pick nodes hi streams name order hr hid
  have hv := C29_order w.toWorld s g hi.graph w.bases hi.bases pick hi.picks nodes hi.perm order hr
  refine ⟨env, h1, fun x hx => ?_⟩
  obtain ⟨path, h3, h4⟩ := h2 x hx
  exact ⟨path, refers_placed w s hd g hi.graph order hv.perm ag h3 hx, h4⟩

end Verif
