import Verif.Lemmas.Visibility
/-!
# Properties of the traversal and of graph construction (C20, C21, C22, C53)
-/
namespace Verif
open Spec

/-! A translation unit for the examples:
```
namespace ns GENPYBIND(visible) {
struct GENPYBIND(hidden) X {};
struct V {};
}
using Y GENPYBIND(expose_here) = ns::X;
struct GENPYBIND(visible) Z { using W GENPYBIND(encourage) = ns::V; };
namespace ns GENPYBIND(visible) { struct GENPYBIND(visible) U {}; }
namespace __detail { struct GENPYBIND(visible) Q {}; }
``` -/
section
def exW : World where
  info := fun
    | 0 => { kind := .translationUnit }
    | 1 => { kind := .namespace, name := t%"ns", attrTexts := [marker ++ t%"visible"] }
    | 2 => { kind := .record, name := t%"X", attrTexts := [marker ++ t%"hidden"] }
    | 3 => { kind := .typedefName, name := t%"Y", attrTexts := [marker ++ t%"expose_here"],
             aliasTarget := some 2 }
    | 4 => { kind := .record, name := t%"Z", attrTexts := [marker ++ t%"visible"] }
    | 5 => { kind := .typedefName, name := t%"W", attrTexts := [marker ++ t%"encourage"],
             aliasTarget := some 6 }
    | 6 => { kind := .record, name := t%"V" }
    | 7 => { kind := .namespace, name := t%"ns", attrTexts := [marker ++ t%"visible"] }
    | 8 => { kind := .record, name := t%"U", attrTexts := [marker ++ t%"visible"] }
    | 9 => { kind := .namespace, name := t%"__detail" }
    | 10 => { kind := .record, name := t%"Q", attrTexts := [marker ++ t%"visible"] }
    | _ => { kind := .other }
  hasName := fun _ _ => false
  ancestors := fun
    | 0 => [] | 2 => [1, 0] | 6 => [1, 0] | 5 => [4, 0] | 8 => [7, 0] | 10 => [9, 0] | _ => [0]
  canonical := fun | 7 => 1 | x => x
  access := fun | 5 => .public | _ => .none
  loc := fun x => x
  dependentContext := fun _ => false
  unit := 0

def exTree : Tree :=
  .node 0 [.node 1 [.node 2 [], .node 6 []], .node 3 [], .node 4 [.node 5 []],
    .node 7 [.node 8 []], .node 9 [.node 10 []]]

theorem exW_wellFormed : WellFormed exW exTree := by
  refine ⟨rfl, fun id => ?_, by decide +kernel, fun id p ps => ?_, fun id h => ?_, rfl,
    fun a x => ?_, fun a x => ?_, fun a => ?_⟩
  all_goals simp only [exW]
  · split <;> simp_all
  · split <;> simp <;> rintro rfl rfl <;> rfl
  · split <;> simp_all [exW]
  · split <;> simp <;> rintro rfl <;> simp
  · split <;> simp <;> rintro rfl <;> simp
  · split <;> simp
end

/-! ### C20 -/

/-- C20: if no error is reported while the translation unit is traversed, all
re-declarations of a namespace that are annotated or contain annotated
declarations have been given the same attributes. -/
theorem C20_agree (w : World) (root : Tree) (hd : (ids root).Nodup)
    (hok : hasErrors (traverse w {} root).diags = false) (s t : Tree)
    (hs : Occurs w root s) (ht : Occurs w root t)
    (ks : (w.info s.id).kind = .namespace) (kt : (w.info t.id).kind = .namespace)
    (hc : w.canonical s.id = w.canonical t.id) (rs : Relevant w s) (rt : Relevant w t) :
    (traverse w {} root).storage.entries s.id = (traverse w {} root).storage.entries t.id := by
  have h := traverse_inv w root hd
  have hk := (h.ok.1 hok).2
  have ms := closes_of_occurs w root s hs ks rs
  have mt := closes_of_occurs w root t ht kt rt
  rw [h.entries, h.entries, if_pos (occurs_visited w root s hs), if_pos (occurs_visited w root t ht)]
  have find : ∀ x ∈ closes (events w root), ∃ f, (closes (events w root)).find?
      (fun y => w.canonical y = w.canonical x) = some f := by
    intro x hx
    cases hf : (closes (events w root)).find? (fun y => w.canonical y = w.canonical x) with
    | some f => exact ⟨f, rfl⟩
    | none => simpa using List.find?_eq_none.1 hf x hx
  obtain ⟨f, hf⟩ := find _ ms
  have hf2 := hf
  rw [hc] at hf2
  have kf : (w.info f).kind = .namespace := by
    obtain ⟨_, _, _, h, _⟩ := closes_sub w root f (List.mem_of_find?_eq_some hf)
    exact h
  rw [(equalFinal_namespace w _ _ ks kf).1 (hk _ ms f hf),
    (equalFinal_namespace w _ _ kt kf).1 (hk _ mt f hf2)]

/-- C20 (nothing else is rejected): the traversal reports an error if and only if
some annotated declaration has faulty annotations of its own, or two
re-declarations as above disagree. -/
theorem C20_errors_iff (w : World) (root : Tree) (hd : (ids root).Nodup) :
    hasErrors (traverse w {} root).diags = false ↔
      (∀ t, Occurs w root t → Annotated w t.id →
        hasErrors (Storage.empty.insert w.toDeclEnv t.id).2 = false) ∧
      (∀ s t, Occurs w root s → Occurs w root t →
        (w.info s.id).kind = .namespace → (w.info t.id).kind = .namespace →
        w.canonical s.id = w.canonical t.id → Relevant w s → Relevant w t →
        (traverse w {} root).storage.entries s.id = (traverse w {} root).storage.entries t.id) := by
  have h := traverse_inv w root hd
  constructor
  · intro hok
    refine ⟨fun t ht ha => ?_, fun s t hs ht ks kt hc rs rt =>
      C20_agree w root hd hok s t hs ht ks kt hc rs rt⟩
    have hv := occurs_visited w root t ht
    have ha' := (annot_iff w t.id).2 ha
    rw [insert_empty w .empty t.id ha' (visited_not_skip w root _ hv) rfl]
    exact (h.ok.1 hok).1 _ hv ha'
  · rintro ⟨h1, h2⟩
    refine h.ok.2 ⟨fun x hx ha => ?_, fun x hx f hf => ?_⟩
    · obtain ⟨t, ht, rfl⟩ := (mem_visited ..).1 hx
      have := h1 t ht ((annot_iff ..).1 ha)
      rwa [insert_empty w .empty t.id ha (visited_not_skip w root _ hx) rfl] at this
    · obtain ⟨s, hs, rfl, ks, rs⟩ := closes_sub w root x hx
      obtain ⟨t, ht, rfl, kt, rt⟩ := closes_sub w root f (List.mem_of_find?_eq_some hf)
      have hc := List.find?_some hf
      simp only [decide_eq_true_eq] at hc
      have := h2 s t hs ht ks kt hc.symm rs rt
      rw [h.entries, h.entries, if_pos (occurs_visited w root s hs),
        if_pos (occurs_visited w root t ht)] at this
      exact (equalFinal_namespace w _ _ ks kt).2 this

/-- C20: attributes are those the declaration has on its own. -/
theorem C20_attributes (w : World) (root : Tree) (hd : (ids root).Nodup) (t : Tree)
    (ht : Occurs w root t) :
    (Annotated w t.id → (traverse w {} root).storage.entries t.id = ownAttrs w t.id) ∧
    (¬ Annotated w t.id → (traverse w {} root).storage.entries t.id = none) := by
  have h := traverse_inv w root hd
  have hv := occurs_visited w root t ht
  rw [h.entries, if_pos hv]
  constructor
  · intro ha
    rw [(entryOf_own w t.id ((annot_iff ..).2 ha) (visited_not_skip w root _ hv)).1]
  · intro ha
    rw [← annot_iff] at ha
    simp [entryOf, ha]

example : (ids exTree).Nodup := exW_wellFormed.distinct
example : hasErrors (traverse exW {} exTree).diags = false := by decide +kernel
example : Occurs exW exTree (.node 7 [.node 8 []]) :=
  .inside (by simp [Implementation, exW]) (by simp) (.here (by simp [Implementation, exW, Tree.id]))
/-- Without an annotation on the second declaration there would be an error, as it
contains an annotated declaration. -/
example : hasErrors (traverse { exW with info := fun
    | 7 => { kind := .namespace, name := t%"ns" }
    | x => exW.info x } {} exTree).diags = true := by decide +kernel

/-! ### C21 -/

/-- C21: in a graph that has been built, every class, enum and namespace of the
translation unit is the child of exactly one node, exactly once: of the scope of
its `expose_here` alias if there is one, else of its own scope. -/
theorem C21_one_place (w : World) (root : Tree) (wf : WellFormed w root) (g : Graph) (b : Building)
    (h : buildGraph w root = (some g, b)) (t : Tree) (ht : Occurs w root t)
    (hc : Context w t.id) :
    ∃ p, ((∃ a, ExposesHere w root a t.id ∧ ScopeOf w a p) ∨
          ((¬ ∃ a, ExposesHere w root a t.id) ∧ ScopeOf w t.id p)) ∧
      ∀ q, (g.children q).count t.id = if q = p then 1 else 0 := by
  have hb := built w root wf g b h
  have hu := context_not_unit w root wf _ hc
  have key := fun q => built_edges hb q t.id
  cases hr : b.relocated t.id with
  | some a =>
    have ha := (relocated_iff hb a _).1 hr
    have hau : a ≠ w.unit := by
      rintro rfl
      have h1 := ha.2.2.1
      rw [(wf.unit_kind w.unit).2 rfl] at h1
      exact absurd h1 (by simp)
    refine ⟨w.findLookupContextDecl a, .inl ⟨a, ha, (scopeOf_find w root wf a _ hau).2 rfl⟩,
      fun q => ?_⟩
    have := key q
    rwa [hr] at this
  | none =>
    refine ⟨w.findLookupContextDecl t.id, .inr ⟨?_, (scopeOf_find w root wf _ _ hu).2 rfl⟩,
      fun q => ?_⟩
    · rintro ⟨a, ha⟩
      rw [(relocated_iff hb a _).2 ha] at hr
      exact absurd hr (by simp)
    · have := key q
      rw [hr] at this
      have hm : t.id ∈ (visited w root).filter (isCtx w) := (mem_contexts ..).2 ⟨⟨t, ht, rfl⟩, hc⟩
      simpa [hm, Graph.edges] using this

/-- C21: a type that is exposed elsewhere has that place even if it does not occur
in the translation unit itself (e.g. because it is part of `std`). -/
theorem C21_relocated (w : World) (root : Tree) (wf : WellFormed w root) (g : Graph) (b : Building)
    (h : buildGraph w root = (some g, b)) (a x : Nat) (ha : ExposesHere w root a x) :
    ∃ p, ScopeOf w a p ∧ ∀ q, (g.children q).count x = if q = p then 1 else 0 := by
  have hb := built w root wf g b h
  have hau : a ≠ w.unit := by
    rintro rfl
    have h1 := ha.2.2.1
    rw [(wf.unit_kind w.unit).2 rfl] at h1
    exact absurd h1 (by simp)
  refine ⟨w.findLookupContextDecl a, (scopeOf_find w root wf a _ hau).2 rfl, fun q => ?_⟩
  have := built_edges hb q x
  rwa [(relocated_iff hb a x).2 ha] at this

/-- C21: a second `expose_here` for a type is an error, so no graph is built. -/
theorem C21_second_rejected (w : World) (root : Tree) (wf : WellFormed w root) (a a' x : Nat)
    (ha : ExposesHere w root a x) (ha' : ExposesHere w root a' x) (hne : a ≠ a') :
    (buildGraph w root).1 = none ∧ hasErrors (buildGraph w root).2.diags = true := by
  constructor
  · cases hg : (buildGraph w root).1 with
    | none => rfl
    | some g =>
      have : buildGraph w root = (some g, (buildGraph w root).2) := by rw [← hg]
      exact absurd (exposed_unique (built w root wf g _ this) ha ha') hne
  · cases he : hasErrors (buildGraph w root).2.diags with
    | true => rfl
    | false =>
      exfalso
      cases hg : (buildGraph w root).1 with
      | some g =>
        have : buildGraph w root = (some g, (buildGraph w root).2) := by rw [← hg]
        exact hne (exposed_unique (built w root wf g _ this) ha ha')
      | none =>
        unfold buildGraph at hg he
        simp only at hg he
        split at hg
        · rename_i h1; rw [if_pos h1] at he; rw [he] at h1; exact absurd h1 (by simp)
        · rename_i h1
          rw [if_neg h1] at he
          split at hg
          · rename_i h2; rw [if_pos h2] at he; rw [he] at h2; exact absurd h2 (by simp)
          · exact absurd hg (by simp)

/-- C21: nothing else has a place: every edge is of one of the above kinds, and the
translation unit is at the top. -/
theorem C21_nothing_else (w : World) (root : Tree) (wf : WellFormed w root) (g : Graph)
    (b : Building) (h : buildGraph w root = (some g, b)) (p x : Nat) (hx : x ∈ g.children p) :
    x ≠ w.unit ∧ ((∃ a, ExposesHere w root a x) ∨
      (∃ t, Occurs w root t ∧ t.id = x ∧ Context w x)) := by
  have hb := built w root wf g b h
  rcases (built_edge_iff hb p x).1 hx with ⟨a, ha, _⟩ | ⟨_, ⟨t, ht, e⟩, hc, _⟩
  · exact ⟨target_not_unit w root wf a x ha, .inl ⟨a, ha⟩⟩
  · exact ⟨context_not_unit w root wf x hc, .inr ⟨t, ht, e, hc⟩⟩

/-- Children of the nodes of the example: `X` is moved to the translation unit. -/
example : (buildGraph exW exTree).1.map (fun g => (List.range 11).map g.children) =
    some [[2, 1, 4, 7], [6], [], [], [], [], [], [8], [], [], []] := by decide +kernel

/-! ### C22 -/

/-- C22: the cycle error is reported exactly for the aliases of types that cannot be
reached, whatever the order in which nodes are iterated. -/
theorem C22_reported (w : World) (root : Tree) (wf : WellFormed w root) (g : Graph)
    (b : Building) (h : buildGraph w root = (some g, b)) (nodes : List Nat)
    (hn : nodes.Perm g.nodes) (a : Nat) :
    (∃ d ∈ (reportExposeHereCycles w nodes
        (reachableDeclContexts (deriveEffectiveVisibility w b.storage g)) b.relocated).2,
      d.decl = a ∧ d.kind = .exposeHereCycle) ↔
    ∃ x, ExposesHere w root a x ∧ ¬ Reachable g x := by
  have hb := built w root wf g b h
  have hf := built_forest wf hb
  simp only [reportExposeHereCycles, List.mem_map]
  constructor
  · rintro ⟨d, ⟨a', ha', rfl⟩, rfl, _⟩
    obtain ⟨x, _, hr, hrel⟩ := (mem_cycleAliases ..).1 ha'
    refine ⟨x, (relocated_iff hb _ x).1 hrel, fun hreach => ?_⟩
    rw [← derive_reachable w b.storage g hf] at hreach
    rw [reachableDeclContexts, hreach] at hr
    exact absurd hr (by simp)
  · rintro ⟨x, hx, hreach⟩
    refine ⟨_, ⟨a, (mem_cycleAliases ..).2 ⟨x, ?_, ?_, (relocated_iff hb a x).2 hx⟩, rfl⟩, rfl, rfl⟩
    · rw [hn.mem_iff, built_nodes hb]
      exact .inr ⟨_, x, (built_edge_iff hb _ x).2 (.inl ⟨a, hx, rfl⟩), .inl rfl⟩
    · rw [reachableDeclContexts, Bool.eq_false_iff, Ne, derive_reachable w b.storage g hf]
      exact hreach

/-- C22 (what holds of "if and only if"; see `C22_dropped_silently` for the
condition): if types and aliases are only placed in scopes that are part of the
translation unit, i.e. not in `std` or reserved namespaces, an error is reported if
and only if something in the graph cannot be reached from the translation unit. -/
theorem C22_iff_partial (w : World) (root : Tree) (wf : WellFormed w root) (g : Graph)
    (b : Building) (h : buildGraph w root = (some g, b)) (nodes : List Nat)
    (hn : nodes.Perm g.nodes)
    (hscope : ∀ t, Occurs w root t → ∀ p, ScopeOf w t.id p →
      Context w t.id ∨ (w.info t.id).kind = .typedefName →
      p = w.unit ∨ ((∃ s, Occurs w root s ∧ s.id = p) ∧ Context w p)) :
    (reportExposeHereCycles w nodes
      (reachableDeclContexts (deriveEffectiveVisibility w b.storage g)) b.relocated).1 = true ↔
    ∃ x ∈ g.nodes, ¬ Reachable g x := by
  have hb := built w root wf g b h
  have hf := built_forest wf hb
  have hrep := C22_reported w root wf g b h nodes hn
  have hiff : (reportExposeHereCycles w nodes
      (reachableDeclContexts (deriveEffectiveVisibility w b.storage g)) b.relocated).1 = true ↔
      ∃ a x, ExposesHere w root a x ∧ ¬ Reachable g x := by
    have : (reportExposeHereCycles w nodes
        (reachableDeclContexts (deriveEffectiveVisibility w b.storage g)) b.relocated).1 = true ↔
        ∃ a, ∃ d ∈ (reportExposeHereCycles w nodes
          (reachableDeclContexts (deriveEffectiveVisibility w b.storage g)) b.relocated).2,
        d.decl = a ∧ d.kind = .exposeHereCycle := by
      simp only [reportExposeHereCycles]
      generalize cycleAliases w nodes
        (reachableDeclContexts (deriveEffectiveVisibility w b.storage g)) b.relocated = l
      cases l <;> simp
    rw [this]
    exact exists_congr fun a => hrep a
  rw [hiff]
  constructor
  · rintro ⟨a, x, hx, hr⟩
    refine ⟨x, ?_, hr⟩
    rw [built_nodes hb]
    exact .inr ⟨_, x, (built_edge_iff hb _ x).2 (.inl ⟨a, hx, rfl⟩), .inl rfl⟩
  · rintro ⟨n, hnode, hreach⟩
    apply Classical.byContradiction
    intro hno
    have hrel : ∀ a x, ExposesHere w root a x → Reachable g x := by
      intro a x hx
      apply Classical.byContradiction
      intro hr; exact hno ⟨a, x, hx, hr⟩
    have hunit : Reachable g w.unit := by rw [← hb.root]; exact .root
    have hctx : ∀ (d x : Nat), (w.ancestors x).length = d → (∃ s, Occurs w root s ∧ s.id = x) →
        Context w x → Reachable g x := by
      intro d
      induction d using Nat.strongRecOn with
      | _ d ih =>
        intro x hd ho hc
        by_cases hex : ∃ a, ExposesHere w root a x
        · obtain ⟨a, ha⟩ := hex; exact hrel a x ha
        · have hu := context_not_unit w root wf x hc
          have hs : ScopeOf w x (w.findLookupContextDecl x) := (scopeOf_find w root wf x _ hu).2 rfl
          have hE : Edge g (w.findLookupContextDecl x) x :=
            (built_edge_iff hb _ x).2 (.inr ⟨hex, ho, hc, rfl⟩)
          refine .step ?_ trivial hE
          obtain ⟨t, ht, rfl⟩ := ho
          rcases hscope t ht _ hs (.inl hc) with hp | ⟨hp1, hp2⟩
          · rw [hp]; exact hunit
          · exact ih _ (by rw [← hd]; exact scope_depth wf _ _ hs) _ rfl hp1 hp2
    have hscopes : ∀ t, Occurs w root t → t.id ≠ w.unit →
        Context w t.id ∨ (w.info t.id).kind = .typedefName →
        Reachable g (w.findLookupContextDecl t.id) := by
      intro t ht hu hk
      rcases hscope t ht _ ((scopeOf_find w root wf _ _ hu).2 rfl) hk with hp | ⟨hp1, hp2⟩
      · rw [hp]; exact hunit
      · exact hctx _ _ rfl hp1 hp2
    apply hreach
    rcases (built_nodes hb n).1 hnode with rfl | ⟨p, x, hE, hn⟩
    · exact hunit
    · rcases (built_edge_iff hb p x).1 hE with ⟨a, ha, hp⟩ | ⟨_, ho, hc, hp⟩
      · rcases hn with rfl | rfl
        · exact hrel a _ ha
        · obtain ⟨⟨t, ht, rfl⟩, _, hk, _⟩ := ha
          rw [hp]
          refine hscopes t ht ?_ (.inr hk)
          intro e
          rw [e, (wf.unit_kind w.unit).2 rfl] at hk
          exact absurd hk (by simp)
      · rcases hn with rfl | rfl
        · exact hctx _ _ rfl ho hc
        · obtain ⟨t, ht, rfl⟩ := ho
          rw [hp]
          exact hscopes t ht (context_not_unit w root wf _ hc) (.inl hc)

/-- Two classes each exposing the other inside of itself:
```
struct B; struct A { using B_ GENPYBIND(expose_here) = B; };
struct B { using A_ GENPYBIND(expose_here) = A; };
``` -/
def exCycle : World where
  info := fun
    | 0 => { kind := .translationUnit }
    | 1 => { kind := .record, name := t%"A" }
    | 2 => { kind := .record, name := t%"B" }
    | 3 => { kind := .typedefName, name := t%"B_", attrTexts := [marker ++ t%"expose_here"],
             aliasTarget := some 2 }
    | 4 => { kind := .typedefName, name := t%"A_", attrTexts := [marker ++ t%"expose_here"],
             aliasTarget := some 1 }
    | _ => { kind := .other }
  hasName := fun _ _ => false
  ancestors := fun | 0 => [] | 3 => [1, 0] | 4 => [2, 0] | _ => [0]
  canonical := fun x => x
  access := fun _ => .public
  loc := fun x => x
  dependentContext := fun _ => false
  unit := 0

def exCycleTree : Tree := .node 0 [.node 1 [.node 3 []], .node 2 [.node 4 []]]

example : WellFormed exCycle exCycleTree := by
  refine ⟨rfl, fun id => ?_, by decide +kernel, fun id p ps => ?_, fun id h => ?_, rfl,
    fun a x => ?_, fun a x => ?_, fun a => ?_⟩
  all_goals simp only [exCycle]
  · split <;> simp_all
  · split <;> simp <;> rintro rfl rfl <;> rfl
  · split <;> simp_all [exCycle]
  · split <;> simp <;> rintro rfl <;> simp
  · split <;> simp <;> rintro rfl <;> simp
  · split <;> simp

example : let r := buildGraph exCycle exCycleTree
    let g := r.1.getD (.start 0)
    r.1.isSome = true ∧ (reportExposeHereCycles exCycle g.nodes (reachableDeclContexts
      (deriveEffectiveVisibility exCycle r.2.storage g)) r.2.relocated).2.map (·.decl) = [3, 4] :=
  ⟨by decide +kernel, dfs_eval 20 _ _ _ (fun m => (reportExposeHereCycles exCycle _
    (reachableDeclContexts m) _).2.map (·.decl)) _ (by decide +kernel)⟩

/-- An out-of-line definition of a member of a reserved namespace:
```
namespace __ns { struct X; }
struct GENPYBIND(visible) __ns::X {};
``` -/
def exDropped : World where
  info := fun
    | 0 => { kind := .translationUnit }
    | 1 => { kind := .namespace, name := t%"__ns" }
    | 2 => { kind := .record, name := t%"X", attrTexts := [marker ++ t%"visible"] }
    | _ => { kind := .other }
  hasName := fun _ _ => false
  ancestors := fun | 0 => [] | 2 => [1, 0] | _ => [0]
  canonical := fun x => x
  access := fun _ => .none
  loc := fun x => x
  dependentContext := fun _ => false
  unit := 0

def exDroppedTree : Tree := .node 0 [.node 1 [], .node 2 []]

/-- C22: without the condition of `C22_iff_partial` the property does not hold: the
annotated, visible class is part of the graph but cannot be reached, and no error
is reported.  (`template <> struct GENPYBIND(visible) std::hash<X>` is another
example.) -/
theorem C22_dropped_silently :
    ∃ g b, buildGraph exDropped exDroppedTree = (some g, b) ∧ 2 ∈ g.nodes ∧ ¬ Reachable g 2 ∧
      b.diags = [] ∧
      reportExposeHereCycles exDropped g.nodes (reachableDeclContexts
        (deriveEffectiveVisibility exDropped b.storage g)) b.relocated = (false, []) := by
  have wf : WellFormed exDropped exDroppedTree := by
    refine ⟨rfl, fun id => ?_, by decide +kernel, fun id p ps => ?_, fun id h => ?_, rfl,
      fun a x => ?_, fun a x => ?_, fun a => ?_⟩
    all_goals simp only [exDropped]
    · split <;> simp_all
    · split <;> simp <;> rintro rfl rfl <;> rfl
    · split <;> simp_all [exDropped]
    · split <;> simp
    · split <;> simp
    · split <;> simp
  have hbg : buildGraph exDropped exDroppedTree = (some ((buildGraph exDropped exDroppedTree).1.getD
      (.start 0)), (buildGraph exDropped exDroppedTree).2) := by
    have : (buildGraph exDropped exDroppedTree).1.isSome = true := by decide +kernel
    obtain ⟨g, hg⟩ := Option.isSome_iff_exists.1 this
    rw [hg, Option.getD_some, ← hg]
  refine ⟨_, _, hbg, by decide +kernel, ?_, by decide +kernel, ?_⟩
  · have hf := built_forest wf (built _ _ wf _ _ hbg)
    rw [← derive_reachable exDropped (buildGraph exDropped exDroppedTree).2.storage _ hf,
      Bool.not_eq_true]
    exact dfs_eval 20 _ _ _ (fun m : Visibilities => (m 2).isSome) _ (by decide +kernel)
  · exact dfs_eval 20 _ _ _ (fun m => reportExposeHereCycles exDropped _
      (reachableDeclContexts m) _) _ (by decide +kernel)

/-! ### C53 -/

/-- C53: after graph construction, the target of an `expose_here` alias is spelled
like the alias (its `expose_as` spelling, or its name), whatever its own
annotations; everything but spelling and visibility is as annotated on the target
itself.  Its visibility is that of the alias, unless another alias encourages it
(which is why this is not all of C53, see `C53_encourage_overrides`). -/
theorem C53_expose_here_partial (w : World) (root : Tree) (wf : WellFormed w root) (g : Graph)
    (b : Building) (h : buildGraph w root = (some g, b)) (a x : Nat)
    (ha : ExposesHere w root a x) :
    ∃ own final aliasAttrs, ownAttrs w x = some own ∧ ownAttrs w a = some aliasAttrs ∧
      b.storage.entries x = some { own with named := final } ∧
      final.spelling = (if aliasAttrs.named.spelling = [] then (w.info a).name
        else aliasAttrs.named.spelling) ∧
      ((¬ ∃ e, Encourages w root e x) → final.visible = aliasAttrs.named.visible) ∧
      (final.visible = aliasAttrs.named.visible ∨ final.visible = some true) := by
  have hb := built w root wf g b h
  have hskip : shouldSkip (w.info x) = false := by
    rw [shouldSkip_false_iff_tag _ (wf.target_tag a x ha.2.2.2.1)]
    exact wf.target_complete a x ha.2.2.2.1 ha.2.1.2.2.2.1
  obtain ⟨ha1, ha2, ha3⟩ := (exposesHere_iff ..).1 ha
  have hown : ownAttrs w a = some (base w a) ∧ entryOf w a = some (base w a) := by
    have hv := visited_not_skip w root a (List.mem_filter.1 ha1).1
    have := entryOf_own w a ((annot_iff ..).2 ha.2.1) hv
    exact ⟨by rw [this.1, this.2], this.2⟩
  refine ⟨base w x, (((visited w root).filter (isAlias w)).foldl (act w x)
    ((base w x).named, false)).1, base w a, own_base w x hskip, hown.1, ?_⟩
  · rw [hb.inv.entries, if_pos ((touched_iff ..).2 (.inl ⟨a, ha⟩))]
    refine ⟨rfl, ?_⟩
    have hrel := hb.inv.unique hb.ok a ha1 ha3 x ha2
    unfold relocatedBy at hrel
    obtain ⟨_, pre, post, hl, hpre⟩ := List.find?_eq_some_iff_append.1 hrel
    have hpre' : ∀ e ∈ pre, (w.info e).aliasTarget = some x → (aliasAttrs w e).exposeHere = false := by
      intro e he ht
      have := hpre e he
      simpa [ht] using this
    have henc : ∀ l : List Nat, (∀ e ∈ l, e ∈ (visited w root).filter (isAlias w)) →
        (¬ ∃ e, Encourages w root e x) →
        l.any (fun e => (w.info e).aliasTarget = some x && (aliasAttrs w e).encourage) = false := by
      intro l hsub hno
      rw [Bool.eq_false_iff]
      intro hany
      simp only [List.any_eq_true, Bool.and_eq_true, decide_eq_true_eq] at hany
      obtain ⟨e, he, h1, h2⟩ := hany
      exact hno ⟨e, (encourages_iff ..).2 ⟨hsub e he, h1, h2⟩⟩
    rw [hl, List.foldl_append, List.foldl_cons]
    have h0 := act_encourage w x pre hpre' ((base w x).named, false)
    generalize pre.foldl (act w x) ((base w x).named, false) = s0 at h0 ⊢
    have hact : act w x s0 a = ({ spelling := aliasSpelling w a, visible := aliasVisible w a }, true) := by
      unfold act
      rw [if_pos ha2, ha3, h0.1]
      cases (aliasAttrs w a).encourage <;> rfl
    rw [hact]
    obtain ⟨d1, d2⟩ := act_done w x post
      ({ spelling := aliasSpelling w a, visible := aliasVisible w a }, true) rfl
    rw [d1, d2]
    have hsp : aliasSpelling w a = if (base w a).named.spelling = [] then (w.info a).name
        else (base w a).named.spelling := by
      unfold aliasSpelling
      rw [hown.2]
      have := wf.alias_name a ha.2.2.1
      simp only [Option.map_some, Option.getD_some, List.isEmpty_iff, getSpelling, this.1, this.2,
        if_true]
    have hvi : aliasVisible w a = (base w a).named.visible := by
      unfold aliasVisible; rw [hown.2]; rfl
    refine ⟨hsp, fun hno => ?_, ?_⟩
    · rw [henc post (fun e he => by rw [hl]; simp [he]) hno]
      simpa using hvi
    · simp only [hvi]
      split
      · exact .inr rfl
      · exact .inl rfl

/-- C53: `encourage` makes its target visible and changes nothing else about it (if
the target is not also exposed elsewhere). -/
theorem C53_encourage (w : World) (root : Tree) (wf : WellFormed w root) (g : Graph)
    (b : Building) (h : buildGraph w root = (some g, b)) (a x : Nat)
    (ha : Encourages w root a x) (hno : ¬ ∃ e, ExposesHere w root e x) :
    ∃ own, ownAttrs w x = some own ∧
      b.storage.entries x = some { own with named := { own.named with visible := some true } } := by
  have hb := built w root wf g b h
  have hskip : shouldSkip (w.info x) = false := by
    rw [shouldSkip_false_iff_tag _ (wf.target_tag a x ha.2.2.2.1)]
    exact wf.target_complete a x ha.2.2.2.1 ha.2.1.2.2.2.1
  refine ⟨base w x, own_base w x hskip, ?_⟩
  rw [hb.inv.entries, if_pos ((touched_iff ..).2 (.inr ⟨a, ha⟩))]
  obtain ⟨_, h2, h3⟩ := act_encourage w x ((visited w root).filter (isAlias w)) (by
    intro e he ht
    rw [Bool.eq_false_iff]
    intro hx
    exact hno ⟨e, (exposesHere_iff ..).2 ⟨he, ht, hx⟩⟩) ((base w x).named, false)
  rw [if_pos] at h3
  · generalize ((visited w root).filter (isAlias w)).foldl (act w x) ((base w x).named, false) = s
      at h2 h3
    obtain ⟨⟨sp, vi⟩, fl⟩ := s
    simp only at h2 h3
    subst h2 h3
    rfl
  · obtain ⟨h1, h2, h3⟩ := (encourages_iff ..).1 ha
    exact List.any_eq_true.2 ⟨a, h1, by simp [h2, h3]⟩

/-- C53: the attributes of all other declarations are not changed. -/
theorem C53_others (w : World) (root : Tree) (wf : WellFormed w root) (g : Graph)
    (b : Building) (h : buildGraph w root = (some g, b)) (x : Nat)
    (h1 : ¬ ∃ e, ExposesHere w root e x) (h2 : ¬ ∃ e, Encourages w root e x) :
    b.storage.entries x = (traverse w {} root).storage.entries x := by
  have hb := built w root wf g b h
  rw [hb.inv.entries, if_neg]
  intro ht
  rcases (touched_iff ..).1 ht with h | h
  · exact h1 h
  · exact h2 h

example : ExposesHere exW exTree 3 2 := by
  refine ⟨⟨.node 3 [], .inside (by simp [Implementation, exW]) (by simp)
    (.here (by simp [Implementation, exW, Tree.id])), rfl⟩, ?_, rfl, rfl, ?_⟩
  · refine ⟨by simp [exW], by simp [exW], ⟨_, by simp only [exW]; exact List.mem_singleton.2 rfl, ⟨_, rfl⟩⟩, rfl, by simp [exW]⟩
  · have : ((ownAttrs exW 3).bind (·.typedefName)).map (·.exposeHere) = some true := by
      decide +kernel
    cases ho : ownAttrs exW 3 with
    | none => rw [ho] at this; simp at this
    | some o =>
      rw [ho] at this
      cases ht : o.typedefName with
      | none => simp [ht] at this
      | some t => exact ⟨o, t, rfl, ht, by simpa [ht] using this⟩
/-- The hidden class `X` becomes visible and is spelled `Y`. -/
example : ((buildGraph exW exTree).2.storage.entries 2).map (·.named) =
    some { spelling := t%"Y", visible := some true } := by decide +kernel
example : ((buildGraph exW exTree).2.storage.entries 6).map (·.named) =
    some { spelling := [], visible := some true } := by decide +kernel
/-- C53 (where it fails): an alias `expose_here, visible(false)` does not hide its
target if a later alias encourages it, even though `encourage` is documented to
change the default visibility only. -/
theorem C53_encourage_overrides : ((buildGraph { exW with info := fun
    | 3 => { exW.info 3 with attrTexts := [marker ++ t%"expose_here, visible(false)"] }
    | 5 => { exW.info 5 with aliasTarget := some 2 }
    | x => exW.info x } exTree).2.storage.entries 2).map (·.named) =
    some { spelling := t%"Y", visible := some true } := by decide +kernel

/-- It does if the aliases are declared in the opposite order. -/
theorem C53_order_matters : ((buildGraph { exW with info := fun
    | 3 => { exW.info 3 with attrTexts := [marker ++ t%"encourage"] }
    | 5 => { exW.info 5 with
             attrTexts := [marker ++ t%"expose_here, visible(false)"], aliasTarget := some 2 }
    | x => exW.info x } exTree).2.storage.entries 2).map (·.named) =
    some { spelling := t%"W", visible := some false } := by decide +kernel

end Verif
