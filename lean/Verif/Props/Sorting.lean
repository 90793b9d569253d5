import Verif.Lemmas.Sorting
/-!
# Properties of the order in which contexts are exposed (C29 – C32)

The pruned graph that is sorted is an `ExposedGraph` (`C29_graphs`).  `nodes` is the order in which
the nodes of the graph are iterated and `pick` the behaviour of the priority
queue; both are arbitrary.  No class is its own base.
-/
namespace Verif
open Spec

/-! ### C29 -/

/-- Graphs that are sorted are as assumed below. -/
theorem C29_graphs (w : World) (s : Storage) (m : Members) (mod : Str) (g : Graph)
    (hg : ContextGraph w g) : ExposedGraph w (analyze w s m mod g).pruned :=
  exposedGraph hg s m mod

/-- C29: if no cycle is reported, all contexts are listed once, each after its
enclosing scope and its exposed public bases. -/
theorem C29_order (w : World) (s : Storage) (g : Graph) (hg : ExposedGraph w g)
    (bases : Bases) (hb : ∀ x a, (a, x) ∉ bases x) (pick : Pick)
    (hp : PicksTop w.loc pick)
    (nodes : List Nat) (hn : nodes.Perm g.nodes) (order : List Nat)
    (hr : declContextsSortedByDependencies w bases pick nodes g (findEnclosingScopes w s g) =
      (order, none)) : ValidOrder w s bases g order := by
  obtain ⟨st, hs, ⟨_, hperm, he⟩ | ⟨_, c, _, _, he⟩⟩ := sort_cases (s := s) hg hb pick hp nodes hn
  · rw [he] at hr
    simp only [Prod.mk.injEq, and_true] at hr
    subst hr
    refine ⟨hperm, fun pre x post hx p hd => hs.sorted pre x post hx p ?_⟩
    exact (mem_findPredecessors hg p x hd.1).2 hd
  · rw [he] at hr
    simp at hr

/-- C29: the enclosing scope of a context other than the translation unit is a
context of the graph and unique. -/
theorem C29_scope (w : World) (s : Storage) (g : Graph) (hg : ExposedGraph w g) (x : Nat)
    (hx : x ∈ g.nodes) : (findEnclosingScopes w s g x = some none ↔ x = g.root) ∧
      (∀ q, findEnclosingScopes w s g x = some (some q) ↔ EnclosingScope s g q x) ∧
      (∀ q, EnclosingScope s g q x → q ∈ g.nodes ∧ q ≠ x) ∧
      (x ≠ g.root → ∃ q, EnclosingScope s g q x) := by
  have hno : ∀ q, ¬ EnclosingScope s g q g.root := by
    intro q hq
    obtain ⟨_, _, hE⟩ := enclosing_below hq
    exact hg.root_top _ hE
  have h3 : ∀ q, EnclosingScope s g q x → q ∈ g.nodes ∧ q ≠ x := by
    intro q hq
    obtain ⟨ha, hb⟩ := enclosing_ne hg.toForest (hg.reach x hx) hq
    exact ⟨reachable_node hg.toGraphOK q hb, ha⟩
  rcases scopes_spec (s := s) hg.toContextGraph x (hg.reach x hx) with ⟨rfl, he⟩ | ⟨hne, q, he, hq⟩
  · refine ⟨by simp [he], fun q => ?_, h3, fun hne => absurd rfl hne⟩
    rw [he]
    simp [hno q]
  · refine ⟨by simp [he, hne], fun q' => ?_, h3, fun _ => ⟨q, hq⟩⟩
    rw [he]
    simp only [Option.some.injEq]
    exact ⟨fun e => e ▸ hq, fun hq' => enclosing_unique hg.toForest hq hq'⟩

/-- The first of the elements with the smallest location. -/
def firstSmallest (loc : Nat → Nat) : List Nat → Nat
  | [] => 0
  | [x] => x
  | x :: y :: l =>
    if loc x ≤ loc (firstSmallest loc (y :: l)) then x else firstSmallest loc (y :: l)

/-- The last of the elements with the smallest location. -/
def lastSmallest (loc : Nat → Nat) : List Nat → Nat
  | [] => 0
  | [x] => x
  | x :: y :: l =>
    if loc x < loc (lastSmallest loc (y :: l)) then x else lastSmallest loc (y :: l)

theorem firstSmallest_ok (loc : Nat → Nat) : PicksTop loc fun _ => firstSmallest loc := by
  intro _ l hl
  induction l with
  | nil => exact absurd rfl hl
  | cons x l ih =>
    cases l with
    | nil => simp [firstSmallest]
    | cons y l =>
      obtain ⟨h1, h2⟩ := ih (by simp)
      simp only [firstSmallest]
      split
      · rename_i hle
        refine ⟨by simp, fun z hz => ?_⟩
        rcases List.mem_cons.1 hz with rfl | hz
        · exact Nat.le_refl _
        · exact Nat.le_trans hle (h2 z hz)
      · rename_i hle
        refine ⟨List.mem_cons_of_mem _ h1, fun z hz => ?_⟩
        rcases List.mem_cons.1 hz with rfl | hz
        · omega
        · exact h2 z hz

theorem lastSmallest_ok (loc : Nat → Nat) : PicksTop loc fun _ => lastSmallest loc := by
  intro _ l hl
  induction l with
  | nil => exact absurd rfl hl
  | cons x l ih =>
    cases l with
    | nil => simp [lastSmallest]
    | cons y l =>
      obtain ⟨h1, h2⟩ := ih (by simp)
      simp only [lastSmallest]
      split
      · rename_i hle
        refine ⟨by simp, fun z hz => ?_⟩
        rcases List.mem_cons.1 hz with rfl | hz
        · exact Nat.le_refl _
        · exact Nat.le_trans (Nat.le_of_lt hle) (h2 z hz)
      · rename_i hle
        refine ⟨List.mem_cons_of_mem _ h1, fun z hz => ?_⟩
        rcases List.mem_cons.1 hz with rfl | hz
        · omega
        · exact h2 z hz

/-- `struct 1 {}; namespace 2 { struct 3 {}; namespace 4 { struct 5 : 1, 3 {}; } }`,
everything visible. -/
def exSort : World where
  info := fun
    | 0 => { kind := .translationUnit }
    | 2 => { kind := .namespace } | 4 => { kind := .namespace }
    | _ => { kind := .record }
  hasName := fun _ _ => false
  ancestors := fun _ => []
  canonical := fun x => x
  access := fun _ => .none
  loc := fun x => x
  dependentContext := fun _ => false
  unit := 0

def exSortStorage : Storage where
  entries := fun
    | 0 => none
    | 2 => some { named := { visible := some true }, namespace_ := some { module := true } }
    | 4 => some { named := { visible := some true }, namespace_ := some {} }
    | _ => some { named := { visible := some true } }
  size := 5

def exSortGraph : Graph where
  root := 0
  nodes := [0, 1, 2, 3, 4, 5]
  children := fun | 0 => [1, 2] | 2 => [3, 4] | 4 => [5] | _ => []

def exSortBases : Bases := fun | 5 => [(.public, 1), (.private, 2), (.public, 3), (.public, 17)] | _ => []

theorem exSort_ok : ExposedGraph exSort exSortGraph := by
  refine ⟨⟨⟨⟨by simp [exSortGraph], ?_, ?_⟩, ?_, ?_, ?_⟩, rfl, ?_⟩, ?_, by simp [exSortGraph]⟩
  · intro p c
    simp only [Edge, exSortGraph]
    split <;> simp <;> omega
  · intro p c
    simp only [Edge, exSortGraph]
    split <;> simp
  · intro p q c
    simp only [Edge, exSortGraph]
    split <;> split <;> simp_all <;> omega
  · intro p
    simp only [exSortGraph]
    split <;> simp
  · intro p
    simp only [Edge, exSortGraph]
    split <;> simp
  · intro x hx hne
    simp only [exSort]
    split <;> simp_all [exSortGraph]
  · have r0 : Reachable exSortGraph 0 := .root
    have step : ∀ p c, Reachable exSortGraph p → c ∈ exSortGraph.children p →
        Reachable exSortGraph c := fun p c h hc => .step h trivial hc
    have r2 := step 0 2 r0 (by simp [exSortGraph])
    have r4 := step 2 4 r2 (by simp [exSortGraph])
    intro x hx
    simp only [exSortGraph, List.mem_cons, List.not_mem_nil, or_false] at hx
    rcases hx with rfl | rfl | rfl | rfl | rfl | rfl
    · exact r0
    · exact step 0 1 r0 (by simp [exSortGraph])
    · exact r2
    · exact step 2 3 r2 (by simp [exSortGraph])
    · exact r4
    · exact step 4 5 r4 (by simp [exSortGraph])

example : ∀ x a, (a, x) ∉ exSortBases x := by
  intro x a
  simp only [exSortBases]
  split <;> simp

theorem exSort_scopes : (List.range 6).map (findEnclosingScopes exSort exSortStorage exSortGraph) =
    [some none, some (some 0), some (some 0), some (some 2), some (some 2), some (some 2)] :=
  dfs_eval 40 _ _ _ (fun m : EnclosingScopes => (List.range 6).map m) _ (by decide +kernel)

/-- The base 1 and the scope 2 of 5 come before it, whatever the order of nodes. -/
example : declContextsSortedByDependencies exSort exSortBases (fun _ => lastSmallest exSort.loc)
    [5, 3, 1, 0, 4, 2] exSortGraph (findEnclosingScopes exSort exSortStorage exSortGraph) =
    ([0, 1, 2, 3, 4, 5], none) :=
  dfs_eval 40 _ _ _ (fun m : EnclosingScopes => declContextsSortedByDependencies exSort exSortBases
    (fun _ => lastSmallest exSort.loc) [5, 3, 1, 0, 4, 2] exSortGraph m) _ (by decide +kernel)

example : EnclosingScope exSortStorage exSortGraph 2 5 :=
  .above (.here (by simp [Edge, exSortGraph]) (.inr (by simp [PassedOver, exSortStorage])))
    (p := 4) (by simp [Edge, exSortGraph]) (by simp [exSortGraph]) (by simp [PassedOver, exSortStorage])

/-! ### C30 -/

/-- C30: a cycle is reported if and only if some context directly or indirectly
depends on itself.  If a cycle is reported, no context is listed. -/
theorem C30_iff (w : World) (s : Storage) (g : Graph) (hg : ExposedGraph w g)
    (bases : Bases) (hb : ∀ x a, (a, x) ∉ bases x) (pick : Pick)
    (hp : PicksTop w.loc pick)
    (nodes : List Nat) (hn : nodes.Perm g.nodes) (order : List Nat) (cycle : Option Nat)
    (hr : declContextsSortedByDependencies w bases pick nodes g (findEnclosingScopes w s g) =
      (order, cycle)) :
    (cycle.isSome = true ↔ ∃ x, Steps (Depends w s bases g) x x) ∧
    (cycle.isSome = true → order = []) ∧ (cycle = none → order ≠ []) := by
  obtain ⟨st, hs, ⟨hno, hperm, he⟩ | ⟨hc, c, _, _, he⟩⟩ :=
    sort_cases (s := s) hg hb pick hp nodes hn
  · rw [he] at hr
    simp only [Prod.mk.injEq] at hr
    obtain ⟨rfl, rfl⟩ := hr
    refine ⟨by simp [hno], by simp, fun _ hnil => ?_⟩
    have := hperm.mem_iff.2 hg.root
    rw [hnil] at this
    simp at this
  · rw [he] at hr
    simp only [Prod.mk.injEq] at hr
    obtain ⟨rfl, rfl⟩ := hr
    simp [hc]

/-- `struct 1 { struct 2 {}; }; struct 3 {}; struct 4 : 3 { using expose_here = 3;
using expose_here = 1; };` -/
def exLoop : World where
  info := fun
    | 0 => { kind := .translationUnit }
    | _ => { kind := .record }
  hasName := fun _ _ => false
  ancestors := fun _ => []
  canonical := fun x => x
  access := fun _ => .none
  loc := fun x => x
  dependentContext := fun _ => false
  unit := 0

def exLoopStorage : Storage where
  entries := fun
    | 0 => none
    | _ => some { named := { visible := some true } }
  size := 4

def exLoopGraph : Graph where
  root := 0
  nodes := [0, 1, 2, 3, 4]
  children := fun | 0 => [4] | 4 => [3, 1] | 1 => [2] | _ => []

def exLoopBases : Bases := fun | 4 => [(.public, 3)] | _ => []

theorem exLoop_ok : ExposedGraph exLoop exLoopGraph := by
  refine ⟨⟨⟨⟨by simp [exLoopGraph], ?_, ?_⟩, ?_, ?_, ?_⟩, rfl, ?_⟩, ?_, by simp [exLoopGraph]⟩
  · intro p c
    simp only [Edge, exLoopGraph]
    split <;> simp <;> omega
  · intro p c
    simp only [Edge, exLoopGraph]
    split <;> simp
  · intro p q c
    simp only [Edge, exLoopGraph]
    split <;> split <;> simp_all <;> omega
  · intro p
    simp only [exLoopGraph]
    split <;> simp
  · intro p
    simp only [Edge, exLoopGraph]
    split <;> simp
  · intro x hx hne
    simp only [exLoop]
    split <;> simp_all [exLoopGraph]
  · have r0 : Reachable exLoopGraph 0 := .root
    have step : ∀ p c, Reachable exLoopGraph p → c ∈ exLoopGraph.children p →
        Reachable exLoopGraph c := fun p c h hc => .step h trivial hc
    have r4 := step 0 4 r0 (by simp [exLoopGraph])
    have r1 := step 4 1 r4 (by simp [exLoopGraph])
    intro x hx
    simp only [exLoopGraph, List.mem_cons, List.not_mem_nil, or_false] at hx
    rcases hx with rfl | rfl | rfl | rfl | rfl
    · exact r0
    · exact r1
    · exact step 1 2 r1 (by simp [exLoopGraph])
    · exact step 4 3 r4 (by simp [exLoopGraph])
    · exact r4

example : ∀ x a, (a, x) ∉ exLoopBases x := by
  intro x a
  simp only [exLoopBases]
  split <;> simp

theorem exLoop_sort : declContextsSortedByDependencies exLoop exLoopBases
    (fun _ => firstSmallest exLoop.loc) exLoopGraph.nodes exLoopGraph
    (findEnclosingScopes exLoop exLoopStorage exLoopGraph) = ([], some 1) :=
  dfs_eval 40 _ _ _ (fun m : EnclosingScopes => declContextsSortedByDependencies exLoop exLoopBases
    (fun _ => firstSmallest exLoop.loc) exLoopGraph.nodes exLoopGraph m) _ (by decide +kernel)

theorem exLoop_cycle : Steps (Depends exLoop exLoopStorage exLoopBases exLoopGraph) 4 4 :=
  .more (.one (x := 3) ⟨by simp [exLoopGraph], .inl (.here (by simp [Edge, exLoopGraph])
    (.inr (by simp [PassedOver, exLoopStorage])))⟩)
    ⟨by simp [exLoopGraph], .inr ⟨rfl, by simp [exLoopGraph], by simp [exLoopBases]⟩⟩

/-! ### C31 -/

/-- C31: the order is the lexicographically smallest one with respect to locations,
among those that list each context after what it depends on.

Partial: this assumes that no two contexts have the same location, which does
not hold for implicit specializations of the same template, see
`C31_not_determined`. -/
theorem C31_smallest_partial (w : World) (s : Storage) (g : Graph) (hg : ExposedGraph w g)
    (bases : Bases) (hb : ∀ x a, (a, x) ∉ bases x) (pick : Pick)
    (hp : PicksTop w.loc pick)
    (hloc : ∀ x ∈ g.nodes, ∀ y ∈ g.nodes, w.loc x = w.loc y → x = y)
    (nodes : List Nat) (hn : nodes.Perm g.nodes) (order : List Nat)
    (hr : declContextsSortedByDependencies w bases pick nodes g (findEnclosingScopes w s g) =
      (order, none)) (other : List Nat) (ho : ValidOrder w s bases g other) :
    other = order ∨ ∃ pre x y post post', order = pre ++ x :: post ∧ other = pre ++ y :: post' ∧
      w.loc x < w.loc y := by
  obtain ⟨st, hs, ⟨_, hperm, he⟩ | ⟨_, c, _, _, he⟩⟩ := sort_cases (s := s) hg hb pick hp nodes hn
  · rw [he] at hr
    simp only [Prod.mk.injEq, and_true] at hr
    subst hr
    refine greedy_least w.loc g.nodes (findPredecessors w bases g (findEnclosingScopes w s g))
      hloc st.result other hperm ho.perm hg.nodup ?_ ?_
    · intro pre x post hx y hy
      exact hs.greedy pre x post hx y (hn.mem_iff.2 hy)
    · intro pre x post hx p hpx
      have hxn : x ∈ g.nodes := ho.perm.mem_iff.1 (by rw [hx]; simp)
      exact ho.sorted pre x post hx p ((mem_findPredecessors hg p x hxn).1 hpx)
  · rw [he] at hr
    simp at hr

/-- C31: neither the order nor the reported cycle depend on the order in which
nodes are iterated or on the priority queue.

Partial: this assumes that no two contexts have the same location, see
`C31_not_determined`. -/
theorem C31_determined_partial (w : World) (s : Storage) (g : Graph) (hg : ExposedGraph w g)
    (bases : Bases) (hb : ∀ x a, (a, x) ∉ bases x)
    (pick pick' : Pick) (hp : PicksTop w.loc pick) (hp' : PicksTop w.loc pick')
    (hloc : ∀ x ∈ g.nodes, ∀ y ∈ g.nodes, w.loc x = w.loc y → x = y)
    (nodes nodes' : List Nat) (hn : nodes.Perm g.nodes) (hn' : nodes'.Perm g.nodes) :
    declContextsSortedByDependencies w bases pick nodes g (findEnclosingScopes w s g) =
    declContextsSortedByDependencies w bases pick' nodes' g (findEnclosingScopes w s g) := by
  obtain ⟨st, hs, ⟨hc, hperm, he⟩ | ⟨hc, c, hcm, hcl, he⟩⟩ :=
    sort_cases (s := s) hg hb pick hp nodes hn
  · obtain ⟨st', hs', ⟨_, hperm', he'⟩ | ⟨hc', _⟩⟩ :=
      sort_cases (s := s) hg hb pick' hp' nodes' hn'
    · have hv : ValidOrder w s bases g st'.result := ⟨hperm', fun pre x post hx p hd =>
        hs'.sorted pre x post hx p ((mem_findPredecessors hg p x hd.1).2 hd)⟩
      have hv2 : ValidOrder w s bases g st.result := ⟨hperm, fun pre x post hx p hd =>
        hs.sorted pre x post hx p ((mem_findPredecessors hg p x hd.1).2 hd)⟩
      have h1 := C31_smallest_partial w s g hg bases hb pick hp hloc nodes hn _ he _ hv
      have h2 := C31_smallest_partial w s g hg bases hb pick' hp' hloc nodes' hn' _ he' _
        hv2
      rw [he, he']
      rcases h1 with h1 | ⟨pre, x, y, post, post', e1, e2, hlt⟩
      · rw [h1]
      rcases h2 with h2 | ⟨pre2, x2, y2, post2, post2', e3, e4, hlt2⟩
      · rw [h2]
      exfalso
      have key : ∀ (a b : List Nat) (x y x2 y2 : Nat) (p q p2 q2 : List Nat),
          a ++ x :: p = b ++ y2 :: q2 → a ++ y :: q = b ++ x2 :: p2 → x ≠ y →
          y2 ≠ x2 → x = y2 ∧ y = x2 := by
        intro a
        induction a with
        | nil =>
          intro b x y x2 y2 p q p2 q2 h1 h2 hne _
          cases b with
          | nil => simp at h1 h2; exact ⟨h1.1, h2.1⟩
          | cons c b => simp at h1 h2; exact absurd (h1.1.trans h2.1.symm) hne
        | cons d a ih =>
          intro b x y x2 y2 p q p2 q2 h1 h2 hne hne2
          cases b with
          | nil => simp at h1 h2; exact absurd (h1.1.symm.trans h2.1) hne2
          | cons c b =>
            simp only [List.cons_append, List.cons.injEq] at h1 h2
            exact ih b x y x2 y2 p q p2 q2 h1.2 h2.2 hne hne2
      obtain ⟨k1, k2⟩ := key pre pre2 x y x2 y2 post post' post2 post2' (e1.symm.trans e4)
        (e2.symm.trans e3) (by rintro rfl; omega) (by rintro rfl; omega)
      rw [k1, k2] at hlt
      omega
    · exact absurd hc' hc
  · obtain ⟨st', hs', ⟨hc', _⟩ | ⟨_, c', hcm', hcl', he'⟩⟩ :=
      sort_cases (s := s) hg hb pick' hp' nodes' hn'
    · exact absurd hc hc'
    · have hdg := dependencyGraph (s := s) (bases := bases) hg nodes hn
      have hdg' := dependencyGraph (s := s) (bases := bases) hg nodes' hn'
      have hkeys : ∀ x, x ∈ st.successors.map (·.1) ↔ x ∈ st'.successors.map (·.1) := by
        intro x
        rw [mem_keys hs, mem_keys hs']
        have hl1 := left_iff hdg hs x
        have hl2 := left_iff hdg' hs' x
        unfold Left at hl1 hl2
        constructor
        · rintro ⟨hx, y, hy, hxy⟩
          have hxn := hdg.inside y hy x hxy
          have := hl1.1 ⟨hxn, hx⟩
          rw [hn.mem_iff, ← hn'.mem_iff] at this
          exact ⟨(hl2.2 this).2, y, hn'.mem_iff.2 (hn.mem_iff.1 hy), hxy⟩
        · rintro ⟨hx, y, hy, hxy⟩
          have hxn := hdg'.inside y hy x hxy
          have := hl2.1 ⟨hxn, hx⟩
          rw [hn'.mem_iff, ← hn.mem_iff] at this
          exact ⟨(hl1.2 this).2, y, hn.mem_iff.2 (hn'.mem_iff.1 hy), hxy⟩
      have node : ∀ x, x ∈ st.successors.map (·.1) → x ∈ g.nodes := by
        intro x hx
        obtain ⟨_, y, hy, hxy⟩ := (mem_keys hs x).1 hx
        exact hn.mem_iff.1 (hdg.inside y hy x hxy)
      have h1 := hcl c' ((hkeys c').2 hcm')
      have h2 := hcl' c ((hkeys c).1 hcm)
      have : c = c' := hloc c (node c hcm) c' (node c' ((hkeys c').2 hcm')) (by omega)
      rw [he, he', this]

/-- Two contexts at the same location, such as specializations of a template. -/
def exTie : World := { exLoop with loc := fun | 0 => 0 | _ => 1 }

def exTieGraph : Graph where
  root := 0
  nodes := [0, 1, 2]
  children := fun | 0 => [1, 2] | _ => []

theorem exTie_ok : ExposedGraph exTie exTieGraph := by
  refine ⟨⟨⟨⟨by simp [exTieGraph], ?_, ?_⟩, ?_, ?_, ?_⟩, rfl, ?_⟩, ?_, by simp [exTieGraph]⟩
  · intro p c
    simp only [Edge, exTieGraph]
    split <;> simp <;> omega
  · intro p c
    simp only [Edge, exTieGraph]
    split <;> simp
  · intro p q c
    simp only [Edge, exTieGraph]
    split <;> split <;> simp_all
  · intro p
    simp only [exTieGraph]
    split <;> simp
  · intro p
    simp only [Edge, exTieGraph]
    split <;> simp
  · intro x hx hne
    simp only [exTie, exLoop]
    split <;> simp_all [exTieGraph]
  · have r0 : Reachable exTieGraph 0 := .root
    have step : ∀ c, c ∈ exTieGraph.children 0 → Reachable exTieGraph c :=
      fun c hc => .step r0 trivial hc
    intro x hx
    simp only [exTieGraph, List.mem_cons, List.not_mem_nil, or_false] at hx
    rcases hx with rfl | rfl | rfl
    · exact r0
    · exact step 1 (by simp [exTieGraph])
    · exact step 2 (by simp [exTieGraph])

/-- C31 does not hold for contexts at the same location: with the same priority
queue, the order in which the nodes of the graph are iterated (which depends on
addresses) makes a difference. -/
theorem C31_not_determined : ExposedGraph exTie exTieGraph ∧
    [0, 1, 2].Perm exTieGraph.nodes ∧ [0, 2, 1].Perm exTieGraph.nodes ∧
    PicksTop exTie.loc (fun _ => firstSmallest exTie.loc) ∧
    declContextsSortedByDependencies exTie (fun _ => []) (fun _ => firstSmallest exTie.loc)
      [0, 1, 2] exTieGraph (findEnclosingScopes exTie exLoopStorage exTieGraph) =
      ([0, 1, 2], none) ∧
    declContextsSortedByDependencies exTie (fun _ => []) (fun _ => firstSmallest exTie.loc)
      [0, 2, 1] exTieGraph (findEnclosingScopes exTie exLoopStorage exTieGraph) =
      ([0, 2, 1], none) := by
  refine ⟨exTie_ok, .refl _, by decide, firstSmallest_ok _, ?_, ?_⟩
  · exact dfs_eval 40 _ _ _ (fun m : EnclosingScopes => declContextsSortedByDependencies exTie
      (fun _ => []) (fun _ => firstSmallest exTie.loc) [0, 1, 2] exTieGraph m) _ (by decide +kernel)
  · exact dfs_eval 40 _ _ _ (fun m : EnclosingScopes => declContextsSortedByDependencies exTie
      (fun _ => []) (fun _ => firstSmallest exTie.loc) [0, 2, 1] exTieGraph m) _ (by decide +kernel)

/-- A case in which locations differ. -/
example : (∀ x ∈ exSortGraph.nodes, ∀ y ∈ exSortGraph.nodes,
    exSort.loc x = exSort.loc y → x = y) := fun _ _ _ _ h => h

/-! ### C32 -/

/-- C32: the reported context is on a cycle or depends on a context that is.  It is
the first one in the file that does and on which another context depends.

Partial: the reported context itself is not always on a cycle, see
`C32_not_on_cycle`. -/
theorem C32_reported_partial (w : World) (s : Storage) (g : Graph) (hg : ExposedGraph w g)
    (bases : Bases) (hb : ∀ x a, (a, x) ∉ bases x) (pick : Pick)
    (hp : PicksTop w.loc pick)
    (nodes : List Nat) (hn : nodes.Perm g.nodes) (order : List Nat) (cycle : Nat)
    (hr : declContextsSortedByDependencies w bases pick nodes g (findEnclosingScopes w s g) =
      (order, some cycle)) :
    (∃ c, Steps (Depends w s bases g) c c ∧
      (c = cycle ∨ Steps (Depends w s bases g) c cycle)) ∧
    (∀ c, Steps (Depends w s bases g) c c → w.loc cycle ≤ w.loc c) ∧
    (∃ y, Depends w s bases g cycle y) := by
  obtain ⟨st, hs, ⟨hno, hperm, he⟩ | ⟨hc, c, hcm, hcl, he⟩⟩ :=
    sort_cases (s := s) hg hb pick hp nodes hn
  · rw [he] at hr
    simp at hr
  · rw [he] at hr
    simp only [Prod.mk.injEq, Option.some.injEq] at hr
    obtain ⟨_, rfl⟩ := hr
    have hdg := dependencyGraph (s := s) (bases := bases) hg nodes hn
    obtain ⟨h1, y, hy, hcy⟩ := (mem_keys hs c).1 hcm
    have hcn := hdg.inside y hy c hcy
    refine ⟨?_, ?_, y, (mem_findPredecessors hg c y (hn.mem_iff.1 hy)).1 hcy⟩
    · obtain ⟨_, d, hd, hdc⟩ := (left_iff hdg hs c).1 ⟨hcn, h1⟩
      have hdn : d ∈ g.nodes := by
        obtain ⟨p, hp, _⟩ := dependsOn_cases hd
        apply Classical.byContradiction
        intro hdn
        rcases hdc with rfl | hdc
        · exact hdn (hn.mem_iff.1 hcn)
        · have : ∀ x, DependsOn (findPredecessors w bases g (findEnclosingScopes w s g)) d x →
              x ∈ nodes → d ∈ nodes := by
            intro x hx
            induction hx with
            | direct h => intro hx; exact hdg.inside _ hx _ h
            | step _ h ih => intro hx; exact ih (hdg.inside _ hx _ h)
          exact hdn (hn.mem_iff.1 (this c hdc hcn))
      refine ⟨d, (steps_iff hg d d hdn).1 hd, ?_⟩
      rcases hdc with rfl | hdc
      · exact .inl rfl
      · exact .inr ((steps_iff hg d c (hn.mem_iff.1 hcn)).1 hdc)
    · intro d hd
      have hdn : d ∈ g.nodes := by
        cases hd with
        | one h => exact h.1
        | more _ h => exact h.1
      have hd' := (steps_iff hg d d hdn).2 hd
      refine hcl d ((mem_keys hs d).2 ⟨cycle_left hs d hd', ?_⟩)
      have : ∀ x, DependsOn (findPredecessors w bases g (findEnclosingScopes w s g)) d x →
          x ∈ nodes → ∃ y ∈ nodes, d ∈ findPredecessors w bases g (findEnclosingScopes w s g) y := by
        intro x hx
        induction hx with
        | direct h => intro hx; exact ⟨_, hx, h⟩
        | step _ h ih => intro hx; exact ih (hdg.inside _ hx _ h)
      exact this d hd' (hn.mem_iff.2 hdn)

/-- C32 does not hold: class 1, which is reported for the cycle of 3 and 4, does
not depend on itself; it is just exposed in a class on the cycle. -/
theorem C32_not_on_cycle :
    declContextsSortedByDependencies exLoop exLoopBases (fun _ => firstSmallest exLoop.loc)
      exLoopGraph.nodes exLoopGraph (findEnclosingScopes exLoop exLoopStorage exLoopGraph) =
      ([], some 1) ∧
    ¬ Steps (Depends exLoop exLoopStorage exLoopBases exLoopGraph) 1 1 := by
  refine ⟨exLoop_sort, ?_⟩
  have nopass : ∀ x, ¬ PassedOver exLoopStorage x := by
    rintro x ⟨attrs, ns, h1, h2, _⟩
    simp only [exLoopStorage] at h1
    split at h1
    · simp at h1
    · simp only [Option.some.injEq] at h1
      subst h1
      simp at h2
  have hdep : ∀ p x, (p = 1 ∨ p = 2) → Depends exLoop exLoopStorage exLoopBases exLoopGraph p x →
      x = 2 := by
    rintro p x hp ⟨_, h | h⟩
    · cases h with
      | here hE _ =>
        simp only [Edge, exLoopGraph] at hE
        split at hE <;> simp_all
      | above _ _ _ h => exact absurd h (nopass _)
    · have := h.2.2
      simp only [exLoopBases] at this
      split at this <;> simp_all
  have : ∀ x, Steps (Depends exLoop exLoopStorage exLoopBases exLoopGraph) 1 x → x = 2 := by
    intro x h
    induction h with
    | one h => exact hdep _ _ (.inl rfl) h
    | more _ h ih => exact hdep _ _ (.inr ih) h
  intro h
  have := this 1 h
  omega

end Verif
