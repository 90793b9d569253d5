import Verif.Lemmas.Pruning
import Verif.Props.Graph
/-!
# Properties of visibility and pruning (C23 – C27)

All graphs built from a translation unit are `ContextGraph`s (`C23_graphs`), so
that the other theorems apply to them.
-/
namespace Verif
open Spec

/-! ### C23 -/

/-- Graphs of declaration contexts are as assumed below. -/
theorem C23_graphs (w : World) (root : Tree) (wf : WellFormed w root) (g : Graph) (b : Building)
    (h : buildGraph w root = (some g, b)) : ContextGraph w g :=
  built_contextGraph wf (built w root wf g b h)

/-- C23: every reachable context has exactly one visibility, which is the effective
one; others have none. -/
theorem C23_visibility (w : World) (s : Storage) (g : Graph) (hg : ContextGraph w g) (x : Nat) :
    (deriveEffectiveVisibility w s g x = some true ↔ EffVisible w s g x) ∧
    (deriveEffectiveVisibility w s g x = some false ↔ Reachable g x ∧ ¬ EffVisible w s g x) ∧
    (deriveEffectiveVisibility w s g x = none ↔ ¬ Reachable g x) := by
  have h1 := derive_true (s := s) hg x
  have h2 := derive_reachable w s g hg.toForest x
  rw [← h1, ← h2]
  cases hv : deriveEffectiveVisibility w s g x with
  | none => simp
  | some b => cases b <;> simp

/-- C23: effective visibility in terms of the context something is exposed in. -/
theorem C23_inherited (w : World) (s : Storage) (g : Graph) (hg : ContextGraph w g) (p x : Nat)
    (hx : Reachable g x) (hE : Edge g p x) :
    deriveEffectiveVisibility w s g x = some true ↔
      explicit s x = some true ∨ (explicit s x = none ∧ w.access x ≠ .private ∧
        w.access x ≠ .protected ∧ deriveEffectiveVisibility w s g p = some true) := by
  rw [derive_true hg, derive_true hg]
  exact effVisible_cases hg.toForest hx hE

/-- C23: the translation unit is not visible. -/
theorem C23_root (w : World) (s : Storage) (g : Graph) (hg : ContextGraph w g) :
    deriveEffectiveVisibility w s g g.root = some false :=
  ((C23_visibility w s g hg g.root).2.1).2 ⟨.root, effVisible_root hg.toForest⟩

/-- A graph with a private nested class and an inherited visibility:
`namespace 1 visible { class 2 { private: class 3; }; namespace 4 { class 5; } }`. -/
def exVis : World where
  info := fun
    | 0 => { kind := .translationUnit }
    | 1 => { kind := .namespace } | 4 => { kind := .namespace }
    | 6 => { kind := .namespace }
    | _ => { kind := .record }
  hasName := fun _ _ => false
  ancestors := fun _ => []
  canonical := fun x => x
  access := fun | 3 => .private | _ => .none
  loc := fun x => x
  dependentContext := fun _ => false
  unit := 0

def exVisStorage : Storage where
  entries := fun
    | 1 => some { named := { visible := some true }, namespace_ := some {} }
    | 6 => some {
                  namespace_ := some { onlyExposeIn := [t%"other"] } }
    | 7 => some { named := { visible := some true } }
    | _ => none
  size := 3

def exVisGraph : Graph where
  root := 0
  nodes := [0, 1, 2, 3, 4, 5, 6, 7]
  children := fun | 0 => [1] | 1 => [2, 4, 6] | 2 => [3] | 4 => [5] | 6 => [7] | _ => []

theorem exVis_ok : ContextGraph exVis exVisGraph := by
  refine ⟨⟨⟨by simp [exVisGraph], ?_, ?_⟩, ?_, ?_, ?_⟩, rfl, ?_⟩
  · intro p c
    simp only [Edge, exVisGraph]
    split <;> simp <;> omega
  · intro p c
    simp only [Edge, exVisGraph]
    split <;> simp
  · intro p q c
    simp only [Edge, exVisGraph]
    split <;> simp <;> split <;> simp <;> omega
  · intro p
    simp only [exVisGraph]
    split <;> simp
  · intro p
    simp only [Edge, exVisGraph]
    split <;> simp
  · intro x hx hne
    simp only [exVisGraph, List.mem_cons, List.not_mem_nil, or_false] at hx hne
    rcases hx with rfl | rfl | rfl | rfl | rfl | rfl | rfl | rfl <;> simp [exVis] at *

example : (List.range 9).map (deriveEffectiveVisibility exVis exVisStorage exVisGraph) =
    [some false, some true, some true, some false, some true, some true, some true, some true,
      none] :=
  dfs_eval 40 _ _ _ (fun m : Visibilities => (List.range 9).map m) _ (by decide +kernel)

/-! ### C24 -/

/-- C24: contexts in a namespace for other modules are hidden and not considered to
contain something visible; nothing changes for other contexts. -/
theorem C24_hides_exactly (w : World) (s : Storage) (moduleName : Str) (g : Graph)
    (hg : ContextGraph w g) (contexts : Nat → Bool) (vis : Visibilities) (x : Nat)
    (hx : Reachable g x) :
    (InOther w s moduleName g x →
      (hideNamespaces w s moduleName g contexts vis).1 x = false ∧
      (hideNamespaces w s moduleName g contexts vis).2 x = some false) ∧
    (¬ InOther w s moduleName g x →
      (hideNamespaces w s moduleName g contexts vis).1 x = contexts x ∧
      (hideNamespaces w s moduleName g contexts vis).2 x = vis x) := by
  have h := hide_spec (w := w) (s := s) (mod := moduleName) hg.toForest contexts vis x
  exact ⟨fun hi => h.1 ⟨hx, hi⟩, fun hi => h.2 fun h' => hi h'.2⟩

/-- C24: contexts that cannot be reached keep their state as well. -/
theorem C24_unreachable (w : World) (s : Storage) (moduleName : Str) (g : Graph)
    (hg : ContextGraph w g) (contexts : Nat → Bool) (vis : Visibilities) (x : Nat)
    (hx : ¬ Reachable g x) :
    (hideNamespaces w s moduleName g contexts vis).1 x = contexts x ∧
    (hideNamespaces w s moduleName g contexts vis).2 x = vis x :=
  (hide_spec (w := w) (s := s) (mod := moduleName) hg.toForest contexts vis x).2 fun h => hx h.1

example : InOther exVis exVisStorage t%"mine" exVisGraph 7 :=
  ⟨6, ⟨rfl, _, _, rfl, rfl, by decide, by decide⟩, .step .self (by simp [Edge, exVisGraph])⟩
example : (List.range 9).map (hideNamespaces exVis exVisStorage t%"mine" exVisGraph
    (fun _ => true) (fun _ => some true)).1 =
    [true, true, true, true, true, true, false, false, true] :=
  dfs_eval 40 _ _ _ (fun h : Hiding => (List.range 9).map h.contexts) _ (by decide +kernel)
/-- The namespace is exposed in the module it names. -/
example : (List.range 9).map (hideNamespaces exVis exVisStorage t%"other" exVisGraph
    (fun _ => true) (fun _ => some true)).1 =
    [true, true, true, true, true, true, true, true, true] :=
  dfs_eval 40 _ _ _ (fun h : Hiding => (List.range 9).map h.contexts) _ (by decide +kernel)

/-! ### C25 -/

/-- C25: the set of contexts containing something visible, before `only_expose_in` is
taken into account. -/
theorem C25_contexts (w : World) (s : Storage) (m : Members) (g : Graph) (hg : ContextGraph w g)
    (x : Nat) :
    declContextsWithVisibleNamedDecls w s m (deriveEffectiveVisibility w s g) g x = true ↔
      Reachable g x ∧ HasVisible w s m (EffVisible w s g) g x :=
  withVisible_spec hg.toForest (derive_getD hg) x

/-- C25: and after it has been. -/
theorem C25_contexts_of_module (w : World) (s : Storage) (m : Members) (moduleName : Str) (g : Graph)
    (hg : ContextGraph w g) (x : Nat) :
    (analyze w s m moduleName g).contexts x = true ↔
      Reachable g x ∧ HasVisible w s m (EffVisible w s g) g x ∧ ¬ InOther w s moduleName g x :=
  contexts_analysis hg x

def exVisMembers : Members where
  decls := fun | 3 => [30] | 4 => [40] | _ => []
  isImplicit := fun _ => false

/-- The hidden class 3 contains an annotated member. -/
def exVisStorage' : Storage :=
  { exVisStorage with entries := fun
    | 30 => some { named := { visible := some true } }
    | x => exVisStorage.entries x }

example : (analyze exVis exVisStorage' exVisMembers t%"mine" exVisGraph).contexts =
    fun x => (hideNamespaces exVis exVisStorage' t%"mine" exVisGraph
      (declContextsWithVisibleNamedDecls exVis exVisStorage' exVisMembers
        (deriveEffectiveVisibility exVis exVisStorage' exVisGraph) exVisGraph)
      (deriveEffectiveVisibility exVis exVisStorage' exVisGraph)).1 x := rfl
example : HasVisible exVis exVisStorage' exVisMembers (EffVisible exVis exVisStorage' exVisGraph)
    exVisGraph 3 :=
  .member ⟨30, by simp [exVisMembers], rfl, .inl rfl⟩

/-! ### C26 -/

/-- C26: a class or enum is part of the graph bindings are generated from if and only
if it can be reached, it and all enclosing types are visible, and it is not in a
namespace for other modules. -/
theorem C26_types (w : World) (s : Storage) (m : Members) (moduleName : Str) (g : Graph)
    (hg : ContextGraph w g) (x : Nat) (hx : IsType w x) :
    x ∈ (analyze w s m moduleName g).pruned.nodes ↔
      Reachable g x ∧ ¬ InOther w s moduleName g x ∧
      ∀ a, Below g a x → IsType w a → EffVisible w s g a := by
  have hne : x ≠ g.root := by
    rintro rfl
    rcases hx with h | h <;> rw [hg.root_kind] at h <;> simp at h
  rw [kept_analysis hg x hne]
  constructor
  · rintro ⟨h1, h2, h3, _⟩
    exact ⟨h1, fun ⟨n, hn, hb⟩ => h2 n hb hn, h3⟩
  · rintro ⟨h1, h2, h3⟩
    exact ⟨h1, fun a ha ho => h2 ⟨a, ho, ha⟩, h3, .inl hx⟩

/-- C26: likewise for namespaces, which in addition must contain something visible. -/
theorem C26_namespaces (w : World) (s : Storage) (m : Members) (moduleName : Str) (g : Graph)
    (hg : ContextGraph w g) (x : Nat) (hx : (w.info x).kind = .namespace) :
    x ∈ (analyze w s m moduleName g).pruned.nodes ↔
      Reachable g x ∧ ¬ InOther w s moduleName g x ∧
      (∀ a, Below g a x → IsType w a → EffVisible w s g a) ∧
      HasVisible w s m (EffVisible w s g) g x := by
  have hne : x ≠ g.root := by
    rintro rfl
    rw [hg.root_kind] at hx; simp at hx
  have hnt : ¬ IsType w x := by
    rintro (h | h) <;> rw [hx] at h <;> simp at h
  rw [kept_analysis hg x hne]
  constructor
  · rintro ⟨h1, h2, h3, h4⟩
    exact ⟨h1, fun ⟨n, hn, hb⟩ => h2 n hb hn, h3, h4.resolve_left hnt⟩
  · rintro ⟨h1, h2, h3, h4⟩
    exact ⟨h1, fun a ha ho => h2 ⟨a, ho, ha⟩, h3, .inr h4⟩

/-- C26: what is kept stays where it was, and everything kept can be reached. -/
theorem C26_places (w : World) (s : Storage) (m : Members) (moduleName : Str) (g : Graph)
    (hg : ContextGraph w g) :
    let pruned := (analyze w s m moduleName g).pruned
    ContextGraph w pruned ∧ pruned.root = g.root ∧
    (∀ p x, Edge pruned p x ↔ Edge g p x ∧ x ∈ pruned.nodes) ∧
    (∀ x, x ∈ pruned.nodes ↔ Reachable pruned x) := by
  obtain ⟨h1, h2, h3, _⟩ := prune_spec (w := w) hg.toForest
    (analyze w s m moduleName g).contexts (analyze w s m moduleName g).vis
  refine ⟨prune_contextGraph hg _ _, h1, fun p x => ?_, prune_reachable hg.toForest _ _⟩
  refine (h3 p x).trans ?_
  constructor
  · rintro ⟨ha, hb⟩; exact ⟨ha, (h2 x).2 (.inr hb)⟩
  · rintro ⟨ha, hb⟩
    rcases (h2 x).1 hb with rfl | h
    · exact absurd ha (hg.root_top p)
    · exact ⟨ha, h⟩

example : IsType exVis 5 := .inr rfl
/-- Class 5 is exposed: all of its enclosing types (itself) are visible. -/
example : 5 ∈ (analyze exVis exVisStorage exVisMembers t%"mine" exVisGraph).pruned.nodes := by
  rw [C26_types _ _ _ _ _ exVis_ok 5 (.inr rfl)]
  have r1 : Reachable exVisGraph 1 := .step (p := 0) .root trivial (by simp [Edge, exVisGraph])
  have r4 : Reachable exVisGraph 4 := .step r1 trivial (by simp [Edge, exVisGraph])
  have hE : Edge exVisGraph 4 5 := by simp [Edge, exVisGraph]
  have hE4 : Edge exVisGraph 1 4 := by simp [Edge, exVisGraph]
  have hE1 : Edge exVisGraph 0 1 := by simp [Edge, exVisGraph]
  have hb : ∀ a, Below exVisGraph a 5 → a = 5 ∨ a = 4 ∨ a = 1 ∨ a = 0 := by
    intro a ha
    rw [below_parent exVis_ok.toForest hE, below_parent exVis_ok.toForest hE4,
      below_parent exVis_ok.toForest hE1] at ha
    rcases ha with h | h | h | h
    · exact .inl h.symm
    · exact .inr (.inl h.symm)
    · exact .inr (.inr (.inl h.symm))
    · exact .inr (.inr (.inr (below_root exVis_ok.toForest h)))
  refine ⟨.step r4 trivial hE, ?_, ?_⟩
  · rintro ⟨n, ⟨_, attrs, ns, h1, h2, h3, _⟩, hn⟩
    rcases hb n hn with rfl | rfl | rfl | rfl <;> simp [exVisStorage] at h1
    subst h1
    simp at h2
    subst h2
    exact h3 rfl
  · intro a ha ht
    have v1 : EffVisible exVis exVisStorage exVisGraph 1 := .explicit r1 (by simp [exVisGraph]) rfl
    have v4 : EffVisible exVis exVisStorage exVisGraph 4 :=
      .inherited v1 hE4 rfl (by simp [exVis]) (by simp [exVis])
    rcases hb a ha with rfl | rfl | rfl | rfl
    · exact .inherited v4 hE rfl (by simp [exVis]) (by simp [exVis])
    · exact v4
    · exact v1
    · rcases ht with h | h <;> simp [exVis] at h

/-! ### C27 -/

/-- C27: which contexts are warned about (or, if they have been moved, the alias that
did so), whatever the order in which the set is iterated: those that contain
something visible, but are not exposed. -/
theorem C27_warned_about (w : World) (s : Storage) (m : Members) (moduleName : Str) (g : Graph)
    (hg : ContextGraph w g) (relocated : Nat → Option Nat) (l : List Nat)
    (hl : ∀ x, x ∈ l ↔ (analyze w s m moduleName g).contexts x = true) (y : Nat) :
    (∃ d ∈ reportUnreachable w (analyze w s m moduleName g).pruned l relocated, d.decl = y) ↔
      ∃ x, Reachable g x ∧ x ≠ g.root ∧ HasVisible w s m (EffVisible w s g) g x ∧
        ¬ InOther w s moduleName g x ∧ x ∉ (analyze w s m moduleName g).pruned.nodes ∧
        y = (relocated x).getD x := by
  rw [mem_reportUnreachable]
  constructor
  · rintro ⟨x, hx, hn, h1, h2⟩
    obtain ⟨h3, h4, h5⟩ := (contexts_analysis hg x).1 ((hl x).1 hx)
    refine ⟨x, h3, ?_, h4, h5, h1, h2⟩
    rintro rfl
    rw [hg.root_kind] at hn
    exact absurd hn (by simp [DeclKind.isNamed])
  · rintro ⟨x, h1, h2, h3, h4, h5, h6⟩
    exact ⟨x, (hl x).2 ((contexts_analysis hg x).2 ⟨h1, h3, h4⟩),
      named_of_node hg x (reachable_node hg.toGraphOK x h1) h2, h5, h6⟩

/-- C27 (partial: the type itself is not necessarily reported, see
`C27_itself_not_reported`): if a visible type is not exposed, even though it is not
in a namespace for other modules, a hidden type enclosing it is reported. -/
theorem C27_enclosing_reported_partial (w : World) (s : Storage) (m : Members) (moduleName : Str)
    (g : Graph) (hg : ContextGraph w g) (relocated : Nat → Option Nat) (l : List Nat)
    (hl : ∀ x, x ∈ l ↔ (analyze w s m moduleName g).contexts x = true) (x : Nat)
    (ht : IsType w x) (hv : EffVisible w s g x) (ho : ¬ InOther w s moduleName g x)
    (hx : x ∉ (analyze w s m moduleName g).pruned.nodes) :
    ∃ a, Below g a x ∧ IsType w a ∧ ¬ EffVisible w s g a ∧
      ∃ d ∈ reportUnreachable w (analyze w s m moduleName g).pruned l relocated,
        d.decl = (relocated a).getD a := by
  have hf := hg.toForest
  have hr : Reachable g x := by
    have := (derive_true (s := s) hg x).2 hv
    exact (derive_reachable w s g hf x).1 (by rw [this]; rfl)
  -- the innermost hidden type around x
  have inner : ∀ y, Reachable g y → (∃ a, Below g a y ∧ IsType w a ∧ ¬ EffVisible w s g a) →
      ∃ a, Below g a y ∧ IsType w a ∧ ¬ EffVisible w s g a ∧
        ∀ b, Below g b y → Below g a b → b ≠ a → IsType w b → EffVisible w s g b := by
    intro y hy
    induction hy with
    | root =>
      rintro ⟨a, ha, hta, hna⟩
      refine ⟨a, ha, hta, hna, fun b hb hab hba => ?_⟩
      rw [below_root hf ha, below_root hf hb] at hba
      exact absurd rfl hba
    | @step p c hp _ hE ih =>
      rintro ⟨a, ha, hta, hna⟩
      by_cases hc : IsType w c ∧ ¬ EffVisible w s g c
      · refine ⟨c, .self, hc.1, hc.2, fun b hb hcb hbc => ?_⟩
        exfalso
        obtain ⟨d, hd⟩ := reachable_depth hf
        have le : ∀ u v, Reachable g v → Below g u v → d u ≤ d v := by
          intro u v hv' huv
          induction huv with
          | self => exact Nat.le_refl _
          | step _ hE' ih' =>
            have := ih' (reachable_parent hf hv' hE')
            have := hd _ _ hv' hE'
            omega
        have hcr : Reachable g c := .step hp trivial hE
        rcases (below_parent hf hE).1 hb with h | h
        · exact hbc h.symm
        · have h1 := le c b (reachable_above hf hcr hb) hcb
          have h2 := le b p hp h
          have h3 := hd p c hcr hE
          omega
      · have hap : Below g a p := by
          rcases (below_parent hf hE).1 ha with rfl | h
          · exact absurd ⟨hta, hna⟩ hc
          · exact h
        obtain ⟨a', h1, h2, h3, h4⟩ := ih ⟨a, hap, hta, hna⟩
        refine ⟨a', .step h1 hE, h2, h3, fun b hb hab hba htb => ?_⟩
        rcases (below_parent hf hE).1 hb with rfl | h
        · apply Classical.byContradiction
          intro hnb; exact hc ⟨htb, hnb⟩
        · exact h4 b h hab hba htb
  have hex : ∃ a, Below g a x ∧ IsType w a ∧ ¬ EffVisible w s g a := by
    apply Classical.byContradiction
    intro hno
    apply hx
    rw [C26_types w s m moduleName g hg x ht]
    refine ⟨hr, ho, fun a ha hta => ?_⟩
    apply Classical.byContradiction
    intro hna; exact hno ⟨a, ha, hta, hna⟩
  obtain ⟨a, ha, hta, hna, hbetween⟩ := inner x hr hex
  refine ⟨a, ha, hta, hna, ?_⟩
  rw [C27_warned_about w s m moduleName g hg relocated l hl]
  refine ⟨a, reachable_above hf hr ha, ?_, ?_, ?_, ?_, rfl⟩
  · rintro rfl
    rcases hta with h | h <;> rw [hg.root_kind] at h <;> simp at h
  · rcases below_cases ha with rfl | ⟨p, hE, hap⟩
    · exact absurd hv hna
    · refine hasVisible_above hap (.type hE ht hv) fun b hb hab hba htb => ?_
      exact hbetween b (.step hb hE) hab hba htb
  · rintro ⟨n, hn, hna'⟩
    exact ho ⟨n, hn, below_trans hna' ha⟩
  · rw [C26_types w s m moduleName g hg a hta]
    rintro ⟨_, _, h⟩
    exact hna (h a .self hta)

/-- A visible class 3 without members in the hidden class 2 of a translation unit. -/
def exHidden : World where
  info := fun | 0 => { kind := .translationUnit } | _ => { kind := .record }
  hasName := fun _ _ => false
  ancestors := fun _ => []
  canonical := fun x => x
  access := fun _ => .none
  loc := fun x => x
  dependentContext := fun _ => false
  unit := 0

def exHiddenStorage : Storage where
  entries := fun
    | 3 => some { named := { visible := some true } }
    | _ => none
  size := 1

def exHiddenGraph : Graph where
  root := 0
  nodes := [0, 2, 3]
  children := fun | 0 => [2] | 2 => [3] | _ => []

theorem exHidden_ok : ContextGraph exHidden exHiddenGraph := by
  refine ⟨⟨⟨by simp [exHiddenGraph], ?_, ?_⟩, ?_, ?_, ?_⟩, rfl, ?_⟩
  · intro p c
    simp only [Edge, exHiddenGraph]
    split <;> simp <;> omega
  · intro p c
    simp only [Edge, exHiddenGraph]
    split <;> simp
  · intro p q c
    simp only [Edge, exHiddenGraph]
    split <;> simp <;> split <;> simp <;> omega
  · intro p
    simp only [exHiddenGraph]
    split <;> simp
  · intro p
    simp only [Edge, exHiddenGraph]
    split <;> simp
  · intro x hx hne
    simp only [exHiddenGraph, List.mem_cons, List.not_mem_nil, or_false] at hx hne
    rcases hx with rfl | rfl | rfl <;> simp [exHidden] at *

/-- C27: the property does not hold of the visible type itself: class 3 is visible,
not exposed, and not reported (but class 2 is, by the theorem above). -/
theorem C27_itself_not_reported :
    EffVisible exHidden exHiddenStorage exHiddenGraph 3 ∧
    3 ∉ (analyze exHidden exHiddenStorage ⟨fun _ => [], fun _ => false⟩ t%"m"
      exHiddenGraph).pruned.nodes ∧
    ∀ l : List Nat, (∀ x, x ∈ l ↔ (analyze exHidden exHiddenStorage ⟨fun _ => [], fun _ => false⟩
        t%"m" exHiddenGraph).contexts x = true) →
      ¬ ∃ d ∈ reportUnreachable exHidden (analyze exHidden exHiddenStorage
        ⟨fun _ => [], fun _ => false⟩ t%"m" exHiddenGraph).pruned l (fun _ => none), d.decl = 3 := by
  have r2 : Reachable exHiddenGraph 2 := .step (p := 0) .root trivial (by simp [Edge, exHiddenGraph])
  have hE : Edge exHiddenGraph 2 3 := by simp [Edge, exHiddenGraph]
  have r3 : Reachable exHiddenGraph 3 := .step r2 trivial hE
  refine ⟨.explicit r3 (by simp [exHiddenGraph]) rfl, ?_, ?_⟩
  · rw [C26_types _ _ _ _ _ exHidden_ok 3 (.inr rfl)]
    rintro ⟨_, _, h⟩
    have := h 2 (.step .self hE) (.inr rfl)
    rw [effVisible_cases exHidden_ok.toForest (p := 0) r2 (by simp [Edge, exHiddenGraph])] at this
    rcases this with h | ⟨_, _, _, h⟩
    · simp [explicit, exHiddenStorage] at h
    · exact effVisible_root exHidden_ok.toForest h
  · intro l hl
    rw [C27_warned_about _ _ _ _ _ exHidden_ok _ l hl]
    rintro ⟨x, _, _, h, _, _, hx⟩
    simp only [Option.getD_none] at hx
    subst hx
    cases h with
    | member h => obtain ⟨d, hd, _⟩ := h; simp at hd
    | type hE _ _ => simp [Edge, exHiddenGraph] at hE
    | nested hE _ _ => simp [Edge, exHiddenGraph] at hE

end Verif
