import Verif.Lemmas.AdditionsRun
/-!
# Declarations that are not annotated leave no trace

What is added to a translation unit without annotations, outside of what is visible, has no effect:
headers can be included and private code can be changed without changing the Python module.
-/
namespace Verif
open Spec

/-- C78 (partial: further functions in a visible namespace are exposed wherever they are declared,
see `C78_reopened`, and types and namespaces at the same place are assumed not to exist, see
`C31_not_determined`): if declarations are added that are neither annotated nor placed in something
visible, the result is the same – exit code, files, what is printed and diagnostics. -/
theorem C78_no_trace_partial (o : ToolOptions) (i i' : ToolInput) (ok : InputOK i) (ok' : InputOK i')
    (hd : DistinctPlaces i) (h : OnlyIrrelevantAdded i i') (files : Files) :
    runTool o i' files = runTool o i files := by
  have e := h.same
  rw [e] at h ok' ⊢
  exact run_same o _ _ files (handled_grown ok ok' hd h) rfl rfl rfl

/-- C78 (partial, see above): this does not depend on the order in which the declarations of the
other translation unit are found. -/
theorem C78_any_order_partial (o : ToolOptions) (i i' i'' : ToolInput) (ok : InputOK i)
    (ok' : InputOK i') (hd : DistinctPlaces i) (h : OnlyIrrelevantAdded i i') (hd' : DistinctPlaces i')
    (hm : DistinctMembers i'.world) (hs : SameSource i' i'') (files : Files) :
    runTool o i'' files = runTool o i files :=
  (C75_reproducible_partial o i' i'' ok' hs hd' hm files).trans
    (C78_no_trace_partial o i i' ok ok' hd h files)

/-! ### A header -/

/-- The example, and `namespace 10 { struct 11 { void 12(); }; void 13(); } void 14(); int 15;
bool operator==(11, 11);` and `namespace 4 { void 21(); }`. -/
def exHeader : EmitWorld := { exUnit with
  info := fun
    | 10 => { kind := .namespace, name := t%"detail" }
    | 11 => { kind := .record, name := t%"H" }
    | 12 => { kind := .method, name := t%"h" }
    | 13 => { kind := .function, name := t%"k" }
    | 14 => { kind := .function, name := t%"l" }
    | 15 => { kind := .var, name := t%"v" }
    | 16 => { kind := .function, name := t%"operator==", nameIsIdentifier := false,
              operator := some .equalEqual, params := [t%"x", t%"x"], minRequired := 2 }
    | 20 => { kind := .namespace, name := t%"n" }
    | 21 => { kind := .function, name := t%"m" }
    | x => exUnit.info x
  ancestors := fun
    | 11 => [10, 0] | 12 => [11, 10, 0] | 13 => [10, 0] | 21 => [20, 0] | x => exUnit.ancestors x
  canonical := fun | 20 => 4 | x => x
  fn := fun
    | 2 => exPlain t%"S::f" 1
    | 16 => { exPlain t%"operator==" with params :=
        [⟨{ id := 1, name := t%"x" }, { text := t%"::detail::H", record := some 11 }, t%"H"⟩,
         ⟨{ id := 2, name := t%"x" }, { text := t%"::detail::H", record := some 11 }, t%"H"⟩] }
    | 21 => exPlain t%"n::m"
    | _ => exPlain t%"S::g"
  found := fun
    | 0 => [1, 4].map fun d => ⟨d, none, false, .none, false, false, none, none⟩
    | x => exUnit.found x }

def exBefore : ToolInput := { exInput with world := exHeader }

def exAfter : ToolInput := { exBefore with
  tree := .node 0 [.node 10 [.node 11 [.node 12 []], .node 13 []], .node 1 [.node 2 [], .node 3 []],
    .node 14 [], .node 15 [], .node 4 [.node 5 [.node 6 []]], .node 16 []]
  world := { exHeader with
    found := fun
      | 0 => [10, 1, 14, 15, 4, 16].map fun d => ⟨d, none, false, .none, false, false, none, none⟩
      | 10 => [11, 13].map fun d => ⟨d, none, false, .none, false, false, none, none⟩
      | 11 => [⟨12, none, false, .public, false, false, some 11, none⟩]
      | x => exUnit.found x
    associated := fun | 1 => [16] | 11 => [16] | _ => []
    unitVars := [15] }
  iterate := fun g => g.nodes.reverse }

theorem exBefore_ok : InputOK exBefore where
  unit := by
    refine ⟨rfl, fun id => ?_, by decide +kernel, fun id p ps => ?_, fun id h => ?_, rfl,
      fun a x => ?_, fun a x => ?_, fun a => ?_⟩
    all_goals simp only [exBefore, exInput, exHeader]
    · split <;> simp_all [exUnit]
      split <;> simp_all
    · split <;> (try (rintro ⟨⟩; rfl))
      intro h
      have := exUnit_wellFormed.nested id p ps h
      simp only [exUnit] at h
      split at h <;> cases h <;> rfl
    · split <;> simp_all [exBefore, exInput, exHeader, exUnit]
      split <;> simp_all
    · split <;> simp [exUnit]
      split <;> simp
    · split <;> simp [exUnit]
      split <;> simp
    · split <;> simp [exUnit]
      split <;> simp
  emit := by
    refine ⟨by simp [exBefore, exInput, exHeader, exUnit], by simp [exBefore, exInput, exHeader, exUnit],
      ?_, fun _ _ => rfl⟩
    intro d
    simp only [exBefore, exInput, exHeader]
    split <;> (try rfl)
    simp only [exUnit]
    split <;> (try rfl) <;> (split <;> simp_all) <;> rfl
  bases := by
    intro x a
    simp [exBefore, exInput, exHeader, exUnit, EmitWorld.bases, Hierarchy.direct]
  picks := lastSmallest_ok _
  iterate := fun _ => .refl _

theorem exAfter_ok : InputOK exAfter where
  unit :=
    have h := exBefore_ok.unit
    ⟨rfl, h.unit_kind, by decide +kernel, h.nested, h.outermost, rfl, h.target_tag, h.target_complete, h.alias_name⟩
  emit :=
    have h := exBefore_ok.emit
    ⟨h.specialization, fun r f hf _ => by
      have : f = 16 := by
        revert hf
        simp only [exAfter]
        split <;> simp
      rw [this]; rfl, h.params, h.self⟩
  bases := exBefore_ok.bases
  picks := lastSmallest_ok _
  iterate := fun _ => List.reverse_perm _

theorem exBefore_placed (x : Nat) (h : Placed exBefore.world.toWorld exBefore.tree x) :
    x = 1 ∨ x = 4 ∨ x = 5 := by
  have key : ∀ y, (∃ t, Occurs exBefore.world.toWorld exBefore.tree t ∧ t.id = y) →
      y = 0 ∨ y = 1 ∨ y = 2 ∨ y = 3 ∨ y = 4 ∨ y = 5 ∨ y = 6 := by
    intro y hy
    have hv : y ∈ [0, 1, 2, 3, 4, 5, 6] := (mem_visited exBefore.world.toWorld exBefore.tree y).2 hy
    simpa using hv
  rcases h with ⟨a, ha⟩ | ⟨t, ht, rfl, hc⟩
  · have hk := ha.2.2.1
    rcases key a ha.1 with rfl | rfl | rfl | rfl | rfl | rfl | rfl <;> cases hk
  · rcases key _ ⟨t, ht, rfl⟩ with e | e | e | e | e | e | e <;> rw [e] at hc ⊢ <;>
      first
        | (simp; done)
        | (rcases hc with hc | ⟨hc | hc, _⟩ <;> cases hc)

theorem exBefore_distinct : DistinctPlaces exBefore := by
  refine ⟨fun _ _ _ _ e => e, fun x hx e => ?_, fun _ _ _ _ _ _ _ _ e => e⟩
  have e : x = 0 := e
  rcases exBefore_placed x hx with h | h | h <;> rw [h] at e <;> cases e

theorem exAdded (x : Nat) : AddedContext exBefore.world.toWorld exBefore.tree exAfter.tree x ↔
    x = 10 ∨ x = 11 := by
  constructor
  · rintro ⟨hc, h1, h2⟩
    have hv : x ∈ [0, 10, 11, 12, 13, 1, 2, 3, 14, 15, 4, 5, 6, 16] :=
      (mem_visited exBefore.world.toWorld exAfter.tree x).2 h1
    have hv2 : x ∉ [0, 1, 2, 3, 4, 5, 6] := fun h =>
      h2 ((mem_visited exBefore.world.toWorld exBefore.tree x).1 h)
    simp at hv hv2
    have : x = 10 ∨ x = 11 ∨ x = 12 ∨ x = 13 ∨ x = 14 ∨ x = 15 ∨ x = 16 := by omega
    rcases this with rfl | rfl | rfl | rfl | rfl | rfl | rfl
    · simp
    · simp
    all_goals rcases hc with hc | ⟨hc | hc, _⟩ <;> cases hc
  · intro hx
    refine ⟨?_, (mem_visited exBefore.world.toWorld exAfter.tree x).1 ?_, fun h2 => ?_⟩
    · rcases hx with rfl | rfl
      · exact .inl rfl
      · exact .inr ⟨.inr rfl, rfl, rfl⟩
    · have : x ∈ [0, 10, 11, 12, 13, 1, 2, 3, 14, 15, 4, 5, 6, 16] := by rcases hx with rfl | rfl <;> simp
      exact this
    · have hv : x ∈ [0, 1, 2, 3, 4, 5, 6] := (mem_visited exBefore.world.toWorld exBefore.tree x).2 h2
      rcases hx with rfl | rfl <;> simp at hv

theorem exBefore_visible (g : Graph) (b : Building)
    (hb : buildGraph exBefore.world.toWorld exBefore.tree = (some g, b)) (x : Nat)
    (h : EffVisible exBefore.world.toWorld b.storage g x) : x = 1 ∨ x = 4 ∨ x = 5 := by
  have hr := (built _ _ exBefore_ok.unit g b hb).root
  refine exBefore_placed x ?_
  cases h with
  | explicit hr' hne _ => exact (edge_placed exBefore exBefore_ok g b hb x hr').resolve_left fun e => hne (e.trans hr.symm)
  | inherited _ he => exact (C21_nothing_else _ _ exBefore_ok.unit g b hb _ x he).2

theorem exAfter_irrelevant (t : Tree) (h : ∀ x ∈ visited exHeader.toWorld t, 10 ≤ x) :
    ¬ Relevant exHeader.toWorld t := by
  rintro ⟨s, hs, ha⟩
  have := h _ (occurs_visited _ _ _ hs)
  obtain ⟨text, ht, _⟩ := ha.2.2.1
  revert ht
  simp only [exHeader]
  split <;> (try simp)
  simp only [exUnit]
  split <;> simp <;> omega

theorem exOrdinary (x : Nat) (h : 10 ≤ x) : Ordinary exHeader x := by
  have : Unannotated exHeader.toWorld x := by
    intro text ht
    revert ht
    simp only [exHeader]
    split <;> (try simp)
    simp only [exUnit]
    split <;> simp <;> omega
  exact ⟨this, fun e he => by
    have : e = x := he
    rw [this]; assumption⟩

theorem extends_refl {α : Type} (p : α → Prop) (l : List α) : Extends p l l := by
  induction l with
  | nil => exact .nil
  | cons a l ih => exact .keep ih

theorem exAfter_added : OnlyIrrelevantAdded exBefore exAfter where
  same := rfl
  tree := by
    refine .node (.add (exAfter_irrelevant _ (by decide)) (.keep ?_ (.add (exAfter_irrelevant _ (by decide))
      (.add (exAfter_irrelevant _ (by decide)) (.keep ?_ (.add (exAfter_irrelevant _ (by decide)) .nil))))))
    · exact .node (.keep (.node .nil) (.keep (.node .nil) .nil))
    · exact .node (.keep (.node (.keep (.node .nil) .nil)) .nil)
  targets := by
    intro a x _
    have : (exBefore.world.info a).aliasTarget ≠ some x := by
      simp only [exBefore, exInput, exHeader]
      split <;> (try simp)
      simp only [exUnit]
      split <;> simp
    exact ⟨fun h => this h.2.2.2.1, fun h => this h.2.2.2.1⟩
  outside := by
    intro t p ht ⟨pre, post, hp, _⟩
    have hv : t.id ∈ [0, 1, 2, 3, 4, 5, 6] := (mem_visited exBefore.world.toWorld exBefore.tree t.id).2 ⟨t, ht, rfl⟩
    have hm : p ∈ exBefore.world.ancestors t.id := by rw [hp]; simp
    rw [exAdded]
    simp only [List.mem_cons, List.not_mem_nil, or_false] at hv
    rcases hv with e | e | e | e | e | e | e <;> rw [e] at hm <;>
      simp [exBefore, exHeader, exUnit] at hm <;> omega
  hidden := by
    intro g b hb x p hx ⟨pre, post, hp, _⟩ hv
    have hm : p ∈ exBefore.world.ancestors x := by rw [hp]; simp
    have := exBefore_visible g b hb p hv
    rcases (exAdded x).1 hx with rfl | rfl <;> simp [exBefore, exHeader, exUnit] at hm <;> omega
  inside := by
    intro x f hx hf
    rcases (exAdded x).1 hx with rfl | rfl <;> simp [exAfter] at hf
    · rcases hf with rfl | rfl <;> exact .inr (exOrdinary _ (by simp [leadsTo]))
    · rw [hf]; exact .inr (exOrdinary _ (by simp [leadsTo]))
  found := by
    intro x hx
    rw [exAdded] at hx
    by_cases h0 : x = 0
    · subst h0
      have hn : ∀ g b, buildGraph exBefore.world.toWorld exBefore.tree = (some g, b) →
          ¬ EffVisible exBefore.world.toWorld b.storage g 0 := by
        intro g b hb hv
        have := exBefore_visible g b hb 0 hv
        omega
      exact .add (.inl (.inr (.inr (.inr (.inr (.inl rfl)))))) (.keep (.add (.inr ⟨exOrdinary 14 (by decide), hn⟩)
        (.add (.inr ⟨exOrdinary 15 (by decide), hn⟩)
          (.keep (.add (.inr ⟨exOrdinary 16 (by decide), hn⟩) .nil)))))
    · have : exAfter.world.found x = exBefore.world.found x := by
        simp only [exAfter, exBefore, exHeader]
        split <;> simp_all
      rw [this]
      exact extends_refl _ _
  associated := by
    intro x hx
    rw [exAdded] at hx
    by_cases h1 : x = 1
    · subst h1
      refine .add ?_ .nil
      intro e he p hp
      have he : e = 16 := he
      subst he
      simp [exBefore, exHeader] at hp
      rcases hp with rfl | rfl <;> simp
    · have : exAfter.world.associated x = exBefore.world.associated x := by
        simp only [exAfter, exBefore, exHeader, exUnit]
        split <;> simp_all
      rw [this]
      exact extends_refl _ _
  variables := .add (exOrdinary 15 (by decide)).1 .nil

/-- The hypotheses hold for the example. -/
example : InputOK exBefore ∧ InputOK exAfter ∧ DistinctPlaces exBefore ∧ OnlyIrrelevantAdded exBefore exAfter :=
  ⟨exBefore_ok, exAfter_ok, exBefore_distinct, exAfter_added⟩

local macro "eval_run" : tactic => `(tactic| (
  simp only [handleTranslationUnit, emitModule, findEnclosingScopes, analyze, pruneGraph, hideNamespaces,
    declContextsWithVisibleNamedDecls, deriveEffectiveVisibility, dfs_fuel]
  decide +kernel))

set_option maxRecDepth 4000 in
/-- Something is generated for it. -/
example : (handleTranslationUnit exBefore t%"m" [t%"/a"]).outputs ≠ [] ∧
    (handleTranslationUnit exAfter t%"m" [t%"/a"]).diags = [] := by
  constructor <;> eval_run

/-- The namespace 4 is visible. -/
def exOpen : ToolInput := { exBefore with
  world := { exHeader with
    info := fun
      | 4 => { kind := .namespace, name := t%"n", attrTexts := [lozenge ++ t%"module", lozenge ++ t%"visible"] }
      | x => exHeader.info x } }

/-- It is opened again by the added header, without annotations. -/
def exReopening : ToolInput := { exOpen with
  tree := .node 0 [.node 1 [.node 2 [], .node 3 []], .node 4 [.node 5 [.node 6 []]], .node 20 [.node 21 []]]
  world := { exOpen.world with
    found := fun
      | 4 => [⟨21, none, false, .none, false, false, none, none⟩]
      | x => exHeader.found x } }

set_option maxRecDepth 4000 in
/-- C78: nothing that is added here is annotated, nor is the part of the namespace it is added to, but
the function is exposed since lookup finds it in the other part of the namespace. -/
theorem C78_reopened : Unannotated exOpen.world.toWorld 20 ∧ Unannotated exOpen.world.toWorld 21 ∧
    ScopeOf exOpen.world.toWorld 21 20 ∧ ScopeOf exOpen.world.toWorld 20 0 ∧
    Grown exOpen.world.toWorld exOpen.tree exReopening.tree ∧
    (handleTranslationUnit exReopening t%"m" [t%"/a"]).diags = [] ∧
    (handleTranslationUnit exReopening t%"m" [t%"/a"]).outputs ≠
      (handleTranslationUnit exOpen t%"m" [t%"/a"]).outputs := by
  have h1 : Unannotated exOpen.world.toWorld 20 := fun _ ht => by cases ht
  have h2 : Unannotated exOpen.world.toWorld 21 := fun _ ht => by cases ht
  refine ⟨h1, h2, ⟨[], [0], rfl, .inl rfl, by simp⟩, ⟨[], [], rfl, .inr (.inr (.inr rfl)), by simp⟩, ?_, ?_, ?_⟩
  · refine .node (.keep (.node (.keep (.node .nil) (.keep (.node .nil) .nil)))
      (.keep (.node (.keep (.node (.keep (.node .nil) .nil)) .nil)) (.add ?_ .nil)))
    rintro ⟨s, hs, ha⟩
    have hv : s.id ∈ [20, 21] := occurs_visited _ _ _ hs
    simp only [List.mem_cons, List.not_mem_nil, or_false] at hv
    obtain ⟨text, ht, hp⟩ := ha.2.2.1
    rcases hv with e | e <;> rw [e] at ht <;> cases ht
  all_goals eval_run

end Verif
