import Verif.Spec.Reproducible
import Verif.Props.Tool
import Verif.Props.ToolExamples
import Verif.Props.Sorting
/-!
# C75: running the tool again gives the same result
-/
namespace Verif
open Spec

/-! ### Sorting -/

theorem insertDecl_at (w : World) (x n : Nat) (l : List Nat) :
    (insertDecl w x l).filter (fun y => w.loc y = n) = (x :: l).filter (fun y => w.loc y = n) := by
  induction l with
  | nil => rfl
  | cons y l ih =>
    rw [insertDecl]
    split
    · rfl
    · rename_i h
      rw [List.filter_cons, ih, List.filter_cons, List.filter_cons, List.filter_cons]
      by_cases hy : w.loc y = n
      · have hx : ¬ w.loc x = n := by omega
        simp [hy, hx]
      · simp [hy]

theorem sortDecls_at (w : World) (n : Nat) (l : List Nat) :
    (sortDecls w l).filter (fun y => w.loc y = n) = l.filter (fun y => w.loc y = n) := by
  induction l with
  | nil => rfl
  | cons x l ih =>
    have e : sortDecls w (x :: l) = insertDecl w x (sortDecls w l) := rfl
    rw [e, insertDecl_at, List.filter_cons, List.filter_cons, ih]

/-- Sorted lists are the same if they have the same elements at each location, in the same order. -/
theorem sorted_ext (loc : Nat → Nat) : ∀ l l' : List Nat,
    l.Pairwise (fun a b => loc a ≤ loc b) → l'.Pairwise (fun a b => loc a ≤ loc b) →
    (∀ n, l.filter (fun y => loc y = n) = l'.filter (fun y => loc y = n)) → l = l'
  | [], [], _, _, _ => rfl
  | [], y :: l', _, _, h => by
    have := h (loc y)
    simp at this
  | x :: l, [], _, _, h => by
    have := h (loc x)
    simp at this
  | x :: l, y :: l', h1, h2, h => by
    have m1 : ∀ z, z ∈ x :: l ↔ z ∈ y :: l' := by
      intro z
      have := congrArg (z ∈ ·) (h (loc z))
      simpa using this
    obtain ⟨a1, b1⟩ := List.pairwise_cons.1 h1
    obtain ⟨a2, b2⟩ := List.pairwise_cons.1 h2
    have hxy : loc x = loc y := by
      refine Nat.le_antisymm ?_ ?_
      · rcases List.mem_cons.1 ((m1 y).2 (by simp)) with e | e
        · rw [e]; exact Nat.le_refl _
        · exact a1 _ e
      · rcases List.mem_cons.1 ((m1 x).1 (by simp)) with e | e
        · rw [e]; exact Nat.le_refl _
        · exact a2 _ e
    have h0 := h (loc x)
    rw [List.filter_cons, List.filter_cons] at h0
    simp only [hxy, decide_true, if_true, List.cons.injEq] at h0
    obtain ⟨rfl, h0⟩ := h0
    congr 1
    refine sorted_ext loc l l' b1 b2 fun n => ?_
    have hn := h n
    rw [List.filter_cons, List.filter_cons] at hn
    by_cases e : loc x = n
    · simpa [e] using hn
    · simpa [e] using hn

theorem sortDecls_ties (w : World) (l l' : List Nat)
    (h : ∀ n, l.filter (fun y => w.loc y = n) = l'.filter (fun y => w.loc y = n)) :
    sortDecls w l = sortDecls w l' :=
  sorted_ext w.loc _ _ (sortDecls_sorted w l) (sortDecls_sorted w l') fun n => by
    rw [sortDecls_at, sortDecls_at, h]

theorem constant_perm (l l' : List Nat) (hp : l.Perm l') (h : ∀ x ∈ l, ∀ y ∈ l, x = y) : l = l' := by
  cases l with
  | nil => exact hp.nil_eq
  | cons a l =>
    have e1 : ∀ b ∈ a :: l, b = a := fun b hb => h b hb a (by simp)
    have e2 : ∀ b ∈ l', b = a := fun b hb => e1 b (hp.mem_iff.2 hb)
    rw [List.eq_replicate_of_mem e1, List.eq_replicate_of_mem e2, hp.length_eq]

theorem sortDecls_determined (w : World) (l l' : List Nat) (hp : l.Perm l')
    (h : ∀ x ∈ l, ∀ y ∈ l, w.loc x = w.loc y → x = y) : sortDecls w l = sortDecls w l' :=
  sortDecls_ties w l l' fun n => constant_perm _ _ (hp.filter _) fun x hx y hy => by
    simp only [List.mem_filter, decide_eq_true_eq] at hx hy
    exact h x hx.1 y hy.1 (hx.2.trans hy.2.symm)

/-! ### What does not depend on lookup -/

theorem properties_found (w : EmitWorld) (f : Nat → List Found) (m : PropertyMap) :
    emitProperties { w with found := f } m = emitProperties w m := by
  induction m with
  | nil => rfl
  | cons p m ih =>
    simp only [emitProperties, ih]
    rfl

theorem finalize_found (w : EmitWorld) (f : Nat → List Found) (e : Exposer) (st : Exposing) :
    Exposer.finalizeDefinition { w with found := f } e st = Exposer.finalizeDefinition w e st := by
  cases e with
  | record x p => simp only [Exposer.finalizeDefinition, properties_found]
  | _ => rfl

/-- The declarations offered by all contexts are the same. -/
def SameOffers (w : EmitWorld) (f : Nat → List Found) : Prop :=
  ∀ policy x, sortDecls w.toWorld (collectVisibleDecls w.toWorld w.hasLocation policy (f x)) =
    sortDecls w.toWorld (collectVisibleDecls w.toWorld w.hasLocation policy (w.found x))

theorem exposeContext_found (w : EmitWorld) (f : Nat → List Found) (h : SameOffers w f)
    (vis : Visibilities) (s : Storage) (e : Exposer) (x : Nat) :
    exposeContext { w with found := f } vis s e x = exposeContext w vis s e x := by
  have hp : proposedDecls { w with found := f } e x = proposedDecls w e x := by
    unfold proposedDecls
    dsimp only
    rw [h]
    rfl
  unfold exposeContext
  rw [finalize_found, hp]
  rfl

theorem defineItems_found (w : EmitWorld) (f : Nat → List Found) (h : SameOffers w f) (g : Graph)
    (vis : Visibilities) (streams count : Nat) (d : Defining) (k : Nat) (l : List WorklistItem) :
    defineItems { w with found := f } g vis streams count d k l =
      defineItems w g vis streams count d k l := by
  induction l generalizing d k with
  | nil => rfl
  | cons x l ih =>
    rw [defineItems, defineItems, ih]
    congr 1
    unfold defineItem
    rw [exposeContext_found w f h]
    rfl

theorem emitModule_found (w : EmitWorld) (f : Nat → List Found) (h : SameOffers w f) (s : Storage)
    (g : Graph) (vis : Visibilities) (pick pick' : Pick) (nodes nodes' : List Nat) (n : Nat) (name : Str)
    (hs : declContextsSortedByDependencies w.toWorld w.bases pick' nodes' g
        (findEnclosingScopes w.toWorld s g) =
      declContextsSortedByDependencies w.toWorld w.bases pick nodes g
        (findEnclosingScopes w.toWorld s g)) :
    emitModule { w with found := f } s g vis pick' nodes' n name =
      emitModule w s g vis pick nodes n name := by
  have hb : EmitWorld.bases { w with found := f } = w.bases := rfl
  unfold emitModule
  dsimp only
  rw [hb, hs]
  cases (declContextsSortedByDependencies w.toWorld w.bases pick nodes g
        (findEnclosingScopes w.toWorld s g)).2 with
  | some c => rfl
  | none =>
    dsimp only
    rw [defineItems_found w f h]
    rfl

/-! ### The analyses -/

theorem any_perm {α : Type} (p : α → Bool) {l l' : List α} (h : l.Perm l') : l.any p = l'.any p := by
  rw [Bool.eq_iff_iff, List.any_eq_true, List.any_eq_true]
  exact exists_congr fun x => and_congr_left fun _ => h.mem_iff

theorem analyze_members (w : World) (s : Storage) (m m' : Members) (name : Str) (g : Graph)
    (hd : ∀ x, (m'.decls x).Perm (m.decls x)) (hi : m'.isImplicit = m.isImplicit) :
    analyze w s m' name g = analyze w s m name g := by
  have hc : ∀ vis id, containsVisibleNamedDecls w s m' vis g id =
      containsVisibleNamedDecls w s m vis g id := by
    intro vis id
    unfold containsVisibleNamedDecls
    rw [hi, any_perm _ (hd id)]
  have : ∀ vis, declContextsWithVisibleNamedDecls w s m' vis g =
      declContextsWithVisibleNamedDecls w s m vis g := by
    intro vis
    unfold declContextsWithVisibleNamedDecls
    simp only [hc]
  unfold analyze
  simp only [this]

theorem edge_placed (i : ToolInput) (ok : InputOK i) (g : Graph) (b : Building)
    (h : buildGraph i.world.toWorld i.tree = (some g, b)) (x : Nat) (hx : Reachable g x) :
    x = i.world.unit ∨ Placed i.world.toWorld i.tree x := by
  have hr := (built _ _ ok.unit g b h).root
  cases hx with
  | root => exact .inl hr
  | step hp _ he => exact .inr (C21_nothing_else _ _ ok.unit g b h _ x he).2

theorem unit_not_named (i : ToolInput) (ok : InputOK i) :
    (i.world.info i.world.unit).kind.isNamed = false := by
  rw [(ok.unit.unit_kind _).2 rfl]
  rfl

/-! ### C75 -/

theorem handled_same (i : ToolInput) (ok : InputOK i) (hd : DistinctPlaces i) (found : Nat → List Found)
    (pick : Pick) (iterate : Graph → List Nat) (hf : ∀ x, (found x).Perm (i.world.found x))
    (hp : PicksTop i.world.loc pick) (hi : ∀ g : Graph, (iterate g).Perm g.nodes)
    (ho : SameOffers i.world found) (name : Str) (outputs : List Str) :
    handleTranslationUnit { i with world := { i.world with found }, pick, iterate } name outputs =
      handleTranslationUnit i name outputs := by
  unfold handleTranslationUnit
  dsimp only
  rcases hb : buildGraph i.world.toWorld i.tree with ⟨_ | g, b⟩
  · rfl
  dsimp only
  have hbt := built _ _ ok.unit g b hb
  have hcg := C23_graphs _ _ ok.unit g b hb
  have hn : (iterate g).Perm (i.iterate g) := (hi g).trans (ok.iterate g).symm
  have placed : ∀ x a, b.relocated x = some a → Placed i.world.toWorld i.tree x := fun x a hx =>
    .inl ⟨a, (relocated_iff hbt a x).1 hx⟩
  -- cycles
  have e1 : reportExposeHereCycles i.world.toWorld (iterate g)
        (reachableDeclContexts (deriveEffectiveVisibility i.world.toWorld b.storage g)) b.relocated =
      reportExposeHereCycles i.world.toWorld (i.iterate g)
        (reachableDeclContexts (deriveEffectiveVisibility i.world.toWorld b.storage g)) b.relocated := by
    unfold reportExposeHereCycles cycleAliases
    rw [sortDecls_determined _ _ _ (hn.filterMap _)]
    intro x hx y hy e
    rw [List.mem_filterMap] at hx hy
    obtain ⟨x', _, hx⟩ := hx
    obtain ⟨y', _, hy⟩ := hy
    split at hx
    · cases hx
    split at hy
    · cases hy
    exact hd.aliases x' y' x y (placed _ _ hx) (placed _ _ hy) (.inl ((relocated_iff hbt _ _).1 hx))
      (.inl ((relocated_iff hbt _ _).1 hy)) e
  rw [e1]
  split
  · rfl
  -- members
  have e2 : analyze i.world.toWorld b.storage
        (ToolInput.members { i with world := { i.world with found }, pick, iterate }) name g =
      analyze i.world.toWorld b.storage i.members name g :=
    analyze_members _ _ _ _ _ _ (fun x => (hf x).filterMap _) rfl
  rw [e2]
  -- warnings
  have e3 : reportUnreachable i.world.toWorld (analyze i.world.toWorld b.storage i.members name g).pruned
        ((iterate g).filter (analyze i.world.toWorld b.storage i.members name g).contexts) b.relocated =
      reportUnreachable i.world.toWorld (analyze i.world.toWorld b.storage i.members name g).pruned
        ((i.iterate g).filter (analyze i.world.toWorld b.storage i.members name g).contexts) b.relocated := by
    unfold reportUnreachable
    dsimp only
    rw [sortDecls_determined _ _ _ ((hn.filter _).filterMap _)]
    have key : ∀ x, x ∈ ((iterate g).filter (analyze i.world.toWorld b.storage i.members name g).contexts).filterMap
        (fun id => if (!(i.world.info id).kind.isNamed ||
          (analyze i.world.toWorld b.storage i.members name g).pruned.hasNode id) = true then none
          else some ((b.relocated id).getD id)) →
        ∃ y, Placed i.world.toWorld i.tree y ∧ StandsFor i.world.toWorld i.tree x y := by
      intro x hx
      rw [List.mem_filterMap] at hx
      obtain ⟨y, hy, e⟩ := hx
      rw [List.mem_filter] at hy
      split at e
      · cases e
      rename_i hnm
      have hr := ((contexts_analysis hcg y).1 hy.2).1
      rcases edge_placed i ok g b hb y hr with rfl | hpl
      · exact absurd (by rw [unit_not_named i ok]; rfl) hnm
      · refine ⟨y, hpl, ?_⟩
        cases hrel : b.relocated y with
        | some a =>
          rw [hrel] at e
          cases e
          exact .inl ((relocated_iff hbt _ _).1 hrel)
        | none =>
          rw [hrel] at e
          cases e
          refine .inr ⟨fun ⟨a, ha⟩ => ?_, rfl⟩
          rw [(relocated_iff hbt _ _).2 ha] at hrel
          cases hrel
    intro x hx y hy e
    obtain ⟨x', px, sx⟩ := key x hx
    obtain ⟨y', py, sy⟩ := key y hy
    exact hd.aliases x' y' x y px py sx sy e
  rw [e3]
  -- the order of contexts
  have hin := emitInput i ok g b hb name
  have hsub : ∀ x ∈ (analyze i.world.toWorld b.storage i.members name g).pruned.nodes,
      x = i.world.unit ∨ Placed i.world.toWorld i.tree x := by
    intro x hx
    obtain ⟨_, hroot, hedge, hreach⟩ := C26_places i.world.toWorld b.storage i.members name g hcg
    cases (hreach x).1 hx with
    | root => exact .inl (hroot.trans hbt.root)
    | step _ _ he => exact .inr (C21_nothing_else _ _ ok.unit g b hb _ x ((hedge _ x).1 he).1).2
  have e4 := fun n => emitModule_found i.world found ho b.storage
    (analyze i.world.toWorld b.storage i.members name g).pruned
    (analyze i.world.toWorld b.storage i.members name g).vis i.pick pick
    (i.iterate (analyze i.world.toWorld b.storage i.members name g).pruned)
    (iterate (analyze i.world.toWorld b.storage i.members name g).pruned) n name
    (C31_determined_partial i.world.toWorld b.storage _ hin.graph _ hin.bases _ _ hp hin.picks
      (fun x hx y hy e => by
        rcases hsub x hx with rfl | px <;> rcases hsub y hy with rfl | py
        · rfl
        · exact absurd e.symm (hd.unit y py)
        · exact absurd e (hd.unit x px)
        · exact hd.contexts x y px py e) _ _ (hi _) hin.perm)
  simp only [e4]
  rfl

theorem run_same (o : ToolOptions) (i i' : ToolInput) (files : Files)
    (h : ∀ name outputs, handleTranslationUnit i' name outputs = handleTranslationUnit i name outputs)
    (hm : i'.mainFile = i.mainFile) (he : i'.earlierErrors = i.earlierErrors)
    (hp : i'.pragmas = i.pragmas) : runTool o i' files = runTool o i files := by
  unfold runTool shouldEraseOutputFiles errorOccurred
  simp only [h, hm, he, hp]

/-- C75 (partial: declarations at the same place are assumed not to exist, see `C75_ties` and
`C31_not_determined`): running the tool again gives the same result – exit code, files, what is
printed and diagnostics in the same order – whatever the choices of containers. -/
theorem C75_reproducible_partial (o : ToolOptions) (i i' : ToolInput) (ok : InputOK i)
    (hs : SameSource i i') (hd : DistinctPlaces i) (hm : DistinctMembers i.world) (files : Files) :
    runTool o i' files = runTool o i files := by
  obtain ⟨found, pick, iterate, hf, hp, hi, rfl⟩ := hs
  refine run_same o _ _ files (handled_same i ok hd found pick iterate hf hp hi ?_) rfl rfl rfl
  intro policy x
  refine sortDecls_determined _ _ _ ((hf x).filterMap _) fun a ha b hb e => ?_
  have key : ∀ a ∈ (found x).filterMap (foundDecl i.world.toWorld i.world.hasLocation policy),
      ∃ f ∈ i.world.found x, leadsTo f = a ∧ i.world.hasLocation a = true := by
    intro a ha
    rw [List.mem_filterMap] at ha
    obtain ⟨f, hfm, hfe⟩ := ha
    refine ⟨f, (hf x).mem_iff.1 hfm, ?_⟩
    unfold foundDecl at hfe
    dsimp only at hfe
    split at hfe; · cases hfe
    split at hfe; · cases hfe
    split at hfe; · cases hfe
    split at hfe; · cases hfe
    rename_i hl
    cases hfe
    exact ⟨rfl, by simpa using hl⟩
  obtain ⟨f, h1, rfl, h2⟩ := key a ha
  obtain ⟨f', h1', rfl, h2'⟩ := key b hb
  exact hm x f h1 f' h1' h2 h2' e

theorem foundDecl_leadsTo (w : World) (l : Nat → Bool) (p : Option InliningPolicy) (f : Found) (d : Nat)
    (h : foundDecl w l p f = some d) : d = leadsTo f := by
  unfold foundDecl at h
  dsimp only at h
  split at h; · cases h
  split at h; · cases h
  split at h; · cases h
  split at h; · cases h
  cases h
  rfl

theorem collect_at (w : World) (l : Nat → Bool) (p : Option InliningPolicy) (n : Nat) (fs : List Found) :
    (collectVisibleDecls w l p fs).filter (fun y => w.loc y = n) =
      collectVisibleDecls w l p (fs.filter fun f => w.loc (leadsTo f) = n) := by
  unfold collectVisibleDecls
  induction fs with
  | nil => rfl
  | cons f fs ih =>
    rw [List.filterMap_cons, List.filter_cons]
    cases hd : foundDecl w l p f with
    | none =>
      dsimp only
      rw [ih]
      split
      · rw [List.filterMap_cons, hd]
      · rfl
    | some d =>
      dsimp only
      rw [List.filter_cons, ih, foundDecl_leadsTo w l p f d hd]
      split
      · rw [List.filterMap_cons, hd, foundDecl_leadsTo w l p f d hd]
      · rfl

/-- C75 (partial: types and namespaces at the same place are assumed not to exist, see
`C31_not_determined`): if members are at the same place, it is enough that lookup finds these in
the same order (and that sorting keeps it). -/
theorem C75_ties_alike_partial (o : ToolOptions) (i i' : ToolInput) (ok : InputOK i)
    (hs : SameSource i i') (hd : DistinctPlaces i) (ht : TiesAlike i.world i'.world) (files : Files) :
    runTool o i' files = runTool o i files := by
  obtain ⟨found, pick, iterate, hf, hp, hi, rfl⟩ := hs
  refine run_same o _ _ files (handled_same i ok hd found pick iterate hf hp hi ?_) rfl rfl rfl
  intro policy x
  refine sortDecls_ties _ _ _ fun n => ?_
  rw [collect_at, collect_at]
  exact congrArg _ (ht x n)

/-- Another run for the same source code as the example: everything is found, iterated and returned
in another order. -/
def exAgain : ToolInput := { exInput with
  world := { exUnit with found := fun x => (exUnit.found x).reverse }
  pick := fun _ => firstSmallest exUnit.loc
  iterate := fun g => g.nodes.reverse }

theorem exAgain_same : SameSource exInput exAgain :=
  ⟨_, _, _, fun _ => List.reverse_perm _, firstSmallest_ok _, fun _ => List.reverse_perm _, rfl⟩

theorem exInput_placed (x : Nat) (h : Placed exInput.world.toWorld exInput.tree x) : x ≠ 0 := by
  rintro rfl
  rcases h with ⟨a, ha⟩ | ⟨_, _, _, hc⟩
  · exact target_not_unit _ _ exInput_ok.unit a 0 ha rfl
  · rcases hc with hc | ⟨hc | hc, _⟩ <;> cases hc

/-- The hypotheses hold for the example, and the two runs do find things in a different order. -/
example : InputOK exInput ∧ SameSource exInput exAgain ∧ DistinctPlaces exInput ∧
    DistinctMembers exInput.world ∧ (exAgain.world.found 1).map (·.decl) = [3, 2] ∧
    (exInput.world.found 1).map (·.decl) = [2, 3] :=
  ⟨exInput_ok, exAgain_same, ⟨fun _ _ _ _ e => e, fun x hx e => exInput_placed x hx e,
    fun _ _ _ _ _ _ _ _ e => e⟩, fun _ _ _ _ _ _ _ e => e, rfl, rfl⟩

/-- `struct visible 1 { };` with the default constructor 2 and the copy constructor 3, provided by the
compiler at the location of the class. -/
def exTies : ToolInput := { exInput with
  world := { exUnit with
    info := fun
      | 0 => { kind := .translationUnit }
      | 1 => { kind := .record, name := t%"S", attrTexts := [lozenge ++ t%"visible"] }
      | 2 => { kind := .constructor, name := t%"S" }
      | 3 => { kind := .constructor, name := t%"S", params := [t%"x"], minRequired := 1 }
      | _ => { kind := .other }
    ancestors := fun | 0 => [] | 2 => [1, 0] | 3 => [1, 0] | _ => [0]
    loc := fun | 2 => 1 | 3 => 1 | x => x
    fn := fun | 3 => exPlain t%"S::S" 1 | _ => exPlain t%"S::S" 0
    found := fun
      | 1 => [2, 3].map fun d => ⟨d, none, false, .public, true, false, some 1, none⟩
      | _ => [] }
  tree := .node 0 [.node 1 [.node 2 [], .node 3 []]]
  pick := fun _ => lastSmallest fun | 2 => 1 | 3 => 1 | x => x }

/-- Another run for this source code. -/
def exTiesAgain : ToolInput := { exTies with
  world := { exTies.world with found := fun x => (exTies.world.found x).reverse } }

local macro "eval_run" : tactic => `(tactic| (
  simp only [handleTranslationUnit, emitModule, findEnclosingScopes, analyze, pruneGraph, hideNamespaces,
    declContextsWithVisibleNamedDecls, deriveEffectiveVisibility, dfs_fuel]
  decide +kernel))

theorem exTies_ok : InputOK exTies where
  unit := by
    refine ⟨rfl, fun id => ?_, by decide +kernel, fun id p ps => ?_, fun id h => ?_, rfl,
      fun a x => ?_, fun a x => ?_, fun a => ?_⟩
    all_goals simp only [exTies, exUnit]
    · split <;> simp_all
    · split <;> simp <;> rintro rfl rfl <;> rfl
    · split <;> simp_all [exTies, exUnit]
    · split <;> simp
    · split <;> simp
    · split <;> simp
  emit := by
    refine ⟨by simp [exTies, exUnit], by simp [exTies, exUnit], ?_, fun _ _ => rfl⟩
    intro d
    simp only [exTies, exUnit]
    split <;> (try rfl) <;> (split <;> simp_all) <;> rfl
  bases := by
    intro x a
    simp [exTies, exUnit, exInput, EmitWorld.bases, Hierarchy.direct]
  picks := lastSmallest_ok _
  iterate := fun _ => .refl _

theorem exTies_same : SameSource exTies exTiesAgain :=
  ⟨_, _, _, fun _ => List.reverse_perm _, lastSmallest_ok _, fun _ => .refl _, rfl⟩

theorem exTies_placed (x : Nat) (h : Placed exTies.world.toWorld exTies.tree x) : x = 1 := by
  rcases h with ⟨a, ha⟩ | ⟨_, _, _, hc⟩
  · have := ha.2.2.1
    revert this
    simp only [exTies]
    split <;> simp
  · revert hc
    simp only [Context, exTies]
    split <;> simp

theorem exTies_distinct : DistinctPlaces exTies := by
  have alias : ∀ a x, Placed exTies.world.toWorld exTies.tree x →
      StandsFor exTies.world.toWorld exTies.tree a x → a = 1 := by
    rintro a x hp (h | ⟨_, rfl⟩)
    · have := h.2.2.1
      exfalso
      revert this
      simp only [exTies]
      split <;> simp
    · exact exTies_placed _ hp
  refine ⟨fun x y hx hy _ => ?_, fun x hx => ?_, fun x y a a' hx hy h h' _ => ?_⟩
  · rw [exTies_placed x hx, exTies_placed y hy]
  · rw [exTies_placed x hx]; decide
  · rw [alias a x hx h, alias a' y hy h']

set_option maxRecDepth 4000 in
/-- C75 does not hold if members are at the same place: the order of the constructors in the
generated file – and with it the overload Python tries first – depends on the order in which lookup
finds them. -/
theorem C75_ties : InputOK exTies ∧ SameSource exTies exTiesAgain ∧ DistinctPlaces exTies ∧
    (handleTranslationUnit exTies t%"m" [t%"/a"]).diags = [] ∧
    (handleTranslationUnit exTies t%"m" [t%"/a"]).outputs ≠
      (handleTranslationUnit exTiesAgain t%"m" [t%"/a"]).outputs := by
  refine ⟨exTies_ok, exTies_same, exTies_distinct, ?_, ?_⟩ <;> eval_run

/-- The hypotheses of `C75_ties_alike_partial` hold for this source code if the constructors are
found in the same order. -/
example : InputOK exTies ∧ DistinctPlaces exTies ∧
    SameSource exTies { exTies with iterate := fun g => g.nodes.reverse } ∧
    TiesAlike exTies.world exTies.world ∧ ¬ DistinctMembers exTies.world := by
  refine ⟨exTies_ok, exTies_distinct,
    ⟨_, _, _, fun _ => .refl _, exTies_ok.picks, fun _ => List.reverse_perm _, rfl⟩, fun _ _ => rfl, fun h => ?_⟩
  exact absurd (h 1 ⟨2, none, false, .public, true, false, some 1, none⟩ (by simp [exTies])
    ⟨3, none, false, .public, true, false, some 1, none⟩ (by simp [exTies]) rfl rfl rfl) (by decide)

end Verif
