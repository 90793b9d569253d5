import Verif.Spec.Tool
import Verif.Props.Module
import Verif.Props.Path
import Verif.Props.Processing
import Verif.Props.Graph
/-!
# C50, C55: the outcome of a run
-/
namespace Verif
open Spec

/-! ### Output files -/

theorem createOutputFiles_ok (c : Str → Bool) : ∀ l : List Str,
    ((createOutputFiles c l).1 = true ↔ ∀ p ∈ l, c p = true) ∧
    ((createOutputFiles c l).1 = true → (createOutputFiles c l).2 = l) ∧
    (∃ r, l = (createOutputFiles c l).2 ++ r)
  | [] => by simp [createOutputFiles]
  | p :: l => by
    obtain ⟨h1, h2, r, h3⟩ := createOutputFiles_ok c l
    unfold createOutputFiles
    cases hp : c p with
    | false => simp [hp]
    | true =>
      simp only [Bool.not_true, Bool.false_eq_true, if_false, List.mem_cons, forall_eq_or_imp, hp, true_and]
      refine ⟨h1, fun h => by rw [h2 h], r, by rw [List.cons_append, ← h3]⟩

theorem clear_stdout (erase : Bool) (files : Files) (l : List (Str × Str)) :
    clearOutputFiles erase files l ['-'] = files ['-'] := by
  induction l generalizing files with
  | nil => rfl
  | cons p l ih =>
    obtain ⟨path, text⟩ := p
    rw [clearOutputFiles, ih]
    by_cases h : path = ['-']
    · rw [if_pos h]
    · rw [if_neg h, if_neg (fun e => h e.symm)]

theorem clear_files (erase : Bool) (files : Files) (l : List (Str × Str)) (path : Str)
    (hp : path ≠ ['-']) :
    clearOutputFiles erase files l path =
      match lastText path l with
      | none => files path
      | some text => if erase then none else some text := by
  induction l generalizing files with
  | nil => rfl
  | cons p l ih =>
    obtain ⟨q, text⟩ := p
    rw [clearOutputFiles, ih]
    by_cases hq : q = path
    · subst hq
      rw [if_neg hp]
      unfold lastText
      simp only [decide_true, List.filter_cons_of_pos]
      rw [List.getLast?_cons]
      cases hl : (l.filter fun p => decide (p.1 = q)).getLast? with
      | none => simp
      | some r => simp
    · have : lastText path ((q, text) :: l) = lastText path l := by
        unfold lastText
        rw [List.filter_cons_of_neg (by simpa using hq)]
      rw [this]
      cases lastText path l with
      | some t => rfl
      | none =>
        by_cases h : q = ['-']
        · rw [if_pos h]
        · rw [if_neg h]
          dsimp only
          rw [if_neg (fun e => hq e.symm)]

theorem errorOccurred_iff (i : ToolInput) (h : Handled) :
    errorOccurred i h = true ↔ ErrorReported i h := by
  unfold errorOccurred ErrorReported hasErrors
  rw [Bool.or_eq_true, Bool.or_eq_true, Bool.or_eq_true, Bool.not_eq_true', List.isEmpty_eq_false_iff,
    List.any_eq_true, or_assoc, or_assoc]

/-! ### C50 -/

/-- C50: every run ends with a result, for a module name as in C52. -/
theorem C50_total (o : ToolOptions) (i : ToolInput) (files : Files) :
    ∃ name r, moduleNameFor o.moduleName i.mainFile = some name ∧ runTool o i files = some r := by
  have : ∃ name, moduleNameFor o.moduleName i.mainFile = some name := by
    unfold moduleNameFor
    split
    · obtain ⟨r, hr, _⟩ := C07_valid (pathStem i.mainFile)
      exact ⟨r, hr⟩
    · exact ⟨_, rfl⟩
  obtain ⟨name, hn⟩ := this
  exact ⟨name, _, hn, by unfold runTool; rw [hn]⟩

/-- C50: the exit status is zero iff errors are reported exactly if expected. -/
theorem C50_exit (o : ToolOptions) (i : ToolInput) (files : Files) (name : Str) (r : ToolResult)
    (hn : moduleNameFor o.moduleName i.mainFile = some name) (hr : runTool o i files = some r) :
    r.exitCode = 0 ↔
      (ErrorReported i (handleTranslationUnit i name o.outputFiles) ↔ o.expectFailure = true) := by
  unfold runTool at hr
  rw [hn] at hr
  simp only [Option.some.injEq] at hr
  subst hr
  dsimp only
  rw [← errorOccurred_iff]
  cases o.expectFailure <;> cases errorOccurred i (handleTranslationUnit i name o.outputFiles) <;> simp

/-- C50: what becomes of a file: it is unchanged if it is none of the outputs that have
been created, removed if an error was reported and it was not requested to keep it, and
otherwise has the contents written to it. -/
theorem C50_files_partial (o : ToolOptions) (i : ToolInput) (files : Files) (name : Str) (r : ToolResult)
    (hn : moduleNameFor o.moduleName i.mainFile = some name) (hr : runTool o i files = some r)
    (path : Str) (hp : path ≠ ['-']) :
    let h := handleTranslationUnit i name o.outputFiles
    (path ∉ h.outputs.map (·.1) → r.files path = files path) ∧
    (path ∈ h.outputs.map (·.1) → ErrorReported i h → o.keepOutputFiles = false → r.files path = none) ∧
    (path ∈ h.outputs.map (·.1) → ¬ ErrorReported i h ∨ o.keepOutputFiles = true →
      ∃ text, lastText path h.outputs = some text ∧ r.files path = some text) := by
  unfold runTool at hr
  rw [hn] at hr
  simp only [Option.some.injEq] at hr
  subst hr
  dsimp only
  generalize handleTranslationUnit i name o.outputFiles = h
  rw [clear_files _ _ _ _ hp]
  have hnone : path ∉ h.outputs.map (·.1) → lastText path h.outputs = none := by
    intro hm
    unfold lastText
    rw [List.filter_eq_nil_iff.2 fun p hp' => by
      simp only [decide_eq_true_eq]
      exact fun e => hm (List.mem_map.2 ⟨p, hp', e⟩)]
    rfl
  have hsome : path ∈ h.outputs.map (·.1) → ∃ text, lastText path h.outputs = some text := by
    intro hm
    obtain ⟨p, hp', he⟩ := List.mem_map.1 hm
    unfold lastText
    cases hl : (h.outputs.filter fun p => decide (p.1 = path)).getLast? with
    | some q => exact ⟨q.2, rfl⟩
    | none =>
      rw [List.getLast?_eq_none_iff, List.filter_eq_nil_iff] at hl
      exact absurd he (by simpa using hl p hp')
  refine ⟨fun hm => by rw [hnone hm], fun hm he hk => ?_, fun hm he => ?_⟩
  · obtain ⟨text, ht⟩ := hsome hm
    rw [ht]
    dsimp only
    rw [if_pos]
    unfold shouldEraseOutputFiles
    rw [hk, (errorOccurred_iff i _).2 he]
    rfl
  · obtain ⟨text, ht⟩ := hsome hm
    refine ⟨text, ht, ?_⟩
    rw [ht]
    dsimp only
    rw [if_neg]
    unfold shouldEraseOutputFiles
    rcases he with he | he
    · rw [← errorOccurred_iff, Bool.not_eq_true] at he
      simp [he]
    · simp [he]

/-- C50: all outputs that are created have been requested, or are printed if nothing was
requested. -/
theorem C50_requested (o : ToolOptions) (i : ToolInput) (name : Str) :
    let h := handleTranslationUnit i name o.outputFiles
    (∃ rest, o.outputFiles = h.outputs.map (·.1) ++ rest) ∧
    (o.outputs ≠ [] → o.outputFiles = o.outputs) ∧ (o.outputs = [] → o.outputFiles = [['-']]) := by
  intro h
  refine ⟨?_, fun ho => ?_, fun ho => ?_⟩
  · obtain ⟨h1, h2, rest, h3⟩ := createOutputFiles_ok i.creatable o.outputFiles
    have hall : h.outputs.map (·.1) = [] ∨ h.outputs.map (·.1) = (createOutputFiles i.creatable o.outputFiles).2 := by
      simp only [h]
      unfold handleTranslationUnit
      dsimp only
      split
      · exact .inl rfl
      · split
        · exact .inl rfl
        · split
          · right
            simp [List.map_map, Function.comp_def]
          · split
            · exact .inl rfl
            · right
              simp only [List.map_map, Function.comp_def]
              exact List.zipIdx_map_fst ..
    rcases hall with e | e
    · exact ⟨o.outputFiles, by rw [e]; rfl⟩
    · exact ⟨rest, by rw [e]; exact h3⟩
  · unfold ToolOptions.outputFiles
    cases ho' : o.outputs with
    | nil => exact absurd ho' ho
    | cons => rfl
  · unfold ToolOptions.outputFiles
    rw [ho]
    rfl

/-! ### C55 -/

theorem buildGraph_errors (w : World) (root : Tree) :
    (buildGraph w root).1 = none ↔ hasErrors (buildGraph w root).2.diags = true := by
  unfold buildGraph
  dsimp only
  split
  · simpa using ‹_›
  · split
    · simpa using ‹_›
    · simp [*]

theorem cycles_errors (w : World) (nodes : List Nat) (r : Nat → Bool) (l : Nat → Option Nat) :
    (reportExposeHereCycles w nodes r l).1 = hasErrors (reportExposeHereCycles w nodes r l).2 := by
  unfold reportExposeHereCycles
  dsimp only
  cases cycleAliases w nodes r l with
  | nil => rfl
  | cons a l => rfl

theorem unreachable_errors (w : World) (g : Graph) (l : List Nat) (r : Nat → Option Nat) :
    hasErrors (reportUnreachable w g l r) = false := by
  unfold reportUnreachable hasErrors
  rw [List.any_eq_false]
  intro d hd
  obtain ⟨a, _, rfl⟩ := List.mem_map.1 hd
  simp [Diag.isError, DiagKind.isError]

/-- The graph that is emitted satisfies what is assumed about it. -/
theorem emitInput (i : ToolInput) (ok : InputOK i) (g : Graph) (b : Building)
    (h : buildGraph i.world.toWorld i.tree = (some g, b)) (name : Str) :
    EmitInput i.world (analyze i.world.toWorld b.storage i.members name g).pruned i.pick
      (i.iterate (analyze i.world.toWorld b.storage i.members name g).pruned) where
  graph := C29_graphs _ _ _ _ _ (C23_graphs _ _ ok.unit g b h)
  bases := ok.bases
  picks := ok.picks
  perm := ok.iterate _

theorem header_eq (i : ToolInput) :
    fileHeader i.mainFile (handlePragmas i.pragmas).includes =
      (includeLines i).flatMap (· ++ ['\n']) ++ ['\n'] := by
  unfold fileHeader includeLines
  simp [List.flatMap_cons, List.flatMap_map]

/-- C55: if the annotations of the translation unit are in error nothing is created. -/
theorem C55_annotations (i : ToolInput) (name : Str) (outputs : List Str)
    (h : hasErrors (buildGraph i.world.toWorld i.tree).2.diags = true) :
    let r := handleTranslationUnit i name outputs
    r.outputs = [] ∧ ErrorReported i r ∧ r.diags = (buildGraph i.world.toWorld i.tree).2.diags := by
  have h' := (buildGraph_errors ..).2 h
  have e : handleTranslationUnit i name outputs = { diags := (buildGraph i.world.toWorld i.tree).2.diags } := by
    unfold handleTranslationUnit
    dsimp only
    rw [h']
  rw [e]
  refine ⟨rfl, .inr (.inr (.inl ?_)), rfl⟩
  unfold hasErrors at h
  rwa [List.any_eq_true] at h

/-- The stages after the graph has been built. -/
theorem handle_built (i : ToolInput) (ok : InputOK i) (name : Str) (outputs : List Str) (g : Graph)
    (b : Building) (h : buildGraph i.world.toWorld i.tree = (some g, b)) :
    let w := i.world.toWorld
    let r := handleTranslationUnit i name outputs
    let a := analyze w b.storage i.members name g
    ((∃ al x, ExposesHere w i.tree al x ∧ ¬ Reachable g x) ∧ r.outputs = [] ∧ hasErrors r.diags = true) ∨
    ((∀ al x, ExposesHere w i.tree al x → Reachable g x) ∧
      ∃ ds, hasErrors ds = false ∧ r =
        let c := createOutputFiles i.creatable outputs
        if !c.1 then { diags := ds, ioError := true, outputs := c.2.map (·, []) }
        else if c.2.isEmpty then { diags := ds }
        else
          let m := emitModule i.world b.storage a.pruned a.vis i.pick (i.iterate a.pruned) c.2.length name
          { diags := ds ++ m.diags
            outputs := c.2.zipIdx.map fun p =>
              (p.1, fileHeader i.mainFile (handlePragmas i.pragmas).includes ++ m.text i.world p.2) }) := by
  intro w r a
  have hcyc := C22_reported w i.tree ok.unit g b h (i.iterate g) (ok.iterate g)
  have hb : hasErrors b.diags = false := by
    rw [← Bool.not_eq_true]
    intro he
    have := (buildGraph_errors w i.tree).2 (by rw [h]; exact he)
    rw [h] at this
    cases this
  have hce := cycles_errors w (i.iterate g)
    (reachableDeclContexts (deriveEffectiveVisibility w b.storage g)) b.relocated
  have hr : r = handleTranslationUnit i name outputs := rfl
  unfold handleTranslationUnit at hr
  dsimp only at hr
  rw [h] at hr
  dsimp only at hr
  generalize hc : reportExposeHereCycles w (i.iterate g)
    (reachableDeclContexts (deriveEffectiveVisibility w b.storage g)) b.relocated = cycles at hcyc hce
  rw [show reportExposeHereCycles i.world.toWorld (i.iterate g)
    (reachableDeclContexts (deriveEffectiveVisibility i.world.toWorld b.storage g)) b.relocated = cycles from hc] at hr
  by_cases h1 : cycles.1 = true
  · rw [if_pos h1] at hr
    left
    rw [hr]
    refine ⟨?_, rfl, ?_⟩
    · rw [hce] at h1
      unfold hasErrors at h1
      obtain ⟨d, hd, _⟩ := List.any_eq_true.1 h1
      have hk : d.kind = .exposeHereCycle := by
        rw [← hc] at hd
        unfold reportExposeHereCycles at hd
        obtain ⟨a, _, rfl⟩ := List.mem_map.1 hd
        rfl
      obtain ⟨x, hx⟩ := (hcyc d.decl).1 ⟨d, hd, rfl, hk⟩
      exact ⟨_, x, hx⟩
    · dsimp only
      rw [hasErrors_append, ← hce, h1, Bool.or_true]
  · rw [if_neg h1] at hr
    right
    rw [Bool.not_eq_true] at h1
    rw [h1] at hce
    refine ⟨fun al x hx => ?_, b.diags ++ cycles.2 ++ reportUnreachable w a.pruned
      ((i.iterate g).filter a.contexts) b.relocated, ?_, hr⟩
    · false_or_by_contra
      rename_i hnr
      obtain ⟨d, hd, _, hk⟩ := (hcyc al).2 ⟨x, hx, hnr⟩
      unfold hasErrors at hce
      have := List.any_eq_false.1 hce.symm d hd
      simp [Diag.isError, hk, DiagKind.isError] at this
    · rw [hasErrors_append, hasErrors_append, hb, ← hce, unreachable_errors]
      rfl

/-- C55: nor if types are exposed in places that do not exist in the module. -/
theorem C55_cycles (i : ToolInput) (ok : InputOK i) (name : Str) (outputs : List Str) (g : Graph)
    (b : Building) (h : buildGraph i.world.toWorld i.tree = (some g, b))
    (hc : ∃ al x, ExposesHere i.world.toWorld i.tree al x ∧ ¬ Reachable g x) :
    let r := handleTranslationUnit i name outputs
    r.outputs = [] ∧ ErrorReported i r := by
  intro r
  rcases handle_built i ok name outputs g b h with ⟨_, h2, h3⟩ | ⟨h1, _⟩
  · refine ⟨h2, .inr (.inr (.inl ?_))⟩
    unfold hasErrors at h3
    rwa [List.any_eq_true] at h3
  · obtain ⟨al, x, hx, hn⟩ := hc
    exact absurd (h1 al x hx) hn

theorem success_sorted (i : ToolInput) (ok : InputOK i) (name : Str) (outputs : List Str)
    (ho : outputs ≠ []) (hok : ¬ ErrorReported i (handleTranslationUnit i name outputs)) :
    ∃ g b order, buildGraph i.world.toWorld i.tree = (some g, b) ∧
      let a := analyze i.world.toWorld b.storage i.members name g
      declContextsSortedByDependencies i.world.toWorld i.world.bases i.pick (i.iterate a.pruned) a.pruned
        (findEnclosingScopes i.world.toWorld b.storage a.pruned) = (order, none) ∧
      ValidOrder i.world.toWorld b.storage i.world.bases a.pruned order ∧
      (handleTranslationUnit i name outputs).outputs = outputs.zipIdx.map fun p =>
        (p.1, fileText i (fileLines i.world b.storage a.pruned a.vis name order outputs.length p.2)) := by
  have hno : hasErrors (handleTranslationUnit i name outputs).diags = false := by
    rw [← Bool.not_eq_true]
    intro h
    unfold hasErrors at h
    exact hok (.inr (.inr (.inl (List.any_eq_true.1 h))))
  have hio : (handleTranslationUnit i name outputs).ioError = false := by
    rw [← Bool.not_eq_true]
    exact fun h => hok (.inr (.inr (.inr h)))
  cases hg : (buildGraph i.world.toWorld i.tree).1 with
  | none =>
    have := (C55_annotations i name outputs ((buildGraph_errors ..).1 hg)).2.1
    exact absurd this hok
  | some g =>
    obtain ⟨b, hb⟩ : ∃ b, buildGraph i.world.toWorld i.tree = (some g, b) := ⟨_, by rw [← hg]⟩
    have hi := emitInput i ok g b hb name
    rcases handle_built i ok name outputs g b hb with ⟨_, _, h3⟩ | ⟨_, ds, hds, hr⟩
    · rw [hno] at h3; cases h3
    · obtain ⟨hc1, hc2, _⟩ := createOutputFiles_ok i.creatable outputs
      cases hcr : (createOutputFiles i.creatable outputs).1 with
      | false =>
        rw [hr] at hio
        simp only [hcr, Bool.not_false, if_true] at hio
        cases hio
      | true =>
        have hl := hc2 hcr
        have hne : outputs.isEmpty = false := by simpa using ho
        simp only [hcr, Bool.not_true, Bool.false_eq_true, if_false, hl, hne] at hr
        rcases C34_outcome i.world b.storage _ (analyze i.world.toWorld b.storage i.members name g).vis
            i.pick _ hi outputs.length name with ⟨_, order, hv, hs⟩ | ⟨_, c, he⟩
        · refine ⟨g, b, order, hb, hs, hv, ?_⟩
          rw [hr]
          dsimp only
          refine List.map_congr_left fun p hp => ?_
          congr 1
          unfold fileText ModuleOutput.text
          rw [stream_eq i.world ok.emit _ _ _ _ _ hi _ _ order hs, header_eq]
          rfl
        · rw [hr] at hno
          dsimp only at hno
          rw [he, hasErrors_append] at hno
          simp [hasErrors, Diag.isError, DiagKind.isError] at hno

/-- C55: if no stage reports an error everything has been written: every file starts with
the includes, the first one continues with the module definition, and each contains its
share of the functions, in an order in which scopes and bases come first. -/
theorem C55_success (i : ToolInput) (ok : InputOK i) (name : Str) (outputs : List Str)
    (ho : outputs ≠ []) (hok : ¬ ErrorReported i (handleTranslationUnit i name outputs)) :
    ∃ g b order, buildGraph i.world.toWorld i.tree = (some g, b) ∧
      let a := analyze i.world.toWorld b.storage i.members name g
      ValidOrder i.world.toWorld b.storage i.world.bases a.pruned order ∧
      (handleTranslationUnit i name outputs).outputs = outputs.zipIdx.map fun p =>
        (p.1, fileText i (fileLines i.world b.storage a.pruned a.vis name order outputs.length p.2)) := by
  obtain ⟨g, b, order, hb, _, hv, ho⟩ := success_sorted i ok name outputs ho hok
  exact ⟨g, b, order, hb, hv, ho⟩

/-- C55: a dependency cycle among the exposed contexts is an error, and the files contain
the includes only. -/
theorem C55_dependency_cycle (i : ToolInput) (ok : InputOK i) (name : Str) (outputs : List Str)
    (ho : outputs ≠ []) (g : Graph) (b : Building)
    (h : buildGraph i.world.toWorld i.tree = (some g, b))
    (hc : ∃ x, Steps (Depends i.world.toWorld b.storage i.world.bases
      (analyze i.world.toWorld b.storage i.members name g).pruned) x x) :
    let r := handleTranslationUnit i name outputs
    ErrorReported i r ∧ ∀ p ∈ r.outputs, p.2 = [] ∨ p.2 = fileText i [] := by
  have hi := emitInput i ok g b h name
  intro r
  rcases handle_built i ok name outputs g b h with ⟨_, h2, h3⟩ | ⟨_, ds, hds, hr⟩
  · refine ⟨.inr (.inr (.inl ?_)), ?_⟩
    · unfold hasErrors at h3
      rwa [List.any_eq_true] at h3
    · simp only [r]
      rw [h2]
      simp
  · obtain ⟨hc1, hc2, _⟩ := createOutputFiles_ok i.creatable outputs
    simp only [r]
    rw [hr]
    cases hcr : (createOutputFiles i.creatable outputs).1 with
    | false =>
      simp only [hcr, Bool.not_false, if_true, List.mem_map]
      refine ⟨.inr (.inr (.inr rfl)), ?_⟩
      rintro p ⟨q, _, rfl⟩
      exact .inl rfl
    | true =>
      have hl := hc2 hcr
      have hne : outputs.isEmpty = false := by simpa using ho
      simp only [hcr, Bool.not_true, Bool.false_eq_true, if_false, hl, hne]
      rcases C34_outcome i.world b.storage _ (analyze i.world.toWorld b.storage i.members name g).vis
          i.pick _ hi outputs.length name with ⟨hno, _⟩ | ⟨_, c, he⟩
      · exact absurd hc hno
      · rw [he]
        refine ⟨.inr (.inr (.inl ⟨_, List.mem_append_right _ (.head _), rfl⟩)), ?_⟩
        intro p hp
        obtain ⟨q, _, rfl⟩ := List.mem_map.1 hp
        right
        simp [fileText, header_eq, ModuleOutput.text, ModuleOutput.stream]

/-- C55: precisely when a run of the analysis reports an error. -/
theorem C55_errors_iff (i : ToolInput) (ok : InputOK i) (name : Str) (outputs : List Str)
    (ho : outputs ≠ []) :
    let r := handleTranslationUnit i name outputs
    let w := i.world.toWorld
    (¬ ErrorReported i r) ↔
      i.earlierErrors = false ∧ (handlePragmas i.pragmas).diags = [] ∧
      (∀ p ∈ outputs, i.creatable p = true) ∧
      ∃ g b, buildGraph w i.tree = (some g, b) ∧
        (∀ al x, ExposesHere w i.tree al x → Reachable g x) ∧
        let a := analyze w b.storage i.members name g
        (¬ ∃ x, Steps (Depends w b.storage i.world.bases a.pruned) x x) ∧
        hasErrors (emitModule i.world b.storage a.pruned a.vis i.pick (i.iterate a.pruned)
          outputs.length name).diags = false := by
  intro r w
  constructor
  · intro hok
    obtain ⟨g, b, order, hb, hv, _⟩ := C55_success i ok name outputs ho hok
    have hi := emitInput i ok g b hb name
    have h1 : i.earlierErrors = false := by
      rw [← Bool.not_eq_true]
      exact fun h => hok (.inl h)
    have h2 : (handlePragmas i.pragmas).diags = [] := by
      false_or_by_contra
      rename_i h
      exact hok (.inr (.inl h))
    have hcy : ∀ al x, ExposesHere w i.tree al x → Reachable g x := by
      intro al x hx
      false_or_by_contra
      rename_i hn
      exact hok (C55_cycles i ok name outputs g b hb ⟨al, x, hx, hn⟩).2
    rcases handle_built i ok name outputs g b hb with ⟨⟨al, x, hx, hn⟩, _⟩ | ⟨_, ds, hds, hr⟩
    · exact absurd (hcy al x hx) hn
    · obtain ⟨hc1, hc2, _⟩ := createOutputFiles_ok i.creatable outputs
      have hcr : (createOutputFiles i.creatable outputs).1 = true := by
        rw [← Bool.not_eq_false]
        intro hcr
        apply hok
        simp only [r]
        rw [hr]
        simp only [hcr, Bool.not_false, if_true]
        exact .inr (.inr (.inr rfl))
      refine ⟨h1, h2, hc1.1 hcr, g, b, hb, hcy, ?_, ?_⟩
      · exact fun hc => hok (C55_dependency_cycle i ok name outputs ho g b hb hc).1
      · rw [← Bool.not_eq_true]
        intro he
        apply hok
        have hl := hc2 hcr
        have hne : outputs.isEmpty = false := by simpa using ho
        simp only [hcr, Bool.not_true, Bool.false_eq_true, if_false, hl, hne] at hr
        simp only [r]
        rw [hr]
        refine .inr (.inr (.inl ?_))
        unfold hasErrors at he
        obtain ⟨d, hd, hde⟩ := List.any_eq_true.1 he
        exact ⟨d, List.mem_append_right _ hd, hde⟩
  · rintro ⟨h1, h2, h3, g, b, hb, hcy, hno, hem⟩
    rcases handle_built i ok name outputs g b hb with ⟨⟨al, x, hx, hn⟩, _⟩ | ⟨_, ds, hds, hr⟩
    · exact absurd (hcy al x hx) hn
    · obtain ⟨hc1, hc2, _⟩ := createOutputFiles_ok i.creatable outputs
      have hcr := hc1.2 h3
      have hl := hc2 hcr
      have hne : outputs.isEmpty = false := by simpa using ho
      simp only [hcr, Bool.not_true, Bool.false_eq_true, if_false, hl, hne] at hr
      simp only [r]
      rw [hr]
      rintro (h | h | ⟨d, hd, hde⟩ | h)
      · rw [h1] at h; cases h
      · exact h h2
      · unfold hasErrors at hds hem
        rcases List.mem_append.1 hd with hd | hd
        · exact List.any_eq_false.1 hds d hd hde
        · exact List.any_eq_false.1 hem d hd hde
      · cases h

theorem run_sorted (o : ToolOptions) (i : ToolInput) (ok : InputOK i) (files : Files) (r : ToolResult)
    (hr : runTool o i files = some r) (hx : o.expectFailure = false) (h0 : r.exitCode = 0)
    (hnd : o.outputFiles.Nodup) :
    ∃ name g b order, moduleNameFor o.moduleName i.mainFile = some name ∧
      buildGraph i.world.toWorld i.tree = (some g, b) ∧
      let a := analyze i.world.toWorld b.storage i.members name g
      let text := fun k => fileText i (fileLines i.world b.storage a.pruned a.vis name order
        o.outputFiles.length k)
      declContextsSortedByDependencies i.world.toWorld i.world.bases i.pick (i.iterate a.pruned) a.pruned
        (findEnclosingScopes i.world.toWorld b.storage a.pruned) = (order, none) ∧
      ValidOrder i.world.toWorld b.storage i.world.bases a.pruned order ∧
      (∀ k path, o.outputFiles[k]? = some path → path ≠ ['-'] → r.files path = some (text k)) ∧
      (∀ k, o.outputFiles[k]? = some ['-'] → r.printed = [text k]) ∧
      (∀ path, path ∉ o.outputFiles → r.files path = files path) := by
  obtain ⟨name, r', hn, hr'⟩ := C50_total o i files
  have hne : o.outputFiles ≠ [] := by
    unfold ToolOptions.outputFiles
    cases o.outputs <;> simp
  have hok : ¬ ErrorReported i (handleTranslationUnit i name o.outputFiles) := by
    rw [(C50_exit o i files name r hn hr).1 h0, hx]
    simp
  obtain ⟨g, b, order, hb, hs, hv, hout⟩ := success_sorted i ok name o.outputFiles hne hok
  refine ⟨name, g, b, order, hn, hb, hs, hv, ?_, ?_, ?_⟩
  · intro k path hk hp
    have hm : path ∈ o.outputFiles := List.mem_of_getElem? hk
    have hfst : (handleTranslationUnit i name o.outputFiles).outputs.map (·.1) = o.outputFiles := by
      rw [hout, List.map_map]
      exact List.zipIdx_map_fst ..
    obtain ⟨_, _, h3⟩ := C50_files_partial o i files name r hn hr path hp
    obtain ⟨text, ht, hf⟩ := h3 (by rw [hfst]; exact hm) (.inl hok)
    rw [hf]
    unfold lastText at ht
    cases hl : ((handleTranslationUnit i name o.outputFiles).outputs.filter fun p => decide (p.1 = path)).getLast? with
    | none => rw [hl] at ht; cases ht
    | some q =>
      rw [hl] at ht
      simp only [Option.map_some, Option.some.injEq] at ht
      have hq := List.mem_of_getLast? hl
      rw [List.mem_filter, hout] at hq
      obtain ⟨hq1, hq2⟩ := hq
      obtain ⟨⟨path', k'⟩, hz, rfl⟩ := List.mem_map.1 hq1
      simp only [decide_eq_true_eq] at hq2
      subst hq2
      have hk' := List.mem_zipIdx_iff_getElem?.1 hz
      simp only at hk'
      have : k' = k := by
        have hlt := (List.getElem?_eq_some_iff.1 hk).1
        exact ((List.getElem?_inj hlt hnd).1 (hk.trans hk'.symm)).symm
      subst this
      rw [← ht]
  · intro k hk
    unfold runTool at hr
    rw [hn] at hr
    simp only [Option.some.injEq] at hr
    subst hr
    dsimp only
    rw [hout, List.filter_map, List.map_map]
    have key : ∀ (l : List Str) (k j : Nat), l.Nodup → l[k]? = some ['-'] →
        (l.zipIdx j).filter ((fun p : Str × Str => decide (p.1 = ['-'])) ∘ fun p : Str × Nat =>
          (p.1, fileText i (fileLines i.world b.storage
            (analyze i.world.toWorld b.storage i.members name g).pruned
            (analyze i.world.toWorld b.storage i.members name g).vis name order
            o.outputFiles.length p.2))) = [(['-'], j + k)] := by
      intro l
      induction l with
      | nil => intro k j _ h; simp at h
      | cons p l ih =>
        intro k j hnd h
        rw [List.nodup_cons] at hnd
        rw [List.zipIdx_cons]
        cases k with
        | zero =>
          simp only [List.getElem?_cons_zero, Option.some.injEq] at h
          subst h
          rw [List.filter_cons_of_pos (by simp), List.filter_eq_nil_iff.2]
          · rfl
          · rintro ⟨q, n⟩ hq
            have := List.fst_mem_of_mem_zipIdx hq
            simp only [Function.comp_apply, decide_eq_true_eq]
            rintro rfl
            exact hnd.1 this
        | succ k =>
          simp only [List.getElem?_cons_succ] at h
          have hp : p ≠ ['-'] := by
            rintro rfl
            exact hnd.1 (List.mem_of_getElem? h)
          rw [List.filter_cons_of_neg (by simpa using hp), ih k (j + 1) hnd.2 h]
          congr 2
          omega
    rw [key o.outputFiles k 0 hnd hk]
    simp
  · intro path hp
    have hfst : (handleTranslationUnit i name o.outputFiles).outputs.map (·.1) = o.outputFiles := by
      rw [hout, List.map_map]
      exact List.zipIdx_map_fst ..
    by_cases hd : path = ['-']
    · subst hd
      unfold runTool at hr
      rw [hn] at hr
      simp only [Option.some.injEq] at hr
      subst hr
      exact clear_stdout ..
    · exact (C50_files_partial o i files name r hn hr path hd).1 (by rw [hfst]; exact hp)

/-- C55 for whole runs: if the tool succeeds, each of the files contains what it is
expected to. -/
theorem C55_run (o : ToolOptions) (i : ToolInput) (ok : InputOK i) (files : Files) (r : ToolResult)
    (hr : runTool o i files = some r) (hx : o.expectFailure = false) (h0 : r.exitCode = 0)
    (hnd : o.outputFiles.Nodup) :
    ∃ name g b order, moduleNameFor o.moduleName i.mainFile = some name ∧
      buildGraph i.world.toWorld i.tree = (some g, b) ∧
      let a := analyze i.world.toWorld b.storage i.members name g
      let text := fun k => fileText i (fileLines i.world b.storage a.pruned a.vis name order
        o.outputFiles.length k)
      ValidOrder i.world.toWorld b.storage i.world.bases a.pruned order ∧
      (∀ k path, o.outputFiles[k]? = some path → path ≠ ['-'] → r.files path = some (text k)) ∧
      (∀ k, o.outputFiles[k]? = some ['-'] → r.printed = [text k]) ∧
      (∀ path, path ∉ o.outputFiles → r.files path = files path) := by
  obtain ⟨name, g, b, order, hn, hb, _, h⟩ := run_sorted o i ok files r hr hx h0 hnd
  exact ⟨name, g, b, order, hn, hb, h⟩

end Verif
