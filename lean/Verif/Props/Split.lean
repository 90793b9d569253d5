import Verif.Spec.Split
import Verif.Props.Run
/-!
# C81: the number of output files is of no relevance
-/
namespace Verif
open Spec

/-- Elements listed by key are the original list, if that is sorted by key. -/
theorem flatMap_by_key {α : Type} (key : α → Nat) : ∀ (n : Nat) (l : List α),
    l.Pairwise (fun a b => key a ≤ key b) → (∀ a ∈ l, key a < n) →
    (List.range n).flatMap (fun k => l.filter fun a => key a = k) = l := by
  intro n
  induction n with
  | zero =>
    intro l _ h
    cases l with
    | nil => rfl
    | cons a l => exact absurd (h a List.mem_cons_self) (Nat.not_lt_zero _)
  | succ n ih =>
    intro l hp h
    have hsplit : l.filter (fun a => key a < n) ++ l.filter (fun a => key a = n) = l := by
      clear ih
      induction l with
      | nil => rfl
      | cons a l ihl =>
        have hp' := List.pairwise_cons.1 hp
        have e := ihl hp'.2 fun b hb => h b (List.mem_cons_of_mem _ hb)
        by_cases ha : key a < n
        · rw [List.filter_cons_of_pos (by simpa using ha),
            List.filter_cons_of_neg (by simp only [decide_eq_true_eq]; omega), List.cons_append, e]
        · have ha' : key a = n := by
            have := h a List.mem_cons_self
            omega
          have hnone : l.filter (fun a => key a < n) = [] := by
            rw [List.filter_eq_nil_iff]
            intro b hb
            have := hp'.1 b hb
            simp only [decide_eq_true_eq]
            omega
          rw [List.filter_cons_of_neg (by simpa using ha), List.filter_cons_of_pos (by simpa using ha'),
            hnone, List.nil_append]
          rw [hnone, List.nil_append] at e
          rw [e]
    have hlow := ih (l.filter fun a => key a < n) (hp.sublist List.filter_sublist)
      (fun a ha => by simpa using (List.mem_filter.1 ha).2)
    rw [List.range_succ, List.flatMap_append, List.flatMap_cons, List.flatMap_nil, List.append_nil]
    refine Eq.trans ?_ hsplit
    congr 1
    refine Eq.trans ?_ hlow
    rw [List.flatMap_def, List.flatMap_def]
    congr 1
    refine List.map_congr_left fun k hk => ?_
    rw [List.filter_filter]
    refine List.filter_congr fun a _ => ?_
    have := List.mem_range.1 hk
    by_cases e : key a = k
    · have : key a < n := by omega
      simp [e]
      omega
    · simp [e]

/-- Numbers of files are ascending. -/
theorem zipIdx_ascending {α : Type} (l : List α) (n m : Nat) : ∀ s : Nat,
    (l.zipIdx s).Pairwise fun p q => p.2 * n / m ≤ q.2 * n / m := by
  induction l with
  | nil => intro s; exact .nil
  | cons a l ih =>
    intro s
    rw [List.zipIdx_cons]
    refine List.pairwise_cons.2 ⟨fun q hq => ?_, ih (s + 1)⟩
    have := List.le_snd_of_mem_zipIdx hq
    exact Nat.div_le_div_right (Nat.mul_le_mul_right n (by simp only at this ⊢; omega))

/-- The functions of all files, one file after the other. -/
theorem definitions_by_file (l : List (Nat × Str)) (c n : Nat) (hc : l.length = c) (hn : 0 < n) :
    (List.range n).flatMap (fun k => l.zipIdx.filter fun p => p.2 * n / c = k) = l.zipIdx := by
  refine flatMap_by_key (fun p : (Nat × Str) × Nat => p.2 * n / c) n _ (zipIdx_ascending l n c 0) ?_
  intro p hp
  have := List.snd_lt_of_mem_zipIdx hp
  exact (C35_files c n p.2 hn (by omega)).1

theorem zip_length (w : EmitWorld) (order : List Nat) :
    ((contextsOf w order).zip (identifiersOf w order)).length = (contextsOf w order).length := by
  rw [List.length_zip, identifiers_length, Nat.min_self]

/-- C81: the code that is generated, apart from repeated declarations, and the order it is
in, does not depend on the number of files. -/
theorem C81_code (w : EmitWorld) (ok : EmitOK w) (s : Storage) (g : Graph)
    (vis : Visibilities) (pick : Pick) (nodes : List Nat) (hi : EmitInput w g pick nodes)
    (m n : Nat) (hm : 0 < m) (hn : 0 < n) (name : Str) :
    codeOf (generatedFiles (emitModule w s g vis pick nodes m name) m) =
      codeOf (generatedFiles (emitModule w s g vis pick nodes n name) n) := by
  rcases C34_outcome w s g vis pick nodes hi m name with ⟨_, order, _, hr⟩ | ⟨hcyc, c, hc⟩
  · suffices h : ∀ k, 0 < k → codeOf (generatedFiles (emitModule w s g vis pick nodes k name) k) =
        (mainOf w s g name order).filter (fun l => !declaresOnly l) ++
        ((contextsOf w order).zip (identifiersOf w order)).zipIdx.flatMap fun p =>
          definitionOf w s g vis 0 p.1.1 p.1.2 by
      rw [h m hm, h n hn]
    intro k hk
    have hdef : ∀ j (p : (Nat × Str) × Nat), (definitionOf w s g vis j p.1.1 p.1.2).filter
        (fun l => !declaresOnly l) = definitionOf w s g vis 0 p.1.1 p.1.2 := by
      intro j p
      unfold definitionOf
      have hst : ∀ st : List Stmt, (st.map Line.stmt).filter (fun l => !declaresOnly l) = st.map Line.stmt := by
        intro st
        rw [List.filter_eq_self]
        intro x hx
        obtain ⟨_, _, rfl⟩ := List.mem_map.1 hx
        rfl
      rw [List.filter_append, List.filter_append, List.filter_append, hst]
      by_cases hj : j = 0
      · subst hj
        rfl
      · rw [if_pos hj]
        rfl
    have hst : ∀ j, ((emitModule w s g vis pick nodes k name).stream j).filter (fun l => !declaresOnly l) =
        (if j = 0 then (mainOf w s g name order).filter (fun l => !declaresOnly l) else []) ++
        (((contextsOf w order).zip (identifiersOf w order)).zipIdx.filter fun p =>
          p.2 * k / (contextsOf w order).length = j).flatMap fun p =>
            definitionOf w s g vis 0 p.1.1 p.1.2 := by
      intro j
      rw [stream_eq w ok s g vis pick nodes hi k name order hr, List.filter_append, filter_flatMap]
      congr 1
      · split <;> rfl
      · simp only [hdef]
    have hflat : codeOf (generatedFiles (emitModule w s g vis pick nodes k name) k) =
        (List.range k).flatMap fun j =>
          ((emitModule w s g vis pick nodes k name).stream j).filter (fun l => !declaresOnly l) := by
      unfold codeOf generatedFiles
      rw [← List.flatMap_def, filter_flatMap]
    rw [hflat]
    simp only [hst]
    have hall := congrArg (fun l => l.flatMap fun p : (Nat × Str) × Nat =>
      definitionOf w s g vis 0 p.1.1 p.1.2)
      (definitions_by_file _ (contextsOf w order).length k (zip_length w order) hk)
    rw [List.flatMap_assoc] at hall
    rw [← hall]
    obtain ⟨k, rfl⟩ : ∃ n, k = n + 1 := ⟨k - 1, by omega⟩
    rw [List.range_succ_eq_map]
    simp only [List.flatMap_cons, List.flatMap_map]
    simp
  · have hmt : ∀ k, codeOf (generatedFiles (emitModule w s g vis pick nodes k name) k) = [] := by
      intro k
      rcases C34_outcome w s g vis pick nodes hi k name with ⟨hno, _⟩ | ⟨_, c, hc⟩
      · exact absurd hcyc hno
      · rw [hc]
        unfold codeOf generatedFiles
        rw [List.filter_eq_nil_iff]
        intro x hx
        obtain ⟨l, hl, hx⟩ := List.mem_flatten.1 hx
        obtain ⟨j, _, rfl⟩ := List.mem_map.1 hl
        cases hx
    rw [hmt, hmt]

/-- Lines that do nothing can be left out at the end. -/
theorem lines_trailing (files : List (List Line)) (ds : List Line)
    (h : ∀ (st : Importing), ∀ x ∈ ds, st.line files x = .ok st) :
    ∀ (ls : List Line) (st : Importing), st.lines files (ls ++ ds) = st.lines files ls := by
  intro ls
  induction ls with
  | nil =>
    intro st
    induction ds with
    | nil => rfl
    | cons d ds ih =>
      have := ih fun st x hx => h st x (List.mem_cons_of_mem _ hx)
      simp only [List.nil_append, Importing.lines] at this ⊢
      rw [h st d List.mem_cons_self]
      exact this
  | cons l ls ih =>
    intro st
    simp only [List.cons_append, Importing.lines]
    cases st.line files l with
    | ok st => exact ih st
    | error e => rfl

/-- Only functions that are found matter. -/
theorem lines_linked (files files' : List (List Line)) (h : ∀ f, linked files f = linked files' f) :
    ∀ (ls : List Line) (st : Importing), st.lines files ls = st.lines files' ls := by
  intro ls
  induction ls with
  | nil => intro st; rfl
  | cons l ls ih =>
    intro st
    have hl : st.line files l = st.line files' l := by
      cases l <;> simp only [Importing.line, h]
    simp only [Importing.lines, hl]
    cases st.line files' l with
    | ok st => exact ih st
    | error e => rfl

/-- The functions found in all files. -/
theorem bodies_all (w : EmitWorld) (ok : EmitOK w) (s : Storage) (g : Graph)
    (vis : Visibilities) (pick : Pick) (nodes : List Nat) (hi : EmitInput w g pick nodes)
    (k : Nat) (hk : 0 < k) (name : Str) (order : List Nat)
    (hr : declContextsSortedByDependencies w.toWorld w.bases pick nodes g
      (findEnclosingScopes w.toWorld s g) = (order, none)) :
    (generatedFiles (emitModule w s g vis pick nodes k name) k).flatMap bodies =
      ((contextsOf w order).zip (identifiersOf w order)).zipIdx.map fun p =>
        (p.1.2, (exposeContext w vis s (Exposer.create w s p.1.1) p.1.1).emitted.stmts) := by
  have hb : ∀ j, bodies ((emitModule w s g vis pick nodes k name).stream j) =
      (((contextsOf w order).zip (identifiersOf w order)).zipIdx.filter fun p =>
          p.2 * k / (contextsOf w order).length = j).map fun p =>
        (p.1.2, (exposeContext w vis s (Exposer.create w s p.1.1) p.1.1).emitted.stmts) := by
    intro j
    rw [stream_eq w ok s g vis pick nodes hi k name order hr j, bodies_append_skip, bodies_definitions]
    intro x hx
    split at hx
    · have := main_select w s g name order definedOf (fun _ _ => rfl) rfl (fun _ => rfl) rfl
      simp only [definedOf, filterMap_const, bind_const, List.append_nil] at this
      exact List.filterMap_eq_nil_iff.1 this x hx
    · cases hx
  unfold generatedFiles
  rw [List.flatMap_map]
  simp only [hb]
  rw [← definitions_by_file _ (contextsOf w order).length k (zip_length w order) hk, List.map_flatMap,
    definitions_by_file _ (contextsOf w order).length k (zip_length w order) hk]

/-- C81: importing the module does not depend on the number of files: the same objects are
created and the same statements are executed in the same order, or the same error is raised. -/
theorem C81_import (w : EmitWorld) (ok : EmitOK w) (s : Storage) (g : Graph)
    (vis : Visibilities) (pick : Pick) (nodes : List Nat) (hi : EmitInput w g pick nodes)
    (m n : Nat) (hm : 0 < m) (hn : 0 < n) (name : Str) :
    importModule (generatedFiles (emitModule w s g vis pick nodes m name) m) =
      importModule (generatedFiles (emitModule w s g vis pick nodes n name) n) := by
  rcases C34_outcome w s g vis pick nodes hi m name with ⟨_, order, _, hr⟩ | ⟨hcyc, c, hc⟩
  · have hfirst : ∀ k, 0 < k → importModule (generatedFiles (emitModule w s g vis pick nodes k name) k) =
        Importing.lines (generatedFiles (emitModule w s g vis pick nodes k name) k)
          { vars := [(t%"root", [])] } (mainOf w s g name order) := by
      intro k hk
      obtain ⟨k, rfl⟩ : ∃ n, k = n + 1 := ⟨k - 1, by omega⟩
      have hd : (generatedFiles (emitModule w s g vis pick nodes (k + 1) name) (k + 1)).headD [] =
          (emitModule w s g vis pick nodes (k + 1) name).stream 0 := by
        unfold generatedFiles
        rw [List.range_succ_eq_map]
        rfl
      unfold importModule
      rw [hd, stream_eq w ok s g vis pick nodes hi (k + 1) name order hr, if_pos rfl]
      exact lines_trailing _ _ (fun st => skip_definitions _ w s g vis 0 _ st) _ _
    rw [hfirst m hm, hfirst n hn]
    refine lines_linked _ _ (fun f => ?_) _ _
    unfold linked
    rw [bodies_all w ok s g vis pick nodes hi m hm name order hr,
      bodies_all w ok s g vis pick nodes hi n hn name order hr]
  · have hmt : ∀ k, importModule (generatedFiles (emitModule w s g vis pick nodes k name) k) =
        .ok { vars := [(t%"root", [])] } := by
      intro k
      rcases C34_outcome w s g vis pick nodes hi k name with ⟨hno, _⟩ | ⟨_, c, hc⟩
      · exact absurd hcyc hno
      · rw [hc]
        unfold importModule generatedFiles
        cases k with
        | zero => rfl
        | succ k => rw [List.range_succ_eq_map]; rfl
    rw [hmt, hmt]

/-- Messages and annotations do not depend on the number of files. -/
theorem defineItems_streams (w : EmitWorld) (g : Graph) (vis : Visibilities) (m n count : Nat) :
    ∀ (items : List WorklistItem) (d d' : Defining) (index : Nat),
      d.storage = d'.storage → d.diags = d'.diags →
      (defineItems w g vis m count d index items).storage = (defineItems w g vis n count d' index items).storage ∧
      (defineItems w g vis m count d index items).diags = (defineItems w g vis n count d' index items).diags := by
  intro items
  induction items with
  | nil => intro d d' _ h1 h2; exact ⟨h1, h2⟩
  | cons x items ih =>
    intro d d' index h1 h2
    refine ih _ _ _ ?_ ?_
    · unfold defineItem
      dsimp only
      rw [h1]
    · unfold defineItem
      dsimp only
      rw [h1, h2]

/-- C81: messages do not depend on the number of files. -/
theorem C81_messages (w : EmitWorld) (s : Storage) (g : Graph) (vis : Visibilities) (pick : Pick)
    (nodes : List Nat) (m n : Nat) (name : Str) :
    (emitModule w s g vis pick nodes m name).diags = (emitModule w s g vis pick nodes n name).diags := by
  unfold emitModule
  dsimp only
  split
  · rfl
  · exact (defineItems_streams w g vis m n _ _ _ _ _ rfl rfl).2

/-- The messages if all files can be created. -/
theorem handled_created (i : ToolInput) (name : Str) (l l' : List Str) (hne : l ≠ []) (hne' : l' ≠ [])
    (hc : ∀ p ∈ l, i.creatable p = true) (hc' : ∀ p ∈ l', i.creatable p = true) :
    (handleTranslationUnit i name l).diags = (handleTranslationUnit i name l').diags ∧
    (handleTranslationUnit i name l).ioError = (handleTranslationUnit i name l').ioError := by
  have h1 := (createOutputFiles_ok i.creatable l).1.2 hc
  have h2 := (createOutputFiles_ok i.creatable l).2.1 h1
  have h1' := (createOutputFiles_ok i.creatable l').1.2 hc'
  have h2' := (createOutputFiles_ok i.creatable l').2.1 h1'
  unfold handleTranslationUnit
  dsimp only
  split
  · exact ⟨rfl, rfl⟩
  · split
    · exact ⟨rfl, rfl⟩
    · rw [h1, h1', h2, h2']
      have e : l.isEmpty = false := by cases l <;> simp_all
      have e' : l'.isEmpty = false := by cases l' <;> simp_all
      rw [e, e']
      simp only [Bool.not_true, Bool.false_eq_true, if_false, and_true]
      rw [C81_messages _ _ _ _ _ _ l.length l'.length]

/-- C81: two runs of the tool that differ in the requested output files only, all of which
can be created, and none of which is requested twice: the exit code and messages are the
same.  On success, the code in the files is the same, and modules that result from
compiling them behave the same when they are imported. -/
theorem C81_run (o o' : ToolOptions) (i : ToolInput) (ok : InputOK i) (files files' : Files)
    (r r' : ToolResult) (hr : runTool o i files = some r) (hr' : runTool o' i files' = some r')
    (hname : o.moduleName = o'.moduleName) (hx : o.expectFailure = o'.expectFailure)
    (hnd : o.outputFiles.Nodup) (hnd' : o'.outputFiles.Nodup)
    (hc : ∀ p ∈ o.outputFiles, i.creatable p = true) (hc' : ∀ p ∈ o'.outputFiles, i.creatable p = true) :
    r.exitCode = r'.exitCode ∧ r.diags = r'.diags ∧
    (o.expectFailure = false → r.exitCode = 0 → ∃ lines lines' : List (List Line),
      lines.length = o.outputFiles.length ∧ lines'.length = o'.outputFiles.length ∧
      (∀ (k : Nat) path ls, o.outputFiles[k]? = some path → lines[k]? = some ls →
        (path ≠ ['-'] → r.files path = some (fileText i ls)) ∧
        (path = ['-'] → r.printed = [fileText i ls])) ∧
      (∀ (k : Nat) path ls, o'.outputFiles[k]? = some path → lines'[k]? = some ls →
        (path ≠ ['-'] → r'.files path = some (fileText i ls)) ∧
        (path = ['-'] → r'.printed = [fileText i ls])) ∧
      codeOf lines = codeOf lines' ∧ importModule lines = importModule lines') := by
  have hpos : ∀ o : ToolOptions, o.outputFiles ≠ [] := by
    intro o
    unfold ToolOptions.outputFiles
    cases o.outputs <;> simp
  have hpos' : ∀ o : ToolOptions, 0 < o.outputFiles.length :=
    fun o => List.length_pos_iff.2 (hpos o)
  obtain ⟨name, _, hn, _⟩ := C50_total o i files
  have hn' : moduleNameFor o'.moduleName i.mainFile = some name := by rw [← hname]; exact hn
  obtain ⟨hd, hio⟩ := handled_created i name o.outputFiles o'.outputFiles (hpos o) (hpos o') hc hc'
  have hexit : r.exitCode = r'.exitCode ∧ r.diags = r'.diags := by
    unfold runTool at hr hr'
    rw [hn] at hr
    rw [hn'] at hr'
    simp only [Option.some.injEq] at hr hr'
    rw [← hr, ← hr']
    constructor
    · have he : errorOccurred i (handleTranslationUnit i name o.outputFiles) =
          errorOccurred i (handleTranslationUnit i name o'.outputFiles) := by
        unfold errorOccurred
        rw [hd, hio]
      dsimp only
      rw [he, hx]
    · exact hd
  refine ⟨hexit.1, hexit.2, fun hx0 h0 => ?_⟩
  obtain ⟨name1, g, b, order, hn1, hb, hs, _, hf, hp, _⟩ := run_sorted o i ok files r hr hx0 h0 hnd
  obtain ⟨name2, g', b', order', hn2, hb', hs', _, hf', hp', _⟩ :=
    run_sorted o' i ok files' r' hr' (hx ▸ hx0) (hexit.1 ▸ h0) hnd'
  rw [hn] at hn1
  cases hn1
  rw [hn'] at hn2
  cases hn2
  rw [hb] at hb'
  cases hb'
  dsimp only at hs hs' hf hf' hp hp'
  rw [hs] at hs'
  cases hs'
  have hi := emitInput i ok g b hb name
  let a := analyze i.world.toWorld b.storage i.members name g
  have hgen : ∀ n, generatedFiles (emitModule i.world b.storage a.pruned a.vis i.pick
      (i.iterate a.pruned) n name) n =
      (List.range n).map fun k => fileLines i.world b.storage a.pruned a.vis name order n k := by
    intro n
    unfold generatedFiles
    refine List.map_congr_left fun k _ => ?_
    rw [stream_eq i.world ok.emit b.storage a.pruned a.vis i.pick _ hi _ name order hs]
    rfl
  have hget : ∀ (n k : Nat) ls, ((List.range n).map fun k =>
      fileLines i.world b.storage a.pruned a.vis name order n k)[k]? = some ls →
      ls = fileLines i.world b.storage a.pruned a.vis name order n k := by
    intro n k ls hl
    rw [List.getElem?_map, Option.map_eq_some_iff] at hl
    obtain ⟨k', hk', rfl⟩ := hl
    rw [List.getElem?_eq_some_iff] at hk'
    obtain ⟨_, hk'⟩ := hk'
    rw [List.getElem_range] at hk'
    rw [hk']
  refine ⟨_, _, ?_, ?_, ?_, ?_,
    C81_code i.world ok.emit b.storage a.pruned a.vis i.pick _ hi o.outputFiles.length
      o'.outputFiles.length (hpos' o) (hpos' o') name,
    C81_import i.world ok.emit b.storage a.pruned a.vis i.pick _ hi o.outputFiles.length
      o'.outputFiles.length (hpos' o) (hpos' o') name⟩
  · simp [generatedFiles]
  · simp [generatedFiles]
  · intro k path ls hk hl
    rw [hgen] at hl
    rw [hget _ _ _ hl]
    exact ⟨fun h => hf k path hk h, fun h => hp k (h ▸ hk)⟩
  · intro k path ls hk hl
    rw [hgen] at hl
    rw [hget _ _ _ hl]
    exact ⟨fun h => hf' k path hk h, fun h => hp' k (h ▸ hk)⟩

/-- A single file instead of two. -/
def exSingleFile : ToolOptions := { outputs := [t%"/all"] }

/-- C81: both runs succeed. -/
example : ∃ r r', runTool exOptions exInput (fun _ => none) = some r ∧
    runTool exSingleFile exInput (fun _ => none) = some r' ∧
    InputOK exInput ∧ exOptions.moduleName = exSingleFile.moduleName ∧
    exOptions.expectFailure = false ∧ exSingleFile.expectFailure = false ∧
    exOptions.outputFiles.Nodup ∧ exSingleFile.outputFiles.Nodup ∧
    (∀ p ∈ exOptions.outputFiles, exInput.creatable p = true) ∧
    (∀ p ∈ exSingleFile.outputFiles, exInput.creatable p = true) ∧ r.exitCode = 0 := by
  obtain ⟨r, hr, h1, h2, h3⟩ := exInput_run
  obtain ⟨_, r', _, hr'⟩ := C50_total exSingleFile exInput fun _ => none
  exact ⟨r, r', hr, hr', exInput_ok, rfl, h1, rfl, h3, by decide, fun _ _ => rfl, fun _ _ => rfl, h2⟩

end Verif
