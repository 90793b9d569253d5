import Verif.Spec.Main
import Verif.Props.Command
import Verif.Props.ToolExamples
/-!
# The program as a whole (C86)
-/
namespace Verif
open Spec

/-! ### Several translation units -/

theorem name_kept (name f : Str) (h : name ≠ []) : moduleNameFor name f = some name := by
  unfold moduleNameFor
  rw [if_neg]
  cases name with
  | nil => exact absurd rfl h
  | cons a l => simp

/-- The files after a translation unit. -/
def filesAfter (o : ToolOptions) (name : Str) (files : Files) (i : ToolInput) : Files :=
  let h := handleTranslationUnit i name o.outputFiles
  clearOutputFiles (shouldEraseOutputFiles o i h) files h.outputs

/-- What is printed for a translation unit. -/
def printedFor (o : ToolOptions) (name : Str) (i : ToolInput) : List Str :=
  ((handleTranslationUnit i name o.outputFiles).outputs.filter fun p => p.1 = ['-']).map (·.2)

theorem runUnits_eq (o : ToolOptions) (name : Str) (hn : name ≠ []) : ∀ (l : List ToolInput) (st : RunState),
    st.moduleName = name → runUnits o st l = some {
      moduleName := name
      failed := st.failed || l.any fun i => errorOccurred i (handleTranslationUnit i name o.outputFiles)
      files := l.foldl (filesAfter o name) st.files
      printed := st.printed ++ l.flatMap (printedFor o name)
      diags := st.diags ++ l.flatMap fun i => (handleTranslationUnit i name o.outputFiles).diags }
  | [], st, h => by
    subst h
    simp [runUnits]
  | i :: l, st, h => by
    rw [runUnits, runUnit, h, name_kept name _ hn]
    dsimp only
    rw [runUnits_eq o name hn l _ rfl]
    simp [filesAfter, printedFor, Bool.or_assoc]

/-- What the program leaves for a list of translation units. -/
theorem runTools_eq (o : ToolOptions) (units : List ToolInput) (files : Files) (name : Str)
    (h : NameInUse o units name) :
    runTools o units files = some {
      exitCode :=
        let code := if units.any fun i => errorOccurred i (handleTranslationUnit i name o.outputFiles) then 1 else 0
        if o.expectFailure then (if code = 0 then 1 else 0) else code
      files := units.foldl (filesAfter o name) files
      printed := units.flatMap (printedFor o name)
      diags := units.flatMap fun i => (handleTranslationUnit i name o.outputFiles).diags } := by
  obtain ⟨hne, i, l, rfl, hi⟩ := h
  have e : runUnits o { moduleName := o.moduleName, files } (i :: l) =
      runUnits o { moduleName := name, files } (i :: l) := by
    rw [runUnits, runUnits, runUnit, runUnit, hi, name_kept name _ hne]
  unfold runTools
  rw [e, runUnits_eq o name hne _ _ rfl]
  simp

theorem name_exists (o : ToolOptions) (i : ToolInput) : ∃ name, moduleNameFor o.moduleName i.mainFile = some name := by
  obtain ⟨name, _, h, _⟩ := C50_total o i fun _ => none
  exact ⟨name, h⟩

theorem runUnits_total (o : ToolOptions) : ∀ (l : List ToolInput) (st : RunState), ∃ st', runUnits o st l = some st'
  | [], st => ⟨st, rfl⟩
  | i :: l, st => by
    obtain ⟨name, h⟩ := name_exists { o with moduleName := st.moduleName } i
    rw [runUnits, runUnit]
    dsimp only at h
    rw [h]
    exact runUnits_total o l _

/-- **C86.** There is a result for every number of compilation commands. -/
theorem C86_total (o : ToolOptions) (units : List ToolInput) (files : Files) :
    ∃ r, runTools o units files = some r := by
  obtain ⟨st, h⟩ := runUnits_total o units { moduleName := o.moduleName, files }
  exact ⟨_, by unfold runTools; rw [h]⟩

/-- **C86.** If there is exactly one compilation command, the properties of single runs apply. -/
theorem C86_single (o : ToolOptions) (i : ToolInput) (files : Files) :
    runTools o [i] files = runTool o i files := by
  obtain ⟨name, h⟩ := name_exists o i
  unfold runTools runTool
  rw [runUnits, runUnit, h]
  simp [runUnits]

/-- **C86.** The program succeeds iff there is a command and no errors are reported for any of
them; `--xfail` expects the opposite. -/
theorem C86_exit (o : ToolOptions) (units : List ToolInput) (files : Files) (r : ToolResult) (name : Str)
    (h : NameInUse o units name) (hr : runTools o units files = some r) :
    (r.exitCode = 0 ↔ ((∃ i ∈ units, UnitFails o name i) ↔ o.expectFailure = true)) ∧
    (o.expectFailure = false → (∃ i ∈ units, UnitFails o name i) → r.exitCode = 1) := by
  rw [runTools_eq o units files name h, Option.some.injEq] at hr
  subst hr
  dsimp only
  have key : (units.any fun i => errorOccurred i (handleTranslationUnit i name o.outputFiles)) = true ↔
      ∃ i ∈ units, UnitFails o name i := by
    rw [List.any_eq_true]
    simp only [errorOccurred_iff, UnitFails]
  rw [← key]
  cases (units.any fun i => errorOccurred i (handleTranslationUnit i name o.outputFiles)) <;>
    cases o.expectFailure <;> simp

/-- **C86.** If no command is found, nothing is changed and the program fails (with another exit
status). -/
theorem C86_not_found (o : ToolOptions) (files : Files) :
    ∃ r, runTools o [] files = some r ∧ r.files = files ∧ r.printed = [] ∧
      r.exitCode = if o.expectFailure then 0 else 2 := by
  refine ⟨_, rfl, rfl, rfl, ?_⟩
  cases o.expectFailure <;> rfl

theorem clear_printed (erase : Bool) : ∀ (l : List (Str × Str)) (files : Files),
    clearOutputFiles erase files l ['-'] = files ['-']
  | [], _ => rfl
  | (p, text) :: l, files => by
    rw [clearOutputFiles, clear_printed erase l]
    split
    · rfl
    · rename_i h
      exact if_neg fun e => h e.symm

/-- A translation unit without errors replaces all outputs and no other files. -/
theorem files_replaced (o : ToolOptions) (name : Str) (i : ToolInput) (ok : InputOK i)
    (h : ¬ UnitFails o name i) (f g : Files)
    (hfg : ∀ p, p ∉ o.outputFiles ∨ p = ['-'] → f p = g p) :
    filesAfter o name f i = filesAfter o name g i ∧
    ∀ p, p ∉ o.outputFiles ∨ p = ['-'] → filesAfter o name f i p = f p := by
  have hne : o.outputFiles ≠ [] := by
    unfold ToolOptions.outputFiles
    split
    · simp
    · rename_i h
      simpa using h
  obtain ⟨_, _, _, _, _, ho⟩ := C55_success i ok name o.outputFiles hne h
  have hpaths : (handleTranslationUnit i name o.outputFiles).outputs.map (·.1) = o.outputFiles := by
    rw [ho, List.map_map]
    exact List.zipIdx_map_fst 0 o.outputFiles
  have hl : ∀ p, p ∉ o.outputFiles → lastText p (handleTranslationUnit i name o.outputFiles).outputs = none := by
    intro p hp
    unfold lastText
    rw [List.filter_eq_nil_iff.2]
    · rfl
    · intro q hq hpq
      rw [decide_eq_true_eq] at hpq
      exact hp (hpaths ▸ List.mem_map.2 ⟨q, hq, hpq⟩)
  have hl' : ∀ p, p ∈ o.outputFiles →
      ∃ t, lastText p (handleTranslationUnit i name o.outputFiles).outputs = some t := by
    intro p hp
    rw [← hpaths] at hp
    obtain ⟨q, hq, hqp⟩ := List.mem_map.1 hp
    unfold lastText
    cases hx : ((handleTranslationUnit i name o.outputFiles).outputs.filter fun q => decide (q.1 = p)).getLast? with
    | some q => exact ⟨q.2, rfl⟩
    | none =>
      rw [List.getLast?_eq_none_iff, List.filter_eq_nil_iff] at hx
      exact absurd hqp (by simpa using hx q hq)
  refine ⟨?_, ?_⟩
  · funext p
    unfold filesAfter
    by_cases hp : p = ['-']
    · subst hp
      rw [clear_printed, clear_printed]
      exact hfg _ (.inr rfl)
    · rw [clear_files _ _ _ _ hp, clear_files _ _ _ _ hp]
      by_cases hm : p ∈ o.outputFiles
      · obtain ⟨t, ht⟩ := hl' p hm
        rw [ht]
      · rw [hl p hm]
        exact hfg p (.inl hm)
  · intro p hp
    unfold filesAfter
    by_cases hd : p = ['-']
    · subst hd
      rw [clear_printed]
    · rw [clear_files _ _ _ _ hd, hl p (hp.resolve_right hd)]

/-- **C86.** If the program succeeds, the files are those the last command on its own leads to (with
the module name used for all of them). -/
theorem C86_last (o : ToolOptions) (init : List ToolInput) (last : ToolInput) (files : Files)
    (r : ToolResult) (name : Str) (h : NameInUse o (init ++ [last]) name)
    (ok : ∀ i ∈ init ++ [last], InputOK i) (hr : runTools o (init ++ [last]) files = some r)
    (hx : o.expectFailure = false) (h0 : r.exitCode = 0) :
    ∃ r', runTool { o with moduleName := name } last files = some r' ∧ r'.exitCode = 0 ∧ r.files = r'.files := by
  have hnone : ∀ i ∈ init ++ [last], ¬ UnitFails o name i := by
    intro i hi hf
    have := ((C86_exit o _ files r name h hr).1.1 h0).1 ⟨i, hi, hf⟩
    rw [hx] at this
    cases this
  have hfiles : ∀ (l : List ToolInput) (f : Files), (∀ i ∈ l, InputOK i ∧ ¬ UnitFails o name i) →
      ∀ p, p ∉ o.outputFiles ∨ p = ['-'] → l.foldl (filesAfter o name) f p = f p := by
    intro l
    induction l with
    | nil => intros; rfl
    | cons i l ih =>
      intro f hl p hp
      obtain ⟨h1, h2⟩ := hl i List.mem_cons_self
      rw [List.foldl_cons, ih _ (fun j hj => hl j (List.mem_cons_of_mem _ hj)) p hp]
      exact (files_replaced o name i h1 h2 f f fun _ _ => rfl).2 p hp
  have hlast : last ∈ init ++ [last] := List.mem_append_right _ List.mem_cons_self
  have hnf := hnone last hlast
  rw [runTools_eq o _ files name h, Option.some.injEq] at hr
  have hm : moduleNameFor name last.mainFile = some name := name_kept name _ h.nonempty
  refine ⟨_, by unfold runTool; rw [hm], ?_, ?_⟩
  · dsimp only
    rw [hx]
    have he : errorOccurred last (handleTranslationUnit last name o.outputFiles) = false := by
      rw [← Bool.not_eq_true, errorOccurred_iff]
      exact hnf
    exact (if_neg (by simp)).trans (if_neg (by rw [Bool.not_eq_true]; exact he))
  · subst hr
    dsimp only
    rw [List.foldl_append]
    exact (files_replaced o name last (ok last hlast) hnf _ files
      (hfiles init files fun i hi => ⟨ok i (List.mem_append_left _ hi), hnone i (List.mem_append_left _ hi)⟩)).1

/-- **C86.** Files are replaced, but printed code is not: if `-` is an output, the code for every
command is printed. -/
theorem C86_printed (o : ToolOptions) (units : List ToolInput) (files : Files) (r : ToolResult)
    (name : Str) (h : NameInUse o units name) (ok : ∀ i ∈ units, InputOK i)
    (hr : runTools o units files = some r) (hx : o.expectFailure = false) (h0 : r.exitCode = 0) :
    r.printed.length = units.length * o.outputFiles.count ['-'] := by
  have hnone : ∀ i ∈ units, ¬ UnitFails o name i := by
    intro i hi hf
    have := ((C86_exit o _ files r name h hr).1.1 h0).1 ⟨i, hi, hf⟩
    rw [hx] at this
    cases this
  rw [runTools_eq o _ files name h, Option.some.injEq] at hr
  subst hr
  dsimp only
  have one : ∀ i ∈ units, (printedFor o name i).length = o.outputFiles.count ['-'] := by
    intro i hi
    have hne : o.outputFiles ≠ [] := by
      unfold ToolOptions.outputFiles
      split
      · simp
      · rename_i h
        simpa using h
    obtain ⟨_, _, _, _, _, ho⟩ := C55_success i (ok i hi) name o.outputFiles hne (hnone i hi)
    have hpaths : (handleTranslationUnit i name o.outputFiles).outputs.map (·.1) = o.outputFiles := by
      rw [ho, List.map_map]
      exact List.zipIdx_map_fst 0 o.outputFiles
    unfold printedFor
    generalize (handleTranslationUnit i name o.outputFiles).outputs = l at hpaths ⊢
    rw [List.length_map, ← hpaths, List.count_eq_countP, List.countP_map, List.countP_eq_length_filter]
    congr 1
    apply List.filter_congr
    intro q _
    exact Bool.eq_iff_iff.2 (by simp)
  clear h ok h0 hx hnone
  induction units with
  | nil => simp
  | cons i l ih =>
    rw [List.flatMap_cons, List.length_append, one i List.mem_cons_self,
      ih fun j hj => one j (List.mem_cons_of_mem _ hj), List.length_cons, Nat.succ_mul, Nat.add_comm]

/-- **C86** (what is missing for failures).  A later command with annotations that are in error
makes the program fail, but what has been written for the earlier ones is left. -/
theorem C86_left_over (o : ToolOptions) (init : List ToolInput) (bad : ToolInput) (files : Files)
    (name : Str) (h : NameInUse o init name)
    (he : hasErrors (buildGraph bad.world.toWorld bad.tree).2.diags = true) (hx : o.expectFailure = false) :
    ∃ r r', runTools o init files = some r ∧ runTools o (init ++ [bad]) files = some r' ∧
      r'.exitCode = 1 ∧ r'.files = r.files ∧ r'.printed = r.printed := by
  have h' : NameInUse o (init ++ [bad]) name := by
    obtain ⟨hne, i, l, rfl, hi⟩ := h
    exact ⟨hne, i, l ++ [bad], rfl, hi⟩
  obtain ⟨ho, hf, _⟩ := C55_annotations bad name o.outputFiles he
  refine ⟨_, _, runTools_eq o _ files name h, runTools_eq o _ files name h', ?_, ?_, ?_⟩
  · dsimp only
    rw [hx, if_neg (by simp), if_pos]
    rw [List.any_append, Bool.or_eq_true]
    refine .inr ?_
    simpa using (errorOccurred_iff ..).2 hf
  · dsimp only
    rw [List.foldl_append]
    simp [filesAfter, ho, clearOutputFiles]
  · dsimp only
    rw [List.flatMap_append]
    simp [printedFor, ho]

/-! ### The commands -/

theorem insert_end (extra pre rest : List Str) (h : t%"--" ∉ pre)
    (hr : rest = [] ∨ ∃ l, rest = t%"--" :: l) : insertEnd extra (pre ++ rest) = pre ++ extra ++ rest := by
  unfold insertEnd
  rw [split_positional pre rest h hr]

/-- **C86.** What is executed for a command of the database, if `--extra-arg-before` and
`--extra-arg` are used: as in C84 for the command with the former in front, and the latter
behind its arguments. -/
theorem C86_command (before after ps : List Part) (dir program : Str) (rest : List Str)
    (hp : OrdinaryWord program) (hps : ∀ p ∈ before ++ ps ++ after, p.OK) (hr : Spec.Files rest)
    (hs : t%"--" ∉ words (before ++ ps)) :
    ((insertBegin (words before) (program :: (words ps ++ rest))).bind fun l =>
        adjustCommand dir (insertEnd (words after) l)) =
      some (program :: (Spec.adjusted dir (before ++ ps ++ after) ++ rest)) := by
  have hr' : rest = [] ∨ ∃ l, rest = t%"--" :: l := by
    rcases hr with h | ⟨l, h, _⟩
    · exact .inl h
    · exact .inr ⟨l, h⟩
  have hm : t%"--" ∉ program :: words (before ++ ps) := by
    intro hm
    rcases List.mem_cons.1 hm with h | h
    · exact hp.others.1 h.symm
    · exact hs h
  have e : program :: words before ++ (words ps ++ rest) = (program :: words (before ++ ps)) ++ rest := by
    rw [words_append]
    simp
  rw [insertBegin, Option.bind_some, e, insert_end _ _ _ hm hr']
  have e' : program :: words (before ++ ps) ++ words after ++ rest =
      program :: (words (before ++ ps ++ after) ++ rest) := by
    rw [words_append (before ++ ps)]
    simp
  rw [e']
  exact C84_command dir program _ rest hp hps hr

/-- **C86.** The whole program, for a command line with arguments for the compiler after `--`: there
is one translation unit, compiled with these arguments. -/
theorem C86_program (h : Host) (args flags : List Str) (files : Files) (c : CommandLine)
    (before ps after : List Part)
    (hc : parseCommandLine args = some c) (hcmd : c.command = some flags)
    (hst : h.strip flags = some (words ps)) (hb : c.extraArgsBefore = words before)
    (ha : c.extraArgs = words after) (hp : OrdinaryWord h.program)
    (hps : ∀ p ∈ before ++ (ps ++ [.plain (h.absolute c.source)]) ++ after, p.OK)
    (hs : t%"--" ∉ words (before ++ (ps ++ [.plain (h.absolute c.source)]))) :
    (runProgram h args files).map (·.result) = runTool c.options (h.compile {
      directory := t%".", filename := h.absolute c.source
      commandLine := h.program ::
        Spec.adjusted h.resourceDir (before ++ (ps ++ [.plain (h.absolute c.source)]) ++ after) }) files := by
  have hdb : chooseDatabase h c (h.absolute c.source) =
      [{ directory := t%".", filename := h.absolute c.source,
         commandLine := h.program :: (words (ps ++ [.plain (h.absolute c.source)]) ++ []) }] := by
    unfold chooseDatabase
    rw [hcmd, Option.bind_some, hst]
    simp [fixedDatabase, words, Part.words]
  have key := C86_command before after (ps ++ [.plain (h.absolute c.source)]) h.resourceDir h.program []
    hp hps (.inl rfl) hs
  unfold runProgram compileCommands
  rw [hc]
  dsimp only
  rw [hdb, hb, ha]
  rw [insertBegin, Option.bind_some, List.append_nil, List.append_nil] at key
  simp only [List.mapM_cons, List.mapM_nil, insertBegin, Option.map_some, Option.bind_eq_bind,
    Option.bind_some, Option.pure_def, key, List.map_cons, List.map_nil, C86_single, List.append_nil]
  cases runTool c.options _ files <;> rfl

theorem chooses {h : Host} {c : CommandLine} {cmds : List CompileCommand} (hc : CommandsFor h c cmds) :
    chooseDatabase h c (h.absolute c.source) = cmds := by
  unfold chooseDatabase
  cases hc with
  | given flags args h1 h2 => simp [h1, h2, fixedDatabase]
  | directory db h1 h2 h3 => simp [h1, h2, h3]
  | found db h1 h2 h3 => simp [h1, h2, h3]
  | no_directory h1 h2 h3 => simp [h1, h2, h3, fixedDatabase]
  | nothing_found h1 h2 h3 => simp [h1, h2, h3, fixedDatabase]

/-- What `mapM` yields if the function always succeeds. -/
theorem mapM_all {α β : Type} (f : α → Option β) (g : α → β) (l : List α) (h : ∀ a ∈ l, f a = some (g a)) :
    l.mapM f = some (l.map g) := by
  induction l with
  | nil => rfl
  | cons a l ih =>
    rw [List.mapM_cons, h a (List.mem_cons_self ..), ih fun b hb => h b (List.mem_cons_of_mem _ hb)]
    rfl

/-- **C86.** The whole program, for any commands: those for the source file are executed one after
another, each with the changes of C84. -/
theorem C86_commands (h : Host) (args : List Str) (files : Files) (c : CommandLine)
    (before after : List Part) (ws : List WrittenCommand)
    (hc : parseCommandLine args = some c) (hb : c.extraArgsBefore = words before)
    (ha : c.extraArgs = words after) (hw : CommandsFor h c (ws.map (·.command)))
    (hok : ∀ w ∈ ws, w.OK before after) :
    (runProgram h args files).map (·.result) =
      runTools c.options (ws.map fun w => h.compile (w.executed h.resourceDir before after)) files := by
  have k1 : compileCommands h c = some (ws.map fun w =>
      { w.command with commandLine := insertEnd (words after) (w.program :: (words before ++ (words w.parts ++ w.rest))) }) := by
    unfold compileCommands
    rw [chooses hw, hb, ha, List.mapM_map]
    exact mapM_all _ _ _ fun w _ => rfl
  have k2 : ∀ w ∈ ws, adjustCommand h.resourceDir
      (insertEnd (words after) (w.program :: (words before ++ (words w.parts ++ w.rest)))) =
      some (w.executed h.resourceDir before after).commandLine := by
    intro w hm
    have ok := hok w hm
    exact C86_command before after w.parts h.resourceDir w.program w.rest ok.program ok.parts ok.rest ok.open_
  unfold runProgram
  rw [hc]
  dsimp only
  rw [k1]
  dsimp only
  rw [List.mapM_map, mapM_all _ (fun w => w.executed h.resourceDir before after) ws (fun w hm => by
    simp only [Function.comp_apply, k2 w hm]; rfl)]
  dsimp only
  rw [List.map_map]
  cases he : runTools c.options (ws.map fun w => h.compile (w.executed h.resourceDir before after)) files with
  | none => rw [show (h.compile ∘ fun w => w.executed h.resourceDir before after) = fun w : WrittenCommand => h.compile (w.executed h.resourceDir before after) from rfl, he]; rfl
  | some r => rw [show (h.compile ∘ fun w => w.executed h.resourceDir before after) = fun w : WrittenCommand => h.compile (w.executed h.resourceDir before after) from rfl, he]; rfl

/-- **C86.** There is always exactly one answer to the question which commands are used, if the
arguments after `--` can be read. -/
theorem C86_commands_unique (h : Host) (c : CommandLine) (hs : ∀ flags, c.command = some flags → (h.strip flags).isSome) :
    ∃ cmds, CommandsFor h c cmds ∧ ∀ cmds', CommandsFor h c cmds' → cmds' = cmds := by
  refine ⟨chooseDatabase h c (h.absolute c.source), ?_, fun cmds' h' => (chooses h').symm⟩
  unfold chooseDatabase
  cases hc : c.command with
  | some flags =>
    obtain ⟨a, ha⟩ := Option.isSome_iff_exists.1 (hs flags hc)
    rw [Option.bind_some, ha]
    exact .given flags a hc ha
  | none =>
    rw [Option.bind_none]
    dsimp only
    by_cases hb : c.buildPath = []
    · rw [if_pos (by rw [hb]; rfl)]
      cases hd : h.forSource c.source with
      | none => exact .nothing_found hc hb hd
      | some db => exact .found db hc hb hd
    · rw [if_neg (by simp [hb])]
      cases hd : h.inDirectory c.buildPath with
      | none => exact .no_directory hc hb hd
      | some db => exact .directory db hc hb hd

/-! ### Examples -/

theorem exInput_name : NameInUse exOptions [exInput] t%"my_lib" :=
  ⟨by simp, exInput, [], rfl, (makeValidIdentifier_eq _).trans (by decide +kernel)⟩

/-- Two commands for the same file: both succeed. -/
theorem exTwo_name : NameInUse exOptions ([exInput] ++ [exInput]) t%"my_lib" :=
  ⟨by simp, exInput, [exInput], rfl, (makeValidIdentifier_eq _).trans (by decide +kernel)⟩

example : ∃ r, runTools exOptions ([exInput] ++ [exInput]) (fun _ => none) = some r ∧ r.exitCode = 0 := by
  obtain ⟨r, hr⟩ := C86_total exOptions ([exInput] ++ [exInput]) fun _ => none
  refine ⟨r, hr, ?_⟩
  rw [(C86_exit _ _ _ r _ exTwo_name hr).1]
  constructor
  · rintro ⟨i, hi, hf⟩
    have : i = exInput := by
      rcases List.mem_append.1 hi with h | h <;> exact List.mem_singleton.1 h
    subst this
    exact absurd hf exInput_succeeds
  · intro h
    cases h

/-- The program fails, but there is code in the first file. -/
example : ∃ r, runTools exOptions ([exInput] ++ [exBad]) (fun _ => none) = some r ∧ r.exitCode = 1 ∧
    r.files t%"/a" ≠ none := by
  have he : hasErrors (buildGraph exBad.world.toWorld exBad.tree).2.diags = true := by decide +kernel
  obtain ⟨r, r', h1, h2, h3, h4, _⟩ := C86_left_over exOptions [exInput] exBad (fun _ => none) _ exInput_name he rfl
  refine ⟨r', h2, h3, ?_⟩
  rw [h4]
  have hm : moduleNameFor exOptions.moduleName exInput.mainFile = some t%"my_lib" :=
    (makeValidIdentifier_eq _).trans (by decide +kernel)
  rw [C86_single] at h1
  have hp : t%"/a" ∈ (handleTranslationUnit exInput t%"my_lib" exOptions.outputFiles).outputs.map (·.1) := by
    obtain ⟨_, _, _, _, _, ho⟩ := C55_success exInput exInput_ok t%"my_lib" exOptions.outputFiles (by decide)
      exInput_succeeds
    rw [ho, List.map_map]
    exact List.mem_map.2 ⟨(t%"/a", 0), by decide, rfl⟩
  obtain ⟨text, _, ht⟩ := (C50_files_partial exOptions exInput _ _ r hm h1 t%"/a" (by simp)).2.2 hp (.inl exInput_succeeds)
  rw [ht]
  simp

/-- `genpybind --extra-arg=-std=c++20 x.h -- -I.` -/
def exHost : Host where
  program := t%"/bin/clang-tool"
  strip := some
  inDirectory := fun _ => none
  forSource := fun _ => none
  absolute := fun p => t%"/src/" ++ p
  resourceDir := t%"/lib"
  compile := fun _ => exInput

def exProgram : List Str := [t%"--extra-arg=-std=c++20", t%"x.h", t%"--", t%"-I."]

example : ∃ c, parseCommandLine exProgram = some c ∧
    c.command = some [t%"-I."] ∧ exHost.strip [t%"-I."] = some (words [.plain t%"-I."]) ∧
    c.extraArgsBefore = words [] ∧ c.extraArgs = words [.standard t%"c" t%"20"] ∧
    OrdinaryWord exHost.program ∧
    (∀ p ∈ [] ++ ([.plain t%"-I."] ++ [.plain (exHost.absolute c.source)]) ++ [.standard t%"c" t%"20"],
      Part.OK p) ∧
    t%"--" ∉ words ([] ++ ([.plain t%"-I."] ++ [.plain (exHost.absolute c.source)])) ∧
    exHost.program :: Spec.adjusted exHost.resourceDir
      ([] ++ ([.plain t%"-I."] ++ [.plain (exHost.absolute c.source)]) ++ [.standard t%"c" t%"20"]) =
      [t%"/bin/clang-tool", t%"-xc++", t%"-I.", t%"/src/x.h", t%"-std=c++20", t%"-fsyntax-only",
       t%"-resource-dir=/lib", t%"-Wno-everything", t%"-D__GENPYBIND__"] := by
  refine ⟨_, rfl, rfl, rfl, rfl, rfl, by decide +kernel, ?_, by decide +kernel, by decide +kernel⟩
  intro p hp
  simp only [List.nil_append, List.cons_append, List.mem_cons, List.not_mem_nil, or_false] at hp
  rcases hp with rfl | rfl | rfl
  · exact ⟨by decide +kernel, by decide +kernel, by decide +kernel⟩
  · exact ⟨by decide +kernel, by decide +kernel, by decide +kernel⟩
  · exact .inl rfl

/-- `genpybind -p build x.h`, with a database that has two commands for the file. -/
def exWritten (flag : Str) : WrittenCommand where
  directory := t%"/build"
  filename := t%"/src/x.h"
  heuristic := []
  program := t%"c++"
  parts := [.plain flag, .outputTo t%"x.o", .plain t%"/src/x.h"]
  rest := []

example : let h := { exHost with inDirectory := fun _ => some fun _ => [(exWritten t%"-DA").command, (exWritten t%"-DB").command] }
    ∃ c, parseCommandLine [t%"-p", t%"build", t%"x.h"] = some c ∧ c.extraArgsBefore = words [] ∧ c.extraArgs = words [] ∧
      CommandsFor h c ([exWritten t%"-DA", exWritten t%"-DB"].map (·.command)) ∧
      ∀ w ∈ [exWritten t%"-DA", exWritten t%"-DB"], w.OK [] [] := by
  refine ⟨(parseCommandLine [t%"-p", t%"build", t%"x.h"]).get (by decide +kernel), by simp, by decide +kernel, by decide +kernel, ?_, ?_⟩
  · refine .directory (fun _ => [(exWritten t%"-DA").command, (exWritten t%"-DB").command]) ?_ ?_ rfl <;> decide +kernel
  intro w hw
  simp only [List.mem_cons, List.not_mem_nil, or_false] at hw
  rcases hw with rfl | rfl
  all_goals
    refine ⟨by decide +kernel, ?_, .inl rfl, by decide +kernel⟩
    intro p hp
    simp only [exWritten, List.nil_append, List.append_nil, List.mem_cons, List.not_mem_nil, or_false] at hp
    rcases hp with rfl | rfl | rfl
    · exact ⟨by decide +kernel, by decide +kernel, by decide +kernel⟩
    · trivial
    · exact ⟨by decide +kernel, by decide +kernel, by decide +kernel⟩

end Verif
