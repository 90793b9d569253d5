import Verif.Model.Module
import Verif.Model.Path
import Verif.Model.Pragmas
/-!
# A run of the tool (src/tool.cpp:178-308 and :440-518)

What clang and LLVM contribute is part of the input: the translation unit, whether
errors have been reported before the analysis starts, and whether an output file can
be created.  Their contract is modelled as follows:
* `CompilerInstance::createOutputFile` (with a temporary file) either registers a new
  output or reports an error and returns null;
* at the end of the source file `clearOutputFiles(shouldEraseOutputFiles())` is called,
  which either removes all registered outputs, or moves their contents in place in the
  order of registration; what has been written to `-` has been printed;
* `ClangTool::run` returns a value different from zero iff an error has been reported.

Not modelled here: output for debugging (see Model/Debug.lean), failure to rename temporary files, and a missing main file, for which
`HandleTranslationUnit` is not reached.  For the compilation database see Model/Main.lean.
-/
namespace Verif

/-- Options of the command line, src/tool.cpp:116-137 and :446-449. -/
structure ToolOptions where
  /-- `-o` -/
  outputs : List Str := []
  /-- `--module-name` -/
  moduleName : Str := []
  /-- `--keep-output-files` -/
  keepOutputFiles : Bool := false
  /-- `--xfail` -/
  expectFailure : Bool := false

/-- A translation unit as it is when `HandleTranslationUnit` is called, and the
unspecified choices of containers. -/
structure ToolInput where
  mainFile : Str
  world : EmitWorld
  tree : Tree
  /-- `isImplicit` -/
  isImplicit : Nat → Bool := fun _ => false
  /-- errors of the compiler and of the consumers that run before -/
  earlierErrors : Bool := false
  pragmas : List PragmaLine := []
  /-- whether `createOutputFile` succeeds -/
  creatable : Str → Bool := fun _ => true
  /-- the priority queue used for sorting -/
  pick : Pick
  /-- the order in which the nodes of a graph are iterated -/
  iterate : Graph → List Nat

/-- The non-inherited members of contexts, as found by
`collectVisibleDeclsFromDeclContext(sema, context)`. -/
def ToolInput.members (i : ToolInput) : Members where
  decls := fun x => collectVisibleDecls i.world.toWorld i.world.hasLocation none (i.world.found x)
  isImplicit := i.isImplicit

/-- The lines at the start of every file, src/tool.cpp:261-274. -/
def fileHeader (mainFile : Str) (includes : List Str) : Str :=
  t%"#include \"" ++ mainFile ++ t%"\"\n" ++ t%"#include <genpybind/binding-helpers.h>\n" ++
  t%"#include <pybind11/pybind11.h>\n" ++
  includes.flatMap (fun i => t%"#include " ++ i ++ t%"\n") ++ t%"\n"

/-- The loop that creates the output files, src/tool.cpp:242-254: whether all could be
created, and the ones that have been. -/
def createOutputFiles (creatable : Str → Bool) : List Str → Bool × List Str
  | [] => (true, [])
  | path :: paths =>
    if !creatable path then (false, [])
    else
      let r := createOutputFiles creatable paths
      (r.1, path :: r.2)

/-- The effects of `HandleTranslationUnit`. -/
structure Handled where
  diags : List Diag := []
  /-- an output file could not be created -/
  ioError : Bool := false
  /-- the registered output files and what has been written to them -/
  outputs : List (Str × Str) := []

/-- `GenpybindASTConsumer::HandleTranslationUnit`, src/tool.cpp:193-283, given the module
name (see `moduleNameFor`) and the output files. -/
def handleTranslationUnit (i : ToolInput) (name : Str) (outputs : List Str) : Handled :=
  let w := i.world.toWorld
  let r := buildGraph w i.tree
  let b := r.2
  match r.1 with
  | none => { diags := b.diags }
  | some g =>
    let vis := deriveEffectiveVisibility w b.storage g
    let cycles := reportExposeHereCycles w (i.iterate g) (reachableDeclContexts vis) b.relocated
    if cycles.1 then { diags := b.diags ++ cycles.2 }
    else
      let a := analyze w b.storage i.members name g
      let diags := b.diags ++ cycles.2 ++
        reportUnreachable w a.pruned ((i.iterate g).filter a.contexts) b.relocated
      let c := createOutputFiles i.creatable outputs
      if !c.1 then { diags, ioError := true, outputs := c.2.map (·, []) }
      else if c.2.isEmpty then { diags }
      else
        let header := fileHeader i.mainFile (handlePragmas i.pragmas).includes
        let m := emitModule i.world b.storage a.pruned a.vis i.pick (i.iterate a.pruned) c.2.length name
        { diags := diags ++ m.diags
          outputs := c.2.zipIdx.map fun p => (p.1, header ++ m.text i.world p.2) }

/-- The contents of files. -/
abbrev Files := Str → Option Str

/-- `Diagnostics.hasErrorOccurred()` at the end of the source file. -/
def errorOccurred (i : ToolInput) (h : Handled) : Bool :=
  i.earlierErrors || !(handlePragmas i.pragmas).diags.isEmpty || hasErrors h.diags || h.ioError

/-- `shouldEraseOutputFiles`, src/tool.cpp:303-306. -/
def shouldEraseOutputFiles (o : ToolOptions) (i : ToolInput) (h : Handled) : Bool :=
  !o.keepOutputFiles && errorOccurred i h

/-- `CompilerInstance::clearOutputFiles` (see above). -/
def clearOutputFiles (erase : Bool) (files : Files) : List (Str × Str) → Files
  | [] => files
  | (path, text) :: l =>
    clearOutputFiles erase
      (if path = ['-'] then files
       else fun p => if p = path then (if erase then none else some text) else files p) l

/-- What is left of a run. -/
structure ToolResult where
  exitCode : Nat
  files : Files
  /-- what each stream for `-` has printed -/
  printed : List Str
  diags : List Diag

/-- The list of output files, src/tool.cpp:467-468. -/
def ToolOptions.outputFiles (o : ToolOptions) : List Str :=
  if o.outputs.isEmpty then [['-']] else o.outputs

/-- `main`, src/tool.cpp:440-518, and `GenpybindAction`.  `none` is a fault. -/
def runTool (o : ToolOptions) (i : ToolInput) (files : Files) : Option ToolResult :=
  match moduleNameFor o.moduleName i.mainFile with
  | none => none
  | some name =>
    let h := handleTranslationUnit i name o.outputFiles
    let exitCode := if errorOccurred i h then 1 else 0
    some {
      exitCode := if o.expectFailure then (if exitCode = 0 then 1 else 0) else exitCode
      files := clearOutputFiles (shouldEraseOutputFiles o i h) files h.outputs
      printed := (h.outputs.filter fun p => p.1 = ['-']).map (·.2)
      diags := h.diags }

end Verif
