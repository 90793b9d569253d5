import Verif.Model.Options
import Verif.Model.Command
import Verif.Model.Printing
/-!
# The program as a whole (src/tool.cpp:440-518)

From the command line to the files: which compilation commands there are, what is executed
for them, and what is left afterwards.  `CommonOptionsParser`, `FixedCompilationDatabase` and
`ClangTool::run` of clang's tooling library are not part of the code base; they are modelled
as follows:
* the arguments after `--`, without input files, are the command for every file; if there is no
  `--`, a database is looked for in the directory given by `-p`, or else in the directories above
  the file; if none is found, files are compiled without arguments;
* `--extra-arg-before` and `--extra-arg` are inserted after the name of the compiler and at the
  end (in front of `--`), respectively;
* the commands for the file are executed one after another; the exit status is 1 if an error has
  been reported for one of them, 2 if there is none, and 0 otherwise.

For the output for debugging see Model/Debug.lean.
-/
namespace Verif

/-- `clang::tooling::CompileCommand`. -/
structure CompileCommand where
  directory : Str := []
  filename : Str
  commandLine : List Str
  heuristic : Str := []
  deriving DecidableEq, Repr

/-- `CompilationDatabase::getCompileCommands`. -/
abbrev Database := Str → List CompileCommand

/-- What is given by the environment. -/
structure Host where
  /-- the name of the compiler if there is no database -/
  program : Str
  /-- the arguments after `--` without input files (if they can be read at all) -/
  strip : List Str → Option (List Str)
  /-- the database in a directory -/
  inDirectory : Str → Option Database
  /-- the database in one of the directories above a file -/
  forSource : Str → Option Database
  /-- `getAbsolutePath` -/
  absolute : Str → Str
  /-- the result of `findResourceDir` -/
  resourceDir : Str
  /-- the translation unit that results from executing a command -/
  compile : CompileCommand → ToolInput

/-- `FixedCompilationDatabase` (see above). -/
def fixedDatabase (program : Str) (args : List Str) : Database := fun path =>
  [{ directory := t%".", filename := path, commandLine := program :: args ++ [path] }]

/-- The database chosen by `CommonOptionsParser::create`, src/tool.cpp:455-462. -/
def chooseDatabase (h : Host) (c : CommandLine) : Database :=
  match c.command.bind h.strip with
  | some args => fixedDatabase h.program args
  | none =>
    match if c.buildPath.isEmpty then h.forSource c.source else h.inDirectory c.buildPath with
    | some db => db
    | none => fixedDatabase h.program []

/-- `getInsertArgumentAdjuster(args, BEGIN)`; `none` is undefined behaviour. -/
def insertBegin (extra : List Str) : List Str → Option (List Str)
  | [] => none
  | program :: l => some (program :: extra ++ l)

/-- `getInsertArgumentAdjuster(args, END)`. -/
def insertEnd (extra : List Str) (args : List Str) : List Str :=
  let r := splitPositional args
  r.1 ++ extra ++ r.2

/-- The commands of `options_parser.getCompilations()`, src/tool.cpp:470. -/
def compileCommands (h : Host) (c : CommandLine) : Option (List CompileCommand) :=
  (chooseDatabase h c (h.absolute c.source)).mapM fun cmd =>
    (insertBegin c.extraArgsBefore cmd.commandLine).map fun l =>
      { cmd with commandLine := insertEnd c.extraArgs l }

/-- `emitQuotedArguments`, src/tool.cpp:158-175. -/
def emitQuotedArguments : List Str → Str
  | [] => []
  | [a] => if a.contains ' ' then '"' :: (writeEscaped a ++ ['"']) else a
  | a :: b :: l =>
    (if a.contains ' ' then '"' :: (writeEscaped a ++ ['"']) else a) ++ ' ' :: emitQuotedArguments (b :: l)

/-- The output of `--verbose` for the commands that have been found, src/tool.cpp:476-490. -/
def announceCommand (cmd : CompileCommand) : Str :=
  t%"Analyzing file " ++ cmd.filename ++ t%" from within directory " ++ cmd.directory ++
  t%" using command " ++ cmd.heuristic ++ t%"\n  " ++ emitQuotedArguments cmd.commandLine ++ t%"\n"

/-- The output of `--verbose` for the commands that are executed, src/tool.cpp:502-512. -/
def announceExecuted (cmd : CompileCommand) : Str :=
  t%"Adjusting command for file " ++ cmd.filename ++ t%" to\n  " ++
  emitQuotedArguments cmd.commandLine ++ t%"\n"

/-- The state kept between translation units: the value of `--module-name` is replaced
(src/tool.cpp:205-209). -/
structure RunState where
  moduleName : Str
  failed : Bool := false
  files : Files
  printed : List Str := []
  diags : List Diag := []

/-- `GenpybindAction` for one translation unit, src/tool.cpp:193-322. -/
def runUnit (o : ToolOptions) (st : RunState) (i : ToolInput) : Option RunState :=
  match moduleNameFor st.moduleName i.mainFile with
  | none => none
  | some name =>
    let h := handleTranslationUnit i name o.outputFiles
    some {
      moduleName := name
      failed := st.failed || errorOccurred i h
      files := clearOutputFiles (shouldEraseOutputFiles o i h) st.files h.outputs
      printed := st.printed ++ (h.outputs.filter fun p => p.1 = ['-']).map (·.2)
      diags := st.diags ++ h.diags }

/-- The loop over the commands in `ClangTool::run`. -/
def runUnits (o : ToolOptions) : RunState → List ToolInput → Option RunState
  | st, [] => some st
  | st, i :: l =>
    match runUnit o st i with
    | none => none
    | some st => runUnits o st l

/-- `ClangTool::run` and the end of `main`, src/tool.cpp:514-517. -/
def runTools (o : ToolOptions) (units : List ToolInput) (files : Files) : Option ToolResult :=
  match runUnits o { moduleName := o.moduleName, files } units with
  | none => none
  | some st =>
    let exitCode := if st.failed then 1 else if units.isEmpty then 2 else 0
    some {
      exitCode := if o.expectFailure then (if exitCode = 0 then 1 else 0) else exitCode
      files := st.files
      printed := st.printed
      diags := st.diags }

/-- What is left of a run of the program. -/
structure ProgramResult where
  result : ToolResult
  /-- the output of `--verbose` -/
  messages : Str := []

/-- `main`, src/tool.cpp:440-518.  `none` is a fault. -/
def runProgram (h : Host) (args : List Str) (files : Files) : Option ProgramResult :=
  match parseCommandLine args with
  | none => some { result := { exitCode := 1, files, printed := [], diags := [] } }
  | some c =>
    match compileCommands h c with
    | none => none
    | some cmds =>
      match cmds.mapM fun cmd => (adjustCommand h.resourceDir cmd.commandLine).map fun l =>
          { cmd with commandLine := l } with
      | none => none
      | some executed =>
        (runTools c.options (executed.map h.compile) files).map fun result => {
          result
          messages := if c.verbose then
            cmds.flatMap announceCommand ++ executed.flatMap announceExecuted else [] }

end Verif
