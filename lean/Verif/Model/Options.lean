import Verif.Model.Tool
/-!
# The command line of the tool (src/tool.cpp:69-137 and :440-472)

The options are declared in src/tool.cpp; reading them is done by LLVM's CommandLine
library (llvm/lib/Support/CommandLine.cpp) and clang's `CommonOptionsParser`
(clang/lib/Tooling/CommonOptionsParser.cpp), whose documented behaviour is modelled:
* everything from the first `--` on is removed first (it is a compilation command);
* other arguments that start with `-`, except for `-` itself, are options, written with
  one or two dashes; values follow after `=`, or are the next argument if the option
  requires one;
* single options can be given once, lists any number of times;
* there is exactly one positional argument, because its occurrence is `Required`.

Not modelled: options provided by LLVM and clang themselves (such as `--help`), the
messages, and the values of enums, for which only their names are checked.
-/
namespace Verif

/-- Options with a value. -/
inductive ValueOption where
  /-- `-o`, src/tool.cpp:115-121 -/
  | output
  /-- `--module-name`, src/tool.cpp:128-133 -/
  | moduleName
  /-- `--inspect-graph`, src/tool.cpp:83-87 -/
  | inspectGraph
  /-- `--dump-graph`, src/tool.cpp:89-93 -/
  | dumpGraph
  /-- `-p`, `CommonOptionsParser` -/
  | buildPath
  /-- `--extra-arg`, `CommonOptionsParser` -/
  | extraArg
  /-- `--extra-arg-before`, `CommonOptionsParser` -/
  | extraArgBefore
  deriving DecidableEq, Repr

/-- Options that are on or off. -/
inductive FlagOption where
  /-- `--dump-ast`, src/tool.cpp:95-98 -/
  | dumpAst
  /-- `--keep-output-files`, src/tool.cpp:123-126 -/
  | keepOutputFiles
  /-- `--xfail`, src/tool.cpp:446-449 -/
  | expectFailure
  /-- `--verbose`, src/tool.cpp:451-453 -/
  | verbose
  deriving DecidableEq, Repr

/-- What is asked for by an option or positional argument. -/
inductive Setting where
  | value (option : ValueOption) (text : Str)
  | flag (option : FlagOption) (on : Bool)
  | source (path : Str)
  deriving DecidableEq, Repr

/-- Either kind of option. -/
inductive OptionKind where
  | value (option : ValueOption)
  | flag (option : FlagOption)

/-- `LookupLongOption`, for the names given in src/tool.cpp and by `CommonOptionsParser`. -/
def lookupOption (name : Str) : Option OptionKind :=
  if name = t%"o" then some (.value .output)
  else if name = t%"module-name" then some (.value .moduleName)
  else if name = t%"inspect-graph" then some (.value .inspectGraph)
  else if name = t%"dump-graph" then some (.value .dumpGraph)
  else if name = t%"p" then some (.value .buildPath)
  else if name = t%"extra-arg" then some (.value .extraArg)
  else if name = t%"extra-arg-before" then some (.value .extraArgBefore)
  else if name = t%"dump-ast" then some (.flag .dumpAst)
  else if name = t%"keep-output-files" then some (.flag .keepOutputFiles)
  else if name = t%"xfail" then some (.flag .expectFailure)
  else if name = t%"verbose" then some (.flag .verbose)
  else none

/-- `llvm::sys::path::is_absolute`, for POSIX paths: `//net` without another slash is the
name of a host. -/
def isAbsolutePath : Str → Bool
  | '/' :: '/' :: c :: rest => c = '/' || rest.contains '/'
  | '/' :: _ => true
  | _ => false

/-- The parsers of values: `OutputFilenameParser::parse`, src/tool.cpp:103-111, and the names
of enumerators, src/tool.cpp:76-81. -/
def acceptsValue : ValueOption → Str → Bool
  | .output, arg => arg = ['-'] || isAbsolutePath arg
  | .inspectGraph, arg | .dumpGraph, arg => arg = t%"visibility" || arg = t%"pruned"
  | _, _ => true

/-- `parser<bool>::parse`. -/
def parseFlag (arg : Str) : Option Bool :=
  if arg = [] ∨ arg = t%"true" ∨ arg = t%"TRUE" ∨ arg = t%"True" ∨ arg = t%"1" then some true
  else if arg = t%"false" ∨ arg = t%"FALSE" ∨ arg = t%"False" ∨ arg = t%"0" then some false
  else none

/-- The name of an option, and what follows `=`. -/
def splitEquals : Str → Str × Option Str
  | [] => ([], none)
  | c :: s => if c = '=' then ([], some s) else let r := splitEquals s; (c :: r.1, r.2)

/-- Removes the dashes; `none` for positional arguments. -/
def optionBody : Str → Option Str
  | '-' :: '-' :: s => some s
  | '-' :: c :: s => some (c :: s)
  | _ => none

/-- The loop over the arguments in `ParseCommandLineOptions`. -/
def parseSettings : List Str → Option (List Setting)
  | [] => some []
  | arg :: args =>
    match optionBody arg with
    | none => (parseSettings args).map (.source arg :: ·)
    | some body =>
      match lookupOption (splitEquals body).1, (splitEquals body).2 with
      | none, _ => none
      | some (.flag option), text =>
        match parseFlag (text.getD []) with
        | none => none
        | some on => (parseSettings args).map (.flag option on :: ·)
      | some (.value option), some text =>
        if acceptsValue option text then (parseSettings args).map (.value option text :: ·) else none
      | some (.value option), none =>
        match args with
        | [] => none
        | text :: args =>
          if acceptsValue option text then (parseSettings args).map (.value option text :: ·) else none

/-- The values of an option, in order. -/
def valuesOf (option : ValueOption) (l : List Setting) : List Str :=
  l.filterMap fun
    | .value o text => if o = option then some text else none
    | _ => none

/-- The occurrences of a flag. -/
def flagsOf (option : FlagOption) (l : List Setting) : List Bool :=
  l.filterMap fun
    | .flag o on => if o = option then some on else none
    | _ => none

/-- Positional arguments. -/
def sourcesOf (l : List Setting) : List Str :=
  l.filterMap fun
    | .source path => some path
    | _ => none

/-- What the tool is asked to do. -/
structure CommandLine where
  options : ToolOptions
  verbose : Bool := false
  dumpAst : Bool := false
  inspectGraph : List Str := []
  dumpGraph : List Str := []
  buildPath : Str := []
  extraArgs : List Str := []
  extraArgsBefore : List Str := []
  source : Str
  /-- the compilation command after `--` -/
  command : Option (List Str) := none

/-- `CommonOptionsParser::create`, src/tool.cpp:455-462; `none` is an error. -/
def parseCommandLine (args : List Str) : Option CommandLine :=
  match parseSettings (args.takeWhile (· ≠ t%"--")) with
  | none => none
  | some l =>
    if (valuesOf .moduleName l).length > 1 || (valuesOf .buildPath l).length > 1 ||
       (flagsOf .dumpAst l).length > 1 || (flagsOf .keepOutputFiles l).length > 1 ||
       (flagsOf .expectFailure l).length > 1 || (flagsOf .verbose l).length > 1 then none
    else match sourcesOf l with
    | [source] => some {
        options := {
          outputs := valuesOf .output l
          moduleName := (valuesOf .moduleName l).headD []
          keepOutputFiles := (flagsOf .keepOutputFiles l).headD false
          expectFailure := (flagsOf .expectFailure l).headD false }
        verbose := (flagsOf .verbose l).headD false
        dumpAst := (flagsOf .dumpAst l).headD false
        inspectGraph := valuesOf .inspectGraph l
        dumpGraph := valuesOf .dumpGraph l
        buildPath := (valuesOf .buildPath l).headD []
        extraArgs := valuesOf .extraArg l
        extraArgsBefore := valuesOf .extraArgBefore l
        source
        command := if args.contains t%"--" then some ((args.dropWhile (· ≠ t%"--")).drop 1) else none }
    | _ => none

/-- `main`, src/tool.cpp:440-518.  `unit` is what results from the command line up to the
call of `HandleTranslationUnit`. -/
def runMain (args : List Str) (unit : CommandLine → ToolInput) (files : Files) : Option ToolResult :=
  match parseCommandLine args with
  | none => some { exitCode := 1, files, printed := [], diags := [] }
  | some c => runTool c.options (unit c) files

end Verif
