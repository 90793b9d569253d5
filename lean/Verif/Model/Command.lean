import Verif.Model.Adjusters
/-!
# The complete chain of adjusters (src/tool.cpp:492-500)

The adjusters of clang's tooling library (`clang/lib/Tooling/ArgumentsAdjusters.cpp`) are
not part of the code base.  They are modelled as documented there, for every driver mode
but the one of `cl`.
-/
namespace Verif

/-- The text starts with the prefix. -/
def startsWith (p s : Str) : Bool := (stripFront p s).isSome

/-- `getInsertArgumentAdjuster` with its default position `END`: in front of `--`. -/
def insertArgument (extra : Str) (args : List Str) : List Str :=
  let r := splitPositional args
  r.1 ++ extra :: r.2

/-- `getClangStripOutputAdjuster`: `-o` is removed together with the argument after it. -/
def stripOutput : List Str → List Str
  | [] => []
  | a :: l =>
    if a = t%"-o" then
      match l with
      | [] => []
      | _ :: l => stripOutput l
    else if startsWith t%"-o" a then stripOutput l
    else a :: stripOutput l

/-- `-MF`, `-MT` and `-MQ` have a value. -/
def isDependencyValueFlag (a : Str) : Bool := a = t%"-MF" || a = t%"-MT" || a = t%"-MQ"

/-- `getClangStripDependencyFileAdjuster`. -/
def stripDependencyFile : List Str → List Str
  | [] => []
  | a :: l =>
    if isDependencyValueFlag a then
      match l with
      | [] => []
      | _ :: l => stripDependencyFile l
    else if startsWith t%"-M" a || startsWith t%"/showIncludes" a || startsWith t%"-showIncludes" a then
      stripDependencyFile l
    else a :: stripDependencyFile l

def isTemporariesFlag (a : Str) : Bool :=
  startsWith t%"-save-temps" a || startsWith t%"--save-temps" a

def isColourFlag (a : Str) : Bool :=
  startsWith t%"-fcolor-diagnostics" a || startsWith t%"-fdiagnostics-color" a

/-- The loop of `getClangSyntaxOnlyAdjuster`.  `acc` are the adjusted arguments, the last
one first: `-Xclang` in front of a removed option for colours is removed as well. -/
def syntaxLoop : List Str → List Str → List Str
  | acc, [] => acc.reverse
  | acc, a :: l =>
    if isTemporariesFlag a then syntaxLoop acc l
    else if isColourFlag a then
      match acc with
      | [] => syntaxLoop [] l
      | b :: acc => if b = t%"-Xclang" then syntaxLoop acc l else syntaxLoop (b :: acc) l
    else syntaxLoop (a :: acc) l

/-- `getClangSyntaxOnlyAdjuster`. -/
def syntaxOnly (args : List Str) : List Str :=
  let r := syntaxLoop [] args
  if args.contains t%"-fsyntax-only" then r else insertArgument t%"-fsyntax-only" r

/-- The adjusters which the constructor of `ClangTool` installs, src/tool.cpp:492. -/
def defaultAdjusters (args : List Str) : List Str :=
  stripDependencyFile (syntaxOnly (stripOutput args))

/-- The command that is executed for the command from the compilation database,
src/tool.cpp:492-500.  `dir` is the result of `findResourceDir`.  `ClangTool::run` adds
the resource directory of the tool itself if there still is none; this is not modelled. -/
def adjustCommand (dir : Str) (args : List Str) : Option (List Str) :=
  let args := syntaxOnly (stripDependencyFile (stripOutput (defaultAdjusters args)))
  (adjustStandard (adjustResourceDir dir args)).map fun args =>
    insertArgument t%"-D__GENPYBIND__" (insertArgument t%"-Wno-everything" args)

end Verif
