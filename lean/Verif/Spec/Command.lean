import Verif.Spec.CommandLine
/-!
# The commands of a compilation database, and what should become of them

A command consists of the name of the compiler, of parts (an option with its value, or an
argument) and, possibly, of files after `--`.
-/
namespace Verif.Spec

/-- A part of a command. -/
inductive Part where
  /-- `-ofile` -/
  | output (file : Str)
  /-- `-o file` -/
  | outputTo (file : Str)
  /-- e.g. `-MD` -/
  | dependencies (kind : Str)
  /-- e.g. `-MF file` -/
  | dependenciesTo (kind file : Str)
  /-- e.g. `-save-temps` -/
  | temporaries (flag : Str)
  /-- e.g. `-fcolor-diagnostics` -/
  | colour (flag : Str)
  /-- e.g. `-Xclang -fcolor-diagnostics` -/
  | colourPassed (flag : Str)
  /-- `-xlanguage` -/
  | language (name : Str)
  /-- `-x language` -/
  | languageNext (name : Str)
  /-- e.g. `-std=gnu++14` -/
  | standard (dialect version : Str)
  /-- `-fsyntax-only` -/
  | syntaxOnly
  /-- `-resource-dir=dir` -/
  | resource (dir : Str)
  /-- `-resource-dir dir` -/
  | resourceNext (dir : Str)
  /-- any other `-Xclang argument` -/
  | passed (arg : Str)
  /-- any other argument -/
  | plain (arg : Str)
  deriving DecidableEq, Repr

/-- The arguments of a part. -/
def Part.words : Part → List Str
  | .output f => [t%"-o" ++ f]
  | .outputTo f => [t%"-o", f]
  | .dependencies k => [t%"-M" ++ k]
  | .dependenciesTo k f => [t%"-M" ++ k, f]
  | .temporaries f => [f]
  | .colour f => [f]
  | .colourPassed f => [t%"-Xclang", f]
  | .language n => [t%"-x" ++ n]
  | .languageNext n => [t%"-x", n]
  | .standard d v => [t%"-std=" ++ d ++ t%"++" ++ v]
  | .syntaxOnly => [t%"-fsyntax-only"]
  | .resource d => [t%"-resource-dir=" ++ d]
  | .resourceNext d => [t%"-resource-dir", d]
  | .passed a => [t%"-Xclang", a]
  | .plain a => [a]

/-- Options to leave behind temporary files. -/
def TemporariesFlag (a : Str) : Prop := t%"-save-temps" <+: a ∨ t%"--save-temps" <+: a

/-- Options for coloured messages. -/
def ColourFlag (a : Str) : Prop := t%"-fcolor-diagnostics" <+: a ∨ t%"-fdiagnostics-color" <+: a

/-- An argument that does not look like one of the options above, except for those for
language and standard. -/
structure OrdinaryWord (a : Str) : Prop where
  output : ¬ t%"-o" <+: a
  dependencies : ¬ t%"-M" <+: a
  temporaries : ¬ TemporariesFlag a
  colour : ¬ ColourFlag a
  includes : ¬ t%"/showIncludes" <+: a ∧ ¬ t%"-showIncludes" <+: a
  resource : ¬ ResourceFlag a
  others : a ≠ t%"--" ∧ a ≠ t%"-fsyntax-only" ∧ a ≠ t%"-Xclang"

/-- The part is what its name says. -/
def Part.OK : Part → Prop
  | .output f => f ≠ []
  | .outputTo _ => True
  | .dependencies k => k ≠ t%"F" ∧ k ≠ t%"T" ∧ k ≠ t%"Q"
  | .dependenciesTo k f => (k = t%"F" ∨ k = t%"T" ∨ k = t%"Q") ∧ OrdinaryWord f
  | .temporaries f => TemporariesFlag f
  | .colour f => ColourFlag f
  | .colourPassed f => ColourFlag f
  | .language n => n ≠ []
  | .languageNext n => OrdinaryWord n
  | .standard d _ => d = t%"c" ∨ d = t%"gnu"
  | .syntaxOnly => True
  | .resource _ => True
  | .resourceNext d => OrdinaryWord d ∧ ¬ t%"-x" <+: d ∧ ¬ t%"-std=" <+: d
  | .passed a => OrdinaryWord a ∧ ¬ t%"-x" <+: a ∧ ¬ t%"-std=" <+: a
  | .plain a => OrdinaryWord a ∧ ¬ t%"-x" <+: a ∧ ¬ t%"-std=" <+: a

/-- The arguments of several parts. -/
def words (ps : List Part) : List Str := ps.flatMap Part.words

/-- What comes after the options: nothing, or `--` and files. -/
def Files (rest : List Str) : Prop :=
  rest = [] ∨ ∃ files, rest = t%"--" :: files ∧ ∀ f ∈ files, OrdinaryWord f

/-- The parts that stay: no output, no language, and no standard before C++20. -/
def Part.stays : Part → Bool
  | .standard _ v => t%"2".isPrefixOf v
  | .syntaxOnly | .resource _ | .resourceNext _ | .passed _ | .plain _ => true
  | _ => false

def Part.isResource : Part → Bool
  | .resource _ | .resourceNext _ => true
  | _ => false

/-- Dialect and version of a standard. -/
def Part.standard? : Part → Option (Str × Str)
  | .standard d v => some (d, v)
  | _ => none

/-- The standard that has to be added: none if the last one is later than C++17. -/
def addedStandard (ps : List Part) : List Str :=
  match (ps.filterMap Part.standard?).getLast? with
  | none => [t%"-std=c++17"]
  | some (d, v) => if t%"2".isPrefixOf v then [] else [t%"-std=" ++ d ++ t%"++17"]

/-- The resource directory that has to be added. -/
def addedResource (dir : Str) (ps : List Part) : List Str :=
  if ps.any Part.isResource || dir.isEmpty then [] else [t%"-resource-dir=" ++ dir]

/-- The arguments that should be passed to the compiler. -/
def adjusted (dir : Str) (ps : List Part) : List Str :=
  t%"-xc++" :: words (ps.filter Part.stays) ++
    (if ps.contains .syntaxOnly then [] else [t%"-fsyntax-only"]) ++
    addedResource dir ps ++ addedStandard ps ++ [t%"-Wno-everything", t%"-D__GENPYBIND__"]

/-! ### Reading definitions of a macro -/

/-- Whether the macro is defined after an option with its value: `-Dname`, `-Dname=value`
and `-Uname`, where everything after `D` or `U` can be the next argument. -/
def macroStep (name : Str) (defined : Bool) (option : Str) : Bool :=
  if option = t%"-D" ++ name || (t%"-D" ++ name ++ t%"=").isPrefixOf option then true
  else if option = t%"-U" ++ name then false
  else defined

/-- Whether the macro is defined after the arguments up to `--`.  `takes` are the options
with a separate value. -/
def macroDefined (takes : Str → Bool) (name : Str) (defined : Bool) : List Str → Bool
  | [] => defined
  | a :: l =>
    if a = t%"--" then defined
    else match l with
    | [] => macroStep name defined a
    | b :: l =>
      if takes a then macroDefined takes name (macroStep name defined (a ++ b)) l
      else macroDefined takes name (macroStep name defined a) (b :: l)

end Verif.Spec
