import Verif.Model.Options
/-!
# How options are written

Documented ways of writing options, stated as a relation between settings and the
arguments they are written as.
-/
namespace Verif.Spec

/-- The name of an option with a value. -/
def valueOptionName : ValueOption → Str
  | .output => t%"o"
  | .moduleName => t%"module-name"
  | .inspectGraph => t%"inspect-graph"
  | .dumpGraph => t%"dump-graph"
  | .buildPath => t%"p"
  | .extraArg => t%"extra-arg"
  | .extraArgBefore => t%"extra-arg-before"

/-- The name of a flag. -/
def flagOptionName : FlagOption → Str
  | .dumpAst => t%"dump-ast"
  | .keepOutputFiles => t%"keep-output-files"
  | .expectFailure => t%"xfail"
  | .verbose => t%"verbose"

/-- Options start with one or two dashes. -/
def IsDash (d : Str) : Prop := d = t%"-" ∨ d = t%"--"

/-- Words for yes and no. -/
def FlagWord (on : Bool) (word : Str) : Prop :=
  if on then word ∈ [t%"", t%"true", t%"TRUE", t%"True", t%"1"]
  else word ∈ [t%"false", t%"FALSE", t%"False", t%"0"]

/-- An absolute path: it starts with a slash, and is not only the name of a host. -/
def AbsolutePath (path : Str) : Prop :=
  (∃ rest, path = '/' :: rest) ∧ ¬ ∃ host, path = '/' :: '/' :: host ∧ host ≠ [] ∧ '/' ∉ host

/-- Values that make sense. -/
def ValueOK : ValueOption → Str → Prop
  | .output, path => path = t%"-" ∨ AbsolutePath path
  | .inspectGraph, stage => stage = t%"visibility" ∨ stage = t%"pruned"
  | .dumpGraph, stage => stage = t%"visibility" ∨ stage = t%"pruned"
  | _, _ => True

/-- A setting is written as these arguments. -/
inductive SpelledAs : Setting → List Str → Prop where
  | joined {d : Str} {o : ValueOption} {text : Str} (hd : IsDash d) (hv : ValueOK o text) :
    SpelledAs (.value o text) [d ++ valueOptionName o ++ '=' :: text]
  | separate {d : Str} {o : ValueOption} {text : Str} (hd : IsDash d) (hv : ValueOK o text) :
    SpelledAs (.value o text) [d ++ valueOptionName o, text]
  | plain {d : Str} {o : FlagOption} (hd : IsDash d) : SpelledAs (.flag o true) [d ++ flagOptionName o]
  | worded {d : Str} {o : FlagOption} {on : Bool} {word : Str} (hd : IsDash d) (hw : FlagWord on word) :
    SpelledAs (.flag o on) [d ++ flagOptionName o ++ '=' :: word]
  | source {path : Str} (hp : path = t%"-" ∨ path.head? ≠ some '-') : SpelledAs (.source path) [path]

/-- Settings are written as these arguments, one after the other. -/
inductive SpelledOut : List Setting → List Str → Prop where
  | nil : SpelledOut [] []
  | cons {s : Setting} {l : List Setting} {now later : List Str} (hs : SpelledAs s now)
    (hl : SpelledOut l later) : SpelledOut (s :: l) (now ++ later)

/-- A value is given for this option. -/
def isValueOf (o : ValueOption) : Setting → Bool
  | .value o' _ => o' = o
  | _ => false

/-- This flag is given. -/
def isFlagOf (o : FlagOption) : Setting → Bool
  | .flag o' _ => o' = o
  | _ => false

/-- An input is given. -/
def isSource : Setting → Bool
  | .source _ => true
  | _ => false

/-- Options that can be given once are not given several times, and there is one input. -/
structure AllowedSettings (l : List Setting) (source : Str) : Prop where
  moduleName : (l.filter (isValueOf .moduleName)).length ≤ 1
  buildPath : (l.filter (isValueOf .buildPath)).length ≤ 1
  flags : ∀ o : FlagOption, (l.filter (isFlagOf o)).length ≤ 1
  source : l.filter isSource = [.source source]

/-- A setting is in effect. -/
structure InEffect (c : CommandLine) (l : List Setting) : Prop where
  outputs : c.options.outputs.map (Setting.value .output) = l.filter (isValueOf .output)
  moduleName : ∀ n, Setting.value .moduleName n ∈ l → c.options.moduleName = n
  noModuleName : (∀ n, Setting.value .moduleName n ∉ l) → c.options.moduleName = []
  keepOutputFiles : c.options.keepOutputFiles = true ↔ Setting.flag .keepOutputFiles true ∈ l
  expectFailure : c.options.expectFailure = true ↔ Setting.flag .expectFailure true ∈ l
  verbose : c.verbose = true ↔ Setting.flag .verbose true ∈ l
  dumpAst : c.dumpAst = true ↔ Setting.flag .dumpAst true ∈ l
  inspectGraph : c.inspectGraph.map (Setting.value .inspectGraph) =
    l.filter (isValueOf .inspectGraph)
  dumpGraph : c.dumpGraph.map (Setting.value .dumpGraph) = l.filter (isValueOf .dumpGraph)
  buildPath : ∀ p, Setting.value .buildPath p ∈ l → c.buildPath = p
  noBuildPath : (∀ p, Setting.value .buildPath p ∉ l) → c.buildPath = []
  extraArgs : c.extraArgs.map (Setting.value .extraArg) = l.filter (isValueOf .extraArg)
  extraArgsBefore : c.extraArgsBefore.map (Setting.value .extraArgBefore) =
    l.filter (isValueOf .extraArgBefore)

end Verif.Spec
