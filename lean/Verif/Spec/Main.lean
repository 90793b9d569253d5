import Verif.Model.Main
import Verif.Spec.Tool
import Verif.Spec.Command
import Verif.Spec.CppString
/-!
# Expected results of running the program
-/
namespace Verif.Spec

/-- The module name used for all translation units: the requested one, or the one for the first. -/
structure NameInUse (o : ToolOptions) (units : List ToolInput) (name : Str) : Prop where
  nonempty : name ≠ []
  first : ∃ i l, units = i :: l ∧ moduleNameFor o.moduleName i.mainFile = some name

/-- An error is reported for the translation unit. -/
def UnitFails (o : ToolOptions) (name : Str) (i : ToolInput) : Prop :=
  ErrorReported i (handleTranslationUnit i name o.outputFiles)

/-- `ReadsWord text word rest`: the text starts with the word, either up to the next space, or as a
string literal. -/
inductive ReadsWord : Str → Str → Str → Prop where
  | plain {word rest : Str} : word ≠ [] → ' ' ∉ word → word.head? ≠ some '"' →
    (rest = [] ∨ ∃ l, rest = ' ' :: l) → ReadsWord (word ++ rest) word rest
  | quoted {text word rest : Str} : Reads text word rest → (rest = [] ∨ ∃ l, rest = ' ' :: l) →
    ReadsWord ('"' :: text) word rest

/-- The text consists of these words, with spaces in between. -/
inductive ReadsWords : Str → List Str → Prop where
  | nil : ReadsWords [] []
  | last {text word : Str} : ReadsWord text word [] → ReadsWords text [word]
  | cons {text word rest : Str} {words : List Str} : words ≠ [] → ReadsWord text word (' ' :: rest) →
    ReadsWords rest words → ReadsWords text (word :: words)

/-- A command of a compilation database, as it is written. -/
structure WrittenCommand where
  directory : Str
  filename : Str
  heuristic : Str
  program : Str
  parts : List Part
  rest : List Str

/-- What the database says. -/
def WrittenCommand.command (w : WrittenCommand) : CompileCommand where
  directory := w.directory
  filename := w.filename
  commandLine := w.program :: (words w.parts ++ w.rest)
  heuristic := w.heuristic

/-- What is to be executed for it, see `adjusted`, with additional arguments. -/
def WrittenCommand.executed (w : WrittenCommand) (dir : Str) (before after : List Part) : CompileCommand where
  directory := w.directory
  filename := w.filename
  commandLine := w.program :: (adjusted dir (before ++ w.parts ++ after) ++ w.rest)
  heuristic := w.heuristic

/-- Commands as in C84, to which arguments can be added. -/
structure WrittenCommand.OK (w : WrittenCommand) (before after : List Part) : Prop where
  program : OrdinaryWord w.program
  parts : ∀ p ∈ before ++ w.parts ++ after, p.OK
  rest : Files w.rest
  open_ : t%"--" ∉ words (before ++ w.parts)

/-- The commands for the source file: the arguments after `--`; or those of the database in the
directory given by `-p`; or, if there is no `-p`, those of the database found for the file; or no
arguments. -/
inductive CommandsFor (h : Host) (c : CommandLine) : List CompileCommand → Prop where
  | given (flags args : List Str) : c.command = some flags → h.strip flags = some args →
      CommandsFor h c [{ directory := t%".", filename := h.absolute c.source,
                         commandLine := h.program :: (args ++ [h.absolute c.source]) }]
  | directory (db : Database) : c.command = none → c.buildPath ≠ [] → h.inDirectory c.buildPath = some db →
      CommandsFor h c (db (h.absolute c.source))
  | found (db : Database) : c.command = none → c.buildPath = [] → h.forSource c.source = some db →
      CommandsFor h c (db (h.absolute c.source))
  | no_directory : c.command = none → c.buildPath ≠ [] → h.inDirectory c.buildPath = none →
      CommandsFor h c [{ directory := t%".", filename := h.absolute c.source,
                         commandLine := [h.program, h.absolute c.source] }]
  | nothing_found : c.command = none → c.buildPath = [] → h.forSource c.source = none →
      CommandsFor h c [{ directory := t%".", filename := h.absolute c.source,
                         commandLine := [h.program, h.absolute c.source] }]

end Verif.Spec
