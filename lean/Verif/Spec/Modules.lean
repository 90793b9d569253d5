import Verif.Spec.Run
/-!
# Importing several modules into the same interpreter

pybind11 keeps one table of registered types for all modules (no binding is marked
`py::module_local()`), so a module is imported with the types of the modules imported
before already being known.  Objects are told apart by the name of their module, which is
the first component of their path.
-/
namespace Verif.Spec

/-- Import a further module: its variables are its own, everything else is shared. -/
def importNext (st : Importing) (name : Str) (files : List (List Line)) :
    Except ImportProblem Importing :=
  Importing.lines files { st with vars := [(t%"root", [name])] } (files.headD [])

/-- Import modules one after the other. -/
def importAll (st : Importing) : List (Str × List (List Line)) → Except ImportProblem Importing
  | [] => .ok st
  | (name, files) :: rest =>
    match importNext st name files with
    | .ok st => importAll st rest
    | .error e => .error e

/-- The lines are those written by a run of the tool. -/
def WrittenBy (o : ToolOptions) (i : ToolInput) (r : ToolResult) (lines : List (List Line)) : Prop :=
  lines.length = o.outputFiles.length ∧
  ∀ (k : Nat) path ls, o.outputFiles[k]? = some path → lines[k]? = some ls →
    (path ≠ ['-'] → r.files path = some (fileText i ls)) ∧
    (path = ['-'] → r.printed = [fileText i ls])

/-- A successful run of the tool for a module with this name. -/
structure Succeeds (o : ToolOptions) (i : ToolInput) (name : Str) (r : ToolResult) : Prop where
  run : ∃ files, runTool o i files = some r
  plain : o.expectFailure = false
  exitCode : r.exitCode = 0
  outputs : o.outputFiles.Nodup
  name : moduleNameFor o.moduleName i.mainFile = some name

/-- Different classes and enums are printed differently. -/
def PrintedApart (w : EmitWorld) (g : Graph) : Prop :=
  ∀ x y, IsType w.toWorld x → IsType w.toWorld y → Reachable g x → Reachable g y →
    w.typeName x = w.typeName y → x = y

/-- The class or enum is in a namespace that is only to be exposed in this module. -/
def Assigned (w : World) (s : Storage) (g : Graph) (x : Nat) (name : Str) : Prop :=
  ∃ n attrs ns, Below g n x ∧ (w.info n).kind = .namespace ∧ s.entries n = some attrs ∧
    attrs.namespace_ = some ns ∧ ns.onlyExposeIn = [name]

end Verif.Spec
