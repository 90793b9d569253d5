import Verif.Model.Tool
import Verif.Spec.Module
/-!
# Expected results of a run
-/
namespace Verif.Spec

/-- Assumptions about the input that hold for every translation unit: those on the
declarations, no class is its own base, and the containers behave as expected. -/
structure InputOK (i : ToolInput) : Prop where
  unit : WellFormed i.world.toWorld i.tree
  emit : EmitOK i.world
  bases : ∀ x a, (a, x) ∉ i.world.bases x
  picks : PicksTop i.world.loc i.pick
  iterate : ∀ g : Graph, (i.iterate g).Perm g.nodes

/-- What file number `k` of `n` is expected to contain after the includes, if contexts
are listed in the given order: the first one the module definition, and each one its
share of the functions. -/
def fileLines (w : EmitWorld) (s : Storage) (g : Graph) (vis : Visibilities) (name : Str)
    (order : List Nat) (n k : Nat) : List Line :=
  (if k = 0 then mainOf w s g name order else []) ++
  (((contextsOf w order).zip (identifiersOf w order)).zipIdx.filter fun p =>
    p.2 * n / (contextsOf w order).length = k).flatMap fun p => definitionOf w s g vis k p.1.1 p.1.2

/-- The includes every file starts with. -/
def includeLines (i : ToolInput) : List Str :=
  (t%"#include \"" ++ i.mainFile ++ t%"\"") ::
  t%"#include <genpybind/binding-helpers.h>" ::
  t%"#include <pybind11/pybind11.h>" ::
  (handlePragmas i.pragmas).includes.map (t%"#include " ++ ·)

/-- The contents of a file. -/
def fileText (i : ToolInput) (lines : List Line) : Str :=
  (includeLines i).flatMap (· ++ ['\n']) ++ ['\n'] ++ lines.flatMap (Line.emit i.world)

/-- An error has been reported during the run. -/
def ErrorReported (i : ToolInput) (h : Handled) : Prop :=
  i.earlierErrors = true ∨ (handlePragmas i.pragmas).diags ≠ [] ∨
  (∃ d ∈ h.diags, d.isError = true) ∨ h.ioError = true

/-- The contents of the last of the outputs with this path. -/
def lastText (path : Str) (l : List (Str × Str)) : Option Str :=
  ((l.filter (·.1 = path)).getLast?).map (·.2)

end Verif.Spec
