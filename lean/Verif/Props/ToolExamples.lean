import Verif.Props.Tool
import Verif.Props.ModuleExamples
import Verif.Lemmas.DfsFuel
/-!
# Cases of the theorems about runs
-/
namespace Verif
open Spec

/-- `struct visible 1 { int 2(int); hidden int 3(); };
namespace module 4 { enum visible 5 { 6 }; }` -/
def exUnit : EmitWorld where
  info := fun
    | 0 => { kind := .translationUnit }
    | 1 => { kind := .record, name := t%"S", attrTexts := [lozenge ++ t%"visible"] }
    | 2 => { kind := .method, name := t%"f", params := [t%"x"], minRequired := 1 }
    | 3 => { kind := .method, name := t%"g", attrTexts := [lozenge ++ t%"hidden"] }
    | 4 => { kind := .namespace, name := t%"n", attrTexts := [lozenge ++ t%"module"] }
    | 5 => { kind := .enum, name := t%"E", attrTexts := [lozenge ++ t%"visible"] }
    | 6 => { kind := .enumConstant, name := t%"A" }
    | _ => { kind := .other }
  hasName := fun _ _ => false
  ancestors := fun | 0 => [] | 2 => [1, 0] | 3 => [1, 0] | 5 => [4, 0] | 6 => [5, 4, 0] | _ => [0]
  canonical := fun x => x
  access := fun | 2 => .public | 3 => .public | _ => .none
  loc := fun x => x
  dependentContext := fun _ => false
  unit := 0
  fn := fun | 2 => exPlain t%"S::f" 1 | _ => exPlain t%"S::g" 0
  qualifiedName := fun _ => t%"n"
  typeName := fun | 1 => t%"::S" | _ => t%"::n::E"
  selfType := fun r _ => { text := t%"::S", record := some r }
  brief := fun _ => []
  aliasTag := fun _ => none
  isConstType := fun _ => false
  manual := fun _ => ⟨some t%"c", t%"{}"⟩
  isAbstract := fun _ => false
  isScoped := fun _ => false
  hierarchy := fun _ => .nil
  specializations := fun _ => none
  found := fun
    | 1 => [2, 3].map fun d => ⟨d, none, false, .public, false, false, some 1, none⟩
    | 5 => [⟨6, none, false, .none, false, false, none, none⟩]
    | _ => []
  hasLocation := fun _ => true
  associated := fun _ => []
  unitVars := []

def exUnitTree : Tree := .node 0 [.node 1 [.node 2 [], .node 3 []], .node 4 [.node 5 [.node 6 []]]]

/-- It is compiled from a file with a pragma `include`. -/
def exInput : ToolInput where
  mainFile := t%"/src/my-lib.h"
  world := exUnit
  tree := exUnitTree
  pragmas := [{ tokens := [.identifier t%"include", .filename t%"<x.h>"] }]
  pick := fun _ => lastSmallest exUnit.loc
  iterate := fun g => g.nodes

theorem exUnit_wellFormed : WellFormed exUnit.toWorld exUnitTree := by
  refine ⟨rfl, fun id => ?_, by decide +kernel, fun id p ps => ?_, fun id h => ?_, rfl,
    fun a x => ?_, fun a x => ?_, fun a => ?_⟩
  all_goals simp only [exUnit]
  · split <;> simp_all
  · split <;> simp <;> rintro rfl rfl <;> rfl
  · split <;> simp_all [exUnit]
  · split <;> simp
  · split <;> simp
  · split <;> simp

theorem exInput_ok : InputOK exInput where
  unit := exUnit_wellFormed
  emit := by
    refine ⟨by simp [exInput, exUnit], by simp [exInput, exUnit], ?_, fun _ _ => rfl⟩
    intro d
    simp only [exInput, exUnit]
    split <;> (try rfl) <;> (split <;> simp_all) <;> rfl
  bases := by
    intro x a
    simp [exInput, exUnit, EmitWorld.bases, Hierarchy.direct]
  picks := lastSmallest_ok _
  iterate := fun _ => .refl _

/-- Rewrites a run to a form that can be evaluated. -/
local macro "eval_run" : tactic => `(tactic| (
  simp only [handleTranslationUnit, emitModule, findEnclosingScopes, analyze, pruneGraph, hideNamespaces,
    declContextsWithVisibleNamedDecls, deriveEffectiveVisibility, dfs_fuel]
  decide +kernel))

set_option maxRecDepth 4000 in
/-- C55: the generated files. -/
example : (handleTranslationUnit exInput t%"my_lib" [t%"/a", t%"/b"]).outputs =
    [(t%"/a", t%"#include \"/src/my-lib.h\"
#include <genpybind/binding-helpers.h>
#include <pybind11/pybind11.h>
#include <x.h>

void expose_context(::pybind11::module& context);
void expose_context_S(::pybind11::class_<::S>& context);
void expose_context_n(::pybind11::module& context);
void expose_context_n_E(::pybind11::enum_<::n::E>& context);

PYBIND11_MODULE(my_lib, root) {
auto context = root;
auto context_S = ::pybind11::class_<::S>(context, \"S\");
auto context_n = context.def_submodule(\"n\");
auto context_n_E = ::pybind11::enum_<::n::E>(context_n, \"E\");

expose_context(context);
expose_context_S(context_S);
expose_context_n(context_n);
expose_context_n_E(context_n_E);
}

void expose_context(::pybind11::module& context) {
(void)context;
}

void expose_context_S(::pybind11::class_<::S>& context) {
context.def(\"f\", ::pybind11::overload_cast<int>(&::S::f), \"\", ::pybind11::arg(\"x\"));
}

"), (t%"/b", t%"#include \"/src/my-lib.h\"
#include <genpybind/binding-helpers.h>
#include <pybind11/pybind11.h>
#include <x.h>

void expose_context_n(::pybind11::module& context);
void expose_context_n(::pybind11::module& context) {
(void)context;
}

void expose_context_n_E(::pybind11::enum_<::n::E>& context);
void expose_context_n_E(::pybind11::enum_<::n::E>& context) {
context.value(\"A\", ::n::E::A);
context.export_values();
}

")] := by eval_run

/-- There are no errors. -/
theorem exInput_succeeds : ¬ ErrorReported exInput (handleTranslationUnit exInput t%"my_lib" [t%"/a", t%"/b"]) := by
  rw [← errorOccurred_iff, Bool.not_eq_true]
  unfold errorOccurred
  have h : hasErrors (handleTranslationUnit exInput t%"my_lib" [t%"/a", t%"/b"]).diags = false := by eval_run
  have h' : (handleTranslationUnit exInput t%"my_lib" [t%"/a", t%"/b"]).ioError = false := by eval_run
  rw [h, h']
  rfl

example : ∃ g b, buildGraph exInput.world.toWorld exInput.tree = (some g, b) := by
  cases h : (buildGraph exInput.world.toWorld exInput.tree).1 with
  | some g => exact ⟨g, _, by rw [← h]⟩
  | none =>
    rw [buildGraph_errors] at h
    exact absurd h (by decide +kernel)

example : moduleNameFor [] exInput.mainFile = some t%"my_lib" := (makeValidIdentifier_eq _).trans (by decide +kernel)

def exOptions : ToolOptions := { outputs := [t%"/a", t%"/b"] }

/-- C50, C55, C69: the tool succeeds. -/
theorem exInput_run : ∃ r, runTool exOptions exInput (fun _ => none) = some r ∧ exOptions.expectFailure = false ∧
    r.exitCode = 0 ∧ exOptions.outputFiles.Nodup := by
  obtain ⟨name, r, hn, hr⟩ := C50_total exOptions exInput fun _ => none
  have : moduleNameFor [] exInput.mainFile = some t%"my_lib" :=
    (makeValidIdentifier_eq _).trans (by decide +kernel)
  cases hn.symm.trans this
  refine ⟨r, hr, rfl, ?_, by decide⟩
  rw [C50_exit _ _ _ _ _ this hr]
  exact ⟨fun h => absurd h exInput_succeeds, by simp [exOptions]⟩

/-! ### Errors -/

/-- An unknown annotation. -/
def exBad : ToolInput := { exInput with
  world := { exUnit with
    info := fun
      | 1 => { kind := .record, name := t%"S", attrTexts := [lozenge ++ t%"invisible"] }
      | x => exUnit.info x } }

example : hasErrors (buildGraph exBad.world.toWorld exBad.tree).2.diags = true := by decide +kernel

/-- C50 (what is missing): if annotations are in error, the outputs of this run are not
created.  Files of an earlier run are then left in place, although the tool fails. -/
theorem C50_stale (o : ToolOptions) (i : ToolInput) (files : Files) (r : ToolResult)
    (hr : runTool o i files = some r)
    (he : hasErrors (buildGraph i.world.toWorld i.tree).2.diags = true) :
    r.files = files ∧ r.printed = [] := by
  unfold runTool at hr
  split at hr
  · cases hr
  · rename_i name _
    have := (C55_annotations i name o.outputFiles he).1
    simp only [Option.some.injEq] at hr
    subst hr
    dsimp only
    rw [this]
    exact ⟨rfl, rfl⟩

example : ∃ r, runTool exOptions exBad (fun p => if p = t%"/a" then some t%"old" else none) = some r ∧
    r.exitCode = 1 ∧ r.files t%"/a" = some t%"old" := by
  obtain ⟨name, r, hn, hr⟩ := C50_total exOptions exBad fun p => if p = t%"/a" then some t%"old" else none
  have he : hasErrors (buildGraph exBad.world.toWorld exBad.tree).2.diags = true := by decide +kernel
  refine ⟨r, hr, ?_, ?_⟩
  · have h := (C55_annotations exBad name exOptions.outputFiles he).2.1
    unfold runTool at hr
    rw [hn] at hr
    simp only [Option.some.injEq] at hr
    subst hr
    dsimp only
    rw [(errorOccurred_iff ..).2 h]
    rfl
  · rw [(C50_stale _ _ _ _ hr he).1]
    rfl

/-- The same file requested twice: only the last one is kept, so parts of the module are
lost although the tool succeeds. -/
theorem C50_duplicate_outputs :
    ¬ ErrorReported exInput (handleTranslationUnit exInput t%"my_lib" [t%"/a", t%"/a"]) ∧
    ∃ text, lastText t%"/a" (handleTranslationUnit exInput t%"my_lib" [t%"/a", t%"/a"]).outputs = some text ∧
      ¬ t%"PYBIND11_MODULE" <:+: text := by
  constructor
  · rw [← errorOccurred_iff, Bool.not_eq_true]
    unfold errorOccurred
    have h : hasErrors (handleTranslationUnit exInput t%"my_lib" [t%"/a", t%"/a"]).diags = false := by eval_run
    have h' : (handleTranslationUnit exInput t%"my_lib" [t%"/a", t%"/a"]).ioError = false := by eval_run
    rw [h, h']
    rfl
  · have h : (lastText t%"/a" (handleTranslationUnit exInput t%"my_lib" [t%"/a", t%"/a"]).outputs).any
        (fun text => !decide (t%"PYBIND11_MODULE" <:+: text)) = true := by
      eval_run
    cases ht : lastText t%"/a" (handleTranslationUnit exInput t%"my_lib" [t%"/a", t%"/a"]).outputs with
    | none => rw [ht] at h; cases h
    | some text =>
      rw [ht] at h
      exact ⟨text, rfl, by simpa using h⟩

/-- `struct visible 2 {}; struct visible 1 : 2 { using 3 expose_here = 2; };`: a class that
is exposed in one derived from it. -/
def exInside : ToolInput := { exInput with
  tree := .node 0 [.node 2 [], .node 1 [.node 3 []]]
  world := { exUnit with
    info := fun
      | 0 => { kind := .translationUnit }
      | 1 => { kind := .record, name := t%"D", attrTexts := [lozenge ++ t%"visible"] }
      | 2 => { kind := .record, name := t%"B", attrTexts := [lozenge ++ t%"visible"] }
      | 3 => { kind := .typedefName, name := t%"T", attrTexts := [lozenge ++ t%"expose_here"],
               aliasTarget := some 2 }
      | _ => { kind := .other }
    ancestors := fun | 0 => [] | 3 => [1, 0] | _ => [0]
    found := fun _ => []
    hierarchy := fun | 1 => .cons { access := .public, id := 2 } .nil .nil | _ => .nil } }

/-- C55: the cycle is reported, and only the includes are written. -/
example : (handleTranslationUnit exInside t%"my_lib" [t%"/a"]).diags = [{ decl := 1, kind := .exposeHereCycle }] ∧
    (handleTranslationUnit exInside t%"my_lib" [t%"/a"]).outputs = [(t%"/a", fileText exInside [])] := by
  constructor <;> eval_run

end Verif
