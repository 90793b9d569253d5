import Verif.Model.Inspect
import Verif.Model.Options
/-!
# Options for debugging (src/tool.cpp:69-98, :138-166 and :193-240)

What is shown on the way through `HandleTranslationUnit`.  The dump of the AST is done by clang, and left
out.
-/
namespace Verif

/-- Something that is shown. -/
inductive Shown where
  /-- `--dump-ast` -/
  | ast
  /-- `--inspect-graph` -/
  | view (nodes : List DotNode)
  /-- `--dump-graph`; `none` if undefined, or if it takes too many steps -/
  | dump (text : Option Str)
  deriving DecidableEq, Repr

/-- `InspectGraphStage`, src/tool.cpp:71-74. -/
inductive Stage where
  | visibility | pruned
  deriving DecidableEq, Repr

/-- The names of the values, src/tool.cpp:76-82. -/
def Stage.name : Stage → Str
  | .visibility => t%"visibility"
  | .pruned => t%"pruned"

/-- `graphTitle`, src/tool.cpp:138-146. -/
def graphTitle : Stage → Str
  | .visibility => t%"Declaration context graph (unpruned) with visibility of all nodes:"
  | .pruned => t%"Declaration context graph after pruning:"

/-- What is read about declarations for display: `getDeclKindName` and `getNameForDisplay`. -/
structure Display where
  kindName : Nat → Str
  name : Nat → Str

/-- `inspectGraph`, src/tool.cpp:148-160. -/
def inspectGraph (c : CommandLine) (i : ToolInput) (d : Display) (steps : Nat) (s : Storage)
    (vis : Visibilities) (g : Graph) (stage : Stage) : List Shown :=
  let w := i.world.toWorld
  (if c.inspectGraph.contains stage.name then
    [.view (viewGraph w d.kindName d.name s g (i.iterate g))] else []) ++
  (if c.dumpGraph.contains stage.name then
    [.dump ((dumpGraph g vis (nodeLabel w d.kindName d.name s) steps).bind
      (dumpText g (graphTitle stage)))] else [])

/-- What is shown by `HandleTranslationUnit`, src/tool.cpp:193-240. -/
def debugOutput (c : CommandLine) (i : ToolInput) (d : Display) (steps : Nat) (name : Str) : List Shown :=
  let w := i.world.toWorld
  let r := buildGraph w i.tree
  let b := r.2
  (if c.dumpAst then [.ast] else []) ++
  match r.1 with
  | none => []
  | some g =>
    let vis := deriveEffectiveVisibility w b.storage g
    if (reportExposeHereCycles w (i.iterate g) (reachableDeclContexts vis) b.relocated).1 then []
    else
      let a := analyze w b.storage i.members name g
      inspectGraph c i d steps b.storage vis g .visibility ++
      inspectGraph c i d steps b.storage a.vis a.pruned .pruned

end Verif
