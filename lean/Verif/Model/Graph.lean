import Verif.Model.Collector
import Verif.Model.Identifier
/-!
# `DeclContextGraph` and its construction

src/decl_context_graph.cpp, include/genpybind/decl_context_graph.h,
src/decl_context_graph_builder.cpp.
-/
namespace Verif

/-- `DeclContextGraph`: nodes are identified by their declaration.  `nodes` are
the keys of the node map; the order in which the map is iterated is not this
order but unspecified. -/
structure Graph where
  root : Nat
  nodes : List Nat
  children : Nat → List Nat

/-- `DeclContextGraph::DeclContextGraph`, src/decl_context_graph.cpp:9-10. -/
def Graph.start (root : Nat) : Graph := { root, nodes := [root], children := fun _ => [] }

/-- `getOrInsertNode`, src/decl_context_graph.cpp:19-25 (the node is known by its
declaration). -/
def Graph.getOrInsertNode (g : Graph) (id : Nat) : Graph :=
  if id ∈ g.nodes then g else { g with nodes := g.nodes ++ [id] }

/-- `getNode(decl) != nullptr`, src/decl_context_graph.cpp:12-17. -/
def Graph.hasNode (g : Graph) (id : Nat) : Bool := id ∈ g.nodes

/-- `getOrInsertNode(parent)->addChild(getOrInsertNode(child))`. -/
def Graph.addEdge (g : Graph) (parent child : Nat) : Graph :=
  let g := (g.getOrInsertNode parent).getOrInsertNode child
  { g with children := fun x => if x = parent then g.children x ++ [child] else g.children x }

/-- `getSpelling`, src/annotated_decl.cpp:316-338.  (`makeValidIdentifier` gives
`none` only if it accessed the text out of bounds, which does not happen, see
`C08_in_bounds`.) -/
def getSpelling (d : DeclInfo) : Str :=
  let result := if d.nameIsIdentifier then d.name else (makeValidIdentifier d.name).getD []
  match d.templateArgs with
  | none => result
  | some args => (makeValidIdentifier (result ++ args)).getD []

/-- `propagateAnnotations`, src/annotated_decl.cpp:533-566. -/
def propagateAnnotations (w : World) (s : Storage) (alias target : Nat) : Storage × List Diag :=
  let attrs := s.lookupNamed alias
  let visible : Annotation := ⟨.visible, [match attrs.visible with
    | some b => .boolean b
    | none => .default]⟩
  let update (x : NamedDeclAttrs) : Outcome NamedDeclAttrs :=
    processNamed target (w.info target) visible
      { x with spelling := if attrs.spelling.isEmpty then getSpelling (w.info alias)
                           else attrs.spelling }
  (s.updateNamed target (fun x => (update x).attrs), (update (s.lookupNamed target)).diags)

/-- State of `DeclContextGraphBuilder` while it handles aliases. -/
structure Building where
  graph : Graph
  storage : Storage
  /-- `relocated_decls`: target to alias -/
  relocated : Nat → Option Nat := fun _ => none
  diags : List Diag := []

/-- `addEdgeForExposeHereAlias`, src/decl_context_graph_builder.cpp:28-46. -/
def addEdgeForExposeHereAlias (w : World) (b : Building) (alias target : Nat) : Building × Bool :=
  match b.relocated target with
  | some previous =>
    ({ b with diags := b.diags ++
        [{ decl := alias, kind := .alreadyExposedElsewhere, args := [(w.info target).name] },
         { decl := previous, kind := .previouslyExposedHere, args := [(w.info target).name] }] },
      false)
  | none =>
    ({ b with relocated := fun x => if x = target then some alias else b.relocated x
              graph := b.graph.addEdge (w.findLookupContextDecl alias) target }, true)

/-- Body of the loop over aliases, src/decl_context_graph_builder.cpp:60-74.  An
alias without target has been reported as an error before, so the failed
assertion does not occur. -/
def processAlias (w : World) (b : Building) (alias : Nat) : Building :=
  let attrs := ((b.storage.entries alias).bind (·.typedefName)).getD {}
  if !attrs.encourage && !attrs.exposeHere then b
  else match (w.info alias).aliasTarget with
  | none => { b with diags := b.diags ++ [{ decl := alias, kind := .assertion }] }
  | some target =>
    let r := b.storage.insert w.toDeclEnv target
    let b := { b with storage := r.1, diags := b.diags ++ r.2 }
    let b := if attrs.encourage
      then { b with storage := b.storage.updateNamed target fun x => { x with visible := some true } }
      else b
    if attrs.exposeHere then
      let e := addEdgeForExposeHereAlias w b alias target
      if e.2 then
        let p := propagateAnnotations w e.1.storage alias target
        { e.1 with storage := p.1, diags := e.1.diags ++ p.2 }
      else e.1
    else b

/-- Body of the loop over lookup contexts, src/decl_context_graph_builder.cpp:82-90. -/
def addContext (w : World) (relocated : Nat → Option Nat) (g : Graph) (id : Nat) : Graph :=
  if (relocated id).isSome then g else g.addEdge (w.findLookupContextDecl id) id

/-- `buildGraph`, src/decl_context_graph_builder.cpp:48-93.  The result is the
graph if no error occurred; the other components are the state of storage,
relocated declarations and diagnostics. -/
def buildGraph (w : World) (tree : Tree) : Option Graph × Building :=
  let c := traverse w {} tree
  let b : Building := { graph := .start w.unit, storage := c.storage, diags := c.diags }
  if hasErrors c.diags then (none, b)
  else
    let b := c.aliases.foldl (processAlias w) b
    if hasErrors b.diags then (none, b)
    else (some (c.lookupContexts.foldl (addContext w b.relocated) b.graph), b)

end Verif
