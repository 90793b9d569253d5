import Verif.Model.Dfs
/-!
# Analyses of the declaration context graph (src/decl_context_graph_processing.cpp)

`DenseMap`s keyed by declaration contexts are functions to `Option`, sets of
declaration contexts functions to `Bool`.  Where such a container is iterated,
the order is a parameter.
-/
namespace Verif

/-- `EffectiveVisibilityMap`. -/
abbrev Visibilities := Nat → Option Bool

/-- `EnclosingScopeMap`; the inner option is the null pointer. -/
abbrev EnclosingScopes := Nat → Option (Option Nat)

/-- `map[id] = v`. -/
def assign {α : Type} (m : Nat → Option α) (id : Nat) (v : α) : Nat → Option α :=
  fun x => if x = id then some v else m x

/-- `annotations.get<NamedDeclAttrs>(llvm::dyn_cast<clang::NamedDecl>(decl))`: there
are no attributes for the null pointer. -/
def getNamed (w : World) (s : Storage) (id : Nat) : Option NamedDeclAttrs :=
  if (w.info id).kind.isNamed then (s.entries id).map (·.named) else none

/-- `annotations.get<NamespaceDeclAttrs>(...)`. -/
def getNamespace (w : World) (s : Storage) (id : Nat) : Option NamespaceDeclAttrs :=
  if (w.info id).kind.isNamed then (s.entries id).bind (·.namespace_) else none

/-- `is_transparent`, src/decl_context_graph_processing.cpp:67-72. -/
def isTransparent (w : World) (s : Storage) (id : Nat) : Bool :=
  match getNamespace w s id with
  | some attrs => !attrs.module
  | none => false

/-- `findEnclosingScopes`, src/decl_context_graph_processing.cpp:46-84. -/
def findEnclosingScopes (w : World) (s : Storage) (g : Graph) : EnclosingScopes :=
  dfs g {
    enter := fun parent id (result : EnclosingScopes) =>
      match parent with
      | none => assign result id none
      | some p =>
        if isTransparent w s p then assign result id ((result p).getD none)
        else assign result id (some p) } fun _ => none

/-- Body of the loop of `deriveEffectiveVisibility`,
src/decl_context_graph_processing.cpp:94-127, given the visibility of the parent. -/
def effectiveVisibility (w : World) (s : Storage) (parent : Option Bool) (id : Nat) : Bool :=
  let isVisible := parent.getD false
  let isVisible := match w.access id with
    | .protected => false
    | .private => false
    | .public => isVisible
    | .none => isVisible
  match getNamed w s id with
  | some attrs => attrs.visible.getD isVisible
  | none => isVisible

/-- `deriveEffectiveVisibility`, src/decl_context_graph_processing.cpp:86-130. -/
def deriveEffectiveVisibility (w : World) (s : Storage) (g : Graph) : Visibilities :=
  dfs g {
    enter := fun parent id (result : Visibilities) =>
      assign result id (effectiveVisibility w s (parent.bind result) id) } fun _ => none

/-- `reachableDeclContexts`, src/decl_context_graph_processing.cpp:132-139. -/
def reachableDeclContexts (vis : Visibilities) : Nat → Bool := fun x => (vis x).isSome

/-- Insert a declaration before the first one that is not before it. -/
def insertDecl (w : World) (x : Nat) : List Nat → List Nat
  | [] => [x]
  | y :: l => if w.loc x ≤ w.loc y then x :: y :: l else y :: insertDecl w x l

/-- `llvm::sort(..., IsBeforeInTranslationUnit)`, src/sort_decls.cpp:13-26.  Any
sorting algorithm gives the same result if locations differ.  The order of
declarations at the same location is unspecified; here they keep theirs. -/
def sortDecls (w : World) (l : List Nat) : List Nat := l.foldr (insertDecl w) []

/-- The aliases `reportExposeHereCycles` reports,
src/decl_context_graph_processing.cpp:141-166, if the nodes are iterated in
order `nodes`. -/
def cycleAliases (w : World) (nodes : List Nat) (reachable : Nat → Bool)
    (relocated : Nat → Option Nat) : List Nat :=
  sortDecls w (nodes.filterMap fun id => if reachable id then none else relocated id)

/-- `reportExposeHereCycles`: whether to stop, and the diagnostics. -/
def reportExposeHereCycles (w : World) (nodes : List Nat) (reachable : Nat → Bool)
    (relocated : Nat → Option Nat) : Bool × List Diag :=
  let l := cycleAliases w nodes reachable relocated
  (!l.isEmpty, l.map fun a => { decl := a, kind := .exposeHereCycle })

/-- The (non-inherited) members of contexts. -/
structure Members where
  /-- `collectVisibleDeclsFromDeclContext(sema, context)` -/
  decls : Nat → List Nat
  /-- `isImplicit` -/
  isImplicit : Nat → Bool

/-- `is_hidden_tag_decl`, src/decl_context_graph_processing.cpp:174-182. -/
def isHiddenTag (w : World) (vis : Visibilities) (id : Nat) : Bool :=
  (w.info id).kind.isTag && !(vis id).getD false

/-- `contains_visible_named_decls`, src/decl_context_graph_processing.cpp:194-241. -/
def containsVisibleNamedDecls (w : World) (s : Storage) (m : Members) (vis : Visibilities)
    (g : Graph) (id : Nat) : Bool :=
  ((g.children id).any fun c => (w.info c).kind.isTag && (vis c).getD false) ||
  ((m.decls id).any fun d => !m.isImplicit d &&
    match (s.entries d).bind (·.named.visible) with
    | some b => b
    | none => (vis id).getD false)

/-- `declContextsWithVisibleNamedDecls`, src/decl_context_graph_processing.cpp:168-254. -/
def declContextsWithVisibleNamedDecls (w : World) (s : Storage) (m : Members)
    (vis : Visibilities) (g : Graph) : Nat → Bool :=
  dfs g {
    completed := fun id (result : Nat → Bool) =>
      if ((g.children id).any fun c => result c && !isHiddenTag w vis c) ||
          containsVisibleNamedDecls w s m vis g id
      then fun x => if x = id then true else result x else result } fun _ => false

/-- `is_namespace_for_different_module`, src/decl_context_graph_processing.cpp:296-305. -/
def isNamespaceForDifferentModule (w : World) (s : Storage) (moduleName : Str) (id : Nat) : Bool :=
  (w.info id).kind = .namespace &&
  match getNamespace w s id with
  | some attrs => !attrs.onlyExposeIn.isEmpty && !attrs.onlyExposeIn.any (· = moduleName)
  | none => false

/-- State of the loop of `hideNamespacesBasedOnExposeInAnnotation`. -/
structure Hiding where
  dominator : Option Nat := none
  contexts : Nat → Bool
  vis : Visibilities

/-- `hideNamespacesBasedOnExposeInAnnotation`, src/decl_context_graph_processing.cpp:256-315. -/
def hideNamespaces (w : World) (s : Storage) (moduleName : Str) (g : Graph)
    (contexts : Nat → Bool) (vis : Visibilities) : (Nat → Bool) × Visibilities :=
  let r := dfs g {
    enter := fun _ id (h : Hiding) =>
      if h.dominator.isNone && !isNamespaceForDifferentModule w s moduleName id then h
      else { dominator := if h.dominator.isNone then some id else h.dominator
             contexts := fun x => if x = id then false else h.contexts x
             vis := assign h.vis id false }
    completed := fun id h => if h.dominator = some id then { h with dominator := none } else h }
    { contexts, vis }
  (r.contexts, r.vis)

/-- `should_be_preserved`, src/decl_context_graph_processing.cpp:333-336. -/
def shouldBePreserved (w : World) (contexts : Nat → Bool) (vis : Visibilities) (id : Nat) : Bool :=
  if (w.info id).kind.isTag then (vis id).getD false else contexts id

/-- `pruneGraph`, src/decl_context_graph_processing.cpp:317-351. -/
def pruneGraph (w : World) (g : Graph) (contexts : Nat → Bool) (vis : Visibilities) : Graph :=
  dfs g {
    skip := fun id => !shouldBePreserved w contexts vis id
    enter := fun parent id (pruned : Graph) =>
      if shouldBePreserved w contexts vis id then
        match parent with
        | some p => ((pruned.getOrInsertNode id).getOrInsertNode p).addEdge p id
        | none => pruned
      else pruned } (.start g.root)

/-- `reportUnreachableVisibleDeclContexts`, src/decl_context_graph_processing.cpp:353-376,
if the set of contexts is iterated in order `contexts`. -/
def reportUnreachable (w : World) (g : Graph) (contexts : List Nat)
    (relocated : Nat → Option Nat) : List Diag :=
  let l := contexts.filterMap fun id =>
    if !(w.info id).kind.isNamed || g.hasNode id then none else some ((relocated id).getD id)
  (sortDecls w l).map fun d => { decl := d, kind := .unreachableDeclContext }

/-- Results of the analyses. -/
structure Analysis where
  vis : Visibilities
  contexts : Nat → Bool
  pruned : Graph

/-- The analyses in `GenpybindASTConsumer::HandleTranslationUnit`,
src/tool.cpp:216-233, after the check for cycles. -/
def analyze (w : World) (s : Storage) (m : Members) (moduleName : Str) (g : Graph) : Analysis :=
  let vis := deriveEffectiveVisibility w s g
  let h := hideNamespaces w s moduleName g (declContextsWithVisibleNamedDecls w s m vis g) vis
  { vis := h.2, contexts := h.1, pruned := pruneGraph w g h.1 h.2 }

end Verif
