import Verif.Model.Ast
/-!
# `LookupContextCollector` (include/genpybind/lookup_context_collector.h, src/lookup_context_collector.cpp)
-/
namespace Verif

/-- State of the collector, together with the annotation storage it updates and
the diagnostics reported. -/
structure Collected where
  storage : Storage := .empty
  /-- `first_decls`: canonical declaration to first relevant one -/
  firstDecls : Nat → Option Nat := fun _ => none
  lookupContexts : List Nat := []
  aliases : List Nat := []
  diags : List Diag := []

/-- `VisitNamedDecl`, lookup_context_collector.h:79-87. -/
def visitNamedDecl (w : World) (c : Collected) (id : Nat) : Collected :=
  let d := w.info id
  if (d.kind.isTag && shouldSkip d) || w.dependentContext id || !hasAnnotations d then c
  else
    let r := c.storage.insert w.toDeclEnv id
    { c with storage := r.1, diags := c.diags ++ r.2 }

/-- `warnIfAliasHasQualifiers`, src/lookup_context_collector.cpp:16-22. -/
def warnIfAliasHasQualifiers (w : World) (id : Nat) : List Diag :=
  if (w.info id).aliasQualified then [{ decl := id, kind := .ignoringQualifiers }] else []

/-- `VisitTypedefNameDecl`, lookup_context_collector.h:93-100. -/
def visitTypedefNameDecl (w : World) (c : Collected) (id : Nat) : Collected :=
  if !hasAnnotations (w.info id) || w.dependentContext id then c
  else { c with diags := c.diags ++ warnIfAliasHasQualifiers w id, aliases := c.aliases ++ [id] }

/-- `VisitNamespaceDecl` and `VisitTagDecl`, lookup_context_collector.h:118-130. -/
def visitContext (w : World) (c : Collected) (id : Nat) : Collected :=
  if shouldSkip (w.info id) then c
  else { c with lookupContexts := c.lookupContexts ++ [id] }

/-- The `Visit...` functions called for one declaration
(`RecursiveASTVisitor::WalkUpFrom...`: base classes first). -/
def visitDecl (w : World) (c : Collected) (id : Nat) : Collected :=
  let k := (w.info id).kind
  let c := if k.isNamed then visitNamedDecl w c id else c
  if k = .typedefName then visitTypedefNameDecl w c id
  else if k.isTag || k = .namespace then visitContext w c id
  else c

/-- `errorIfAnnotationsDoNotMatchFirstDecl`, src/lookup_context_collector.cpp:24-37. -/
def errorIfAnnotationsDoNotMatchFirstDecl (w : World) (c : Collected) (id : Nat) : Collected :=
  match c.firstDecls (w.canonical id) with
  | none =>
    { c with firstDecls := fun x => if x = w.canonical id then some id else c.firstDecls x }
  | some first =>
    if c.storage.equal id first then c
    else { c with diags := c.diags ++
      [{ decl := id, kind := .needToMatchFirstDecl }, { decl := first, kind := .noteDeclaredAt }] }

mutual
/-- `TraverseDecl`, with `TraverseNamespaceDecl`, lookup_context_collector.h:102-116. -/
def traverse (w : World) (c : Collected) : Tree → Collected
  | .node id children =>
    if (w.info id).kind = .namespace then
      if shouldSkip (w.info id) then c
      else
        let before := c.storage.size
        let c' := traverseAll w (visitDecl w c id) children
        if c'.storage.size ≠ before then errorIfAnnotationsDoNotMatchFirstDecl w c' id else c'
    else traverseAll w (visitDecl w c id) children
/-- Children in order. -/
def traverseAll (w : World) (c : Collected) : List Tree → Collected
  | [] => c
  | t :: ts => traverseAll w (traverse w c t) ts
end

end Verif
