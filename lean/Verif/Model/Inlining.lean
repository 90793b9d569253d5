import Verif.Model.TopoSort
/-!
# Inlining of base classes and collection of members

src/visible_decls.cpp and `RecordExposer::emitType` (src/expose.cpp:1228-1258).
-/
namespace Verif

/-- What is read about a `clang::CXXBaseSpecifier`; `id` is the definition of the
base class. -/
structure BaseSpec where
  access : Access
  isVirtual : Bool := false
  id : Nat
  deriving DecidableEq, Repr

/-- The bases of a class, each together with its own bases: a class hierarchy is
finite and has no cycles, so this unfolding of it is finite. -/
inductive Hierarchy where
  | nil
  | cons (base : BaseSpec) (above : Hierarchy) (rest : Hierarchy)
  deriving Repr

/-- Direct bases, in order. -/
def Hierarchy.direct : Hierarchy → List BaseSpec
  | .nil => []
  | .cons b _ rest => b :: rest.direct

/-- The classes visited by `CXXRecordDecl::forallBases` (clang/AST/CXXInheritance.cpp);
there, the order is different. -/
def Hierarchy.ids : Hierarchy → List Nat
  | .nil => []
  | .cons b above rest => b.id :: (above.ids ++ rest.ids)

/-- `CXXRecordDecl::MergeAccess` (clang/AST/DeclCXX.h): what is private in a base
class is not accessible at all, otherwise the more restrictive access applies. -/
def mergeAccess (path decl : Access) : Access :=
  match path, decl with
  | _, .private => .none
  | .none, _ => .none
  | _, .none => .none
  | .private, _ => .private
  | .protected, _ => .protected
  | .public, .protected => .protected
  | .public, .public => .public

/-- `CXXBasePath::Access` (clang/lib/AST/CXXInheritance.cpp, `lookupInBases`): the
access specifier of the first step, then merged with each further one. -/
def pathAccess : List BaseSpec → Access
  | [] => .public
  | b :: p => p.foldl (fun a c => mergeAccess a c.access) b.access

/-- `CXXBasePaths::lookupInBases` (clang/lib/AST/CXXInheritance.cpp) with recording
of paths and detection of ambiguities, as done by `isDerivedFrom`: the paths to
`target`, and the virtual bases seen so far.  A virtual base that has been seen
before is not looked into again. -/
def lookupInBases (target : Nat) : Hierarchy → List Nat → List (List BaseSpec) × List Nat
  | .nil, seen => ([], seen)
  | .cons b above rest, seen =>
    let visit := !(b.isVirtual && seen.contains b.id)
    let seen := if b.isVirtual then b.id :: seen else seen
    let r := if b.id = target then ([[b]], seen)
      else if visit then
        let r := lookupInBases target above seen
        (r.1.map (b :: ·), r.2)
      else ([], seen)
    let r' := lookupInBases target rest r.2
    (r.1 ++ r'.1, r'.2)

/-- Local variables of `RecordInliningPolicy::createFromAnnotations`,
src/visible_decls.cpp:93-95. -/
structure Candidates where
  /-- top of the stack first -/
  remaining : List Nat
  inlineCandidates : List Nat := []
  hiddenBases : List Nat := []

/-- Loop over `inline_base`, src/visible_decls.cpp:104-108. -/
def addCandidate (c : Candidates) (base : Nat) : Candidates :=
  if base ∈ c.inlineCandidates then c
  else { c with inlineCandidates := c.inlineCandidates ++ [base]
                remaining := base :: c.remaining }

/-- `annotations.get<RecordDeclAttrs>(decl)`. -/
def getRecord (s : Storage) (id : Nat) : Option RecordDeclAttrs := (s.entries id).bind (·.record)

/-- The loop, src/visible_decls.cpp:99-110, for at most the given number of rounds
(see `C42_terminates`). -/
def collectCandidates (s : Storage) : Nat → Candidates → Candidates
  | 0, c => c
  | n + 1, c =>
    match c.remaining with
    | [] => c
    | decl :: remaining =>
      let c := { c with remaining }
      match getRecord s decl with
      | none => collectCandidates s n c
      | some attrs =>
        let c := { c with hiddenBases := attrs.hideBase.foldl setInsert c.hiddenBases }
        collectCandidates s n (attrs.inlineBase.foldl addCandidate c)

/-- `RecordInliningPolicy`, include/genpybind/visible_decls.h. -/
structure InliningPolicy where
  inlineBases : List Nat
  hideBases : List Nat
  deriving DecidableEq, Repr

/-- `is_valid_path`, src/visible_decls.cpp:126-129. -/
def isValidPath (hiddenBases : List Nat) (p : List BaseSpec) : Bool :=
  pathAccess p = .public && !p.any fun b => hiddenBases.contains b.id

/-- The constructor `RecordInliningPolicy::RecordInliningPolicy`,
src/visible_decls.cpp:115-147.  `h` is the hierarchy of bases of the record. -/
def InliningPolicy.make (h : Hierarchy) (inlineCandidates hiddenBases : List Nat) :
    InliningPolicy :=
  let shouldInline (b : Nat) : Bool :=
    inlineCandidates.contains b && (lookupInBases b h []).1.any (isValidPath hiddenBases)
  { hideBases := hiddenBases
    inlineBases := (h.ids.filter shouldInline).foldl setInsert [] }

/-- `RecordInliningPolicy::createFromAnnotations`, src/visible_decls.cpp:90-113.
The number of rounds suffices: see `C42_terminates`. -/
def createFromAnnotations (s : Storage) (h : Hierarchy) (record : Nat) : InliningPolicy :=
  let c := collectCandidates s (h.ids.length + 2) { remaining := [record] }
  .make h c.inlineCandidates c.hiddenBases

/-- `shouldInline`, src/visible_decls.cpp:149-153 (declarations are definitions). -/
def InliningPolicy.shouldInline (p : InliningPolicy) (id : Nat) : Bool := p.inlineBases.contains id

/-- `shouldHide`, src/visible_decls.cpp:155-159. -/
def InliningPolicy.shouldHide (p : InliningPolicy) (id : Nat) : Bool := p.hideBases.contains id

/-- `maybe_emit_bases`, src/expose.cpp:1234-1249: the bases listed as template
arguments of `pybind11::class_`.  All bases of a record are records. -/
def emittedBases (g : Graph) (p : InliningPolicy) : Hierarchy → List Nat
  | .nil => []
  | .cons b above rest =>
    (if b.access ≠ .public || p.shouldHide b.id then []
     else if p.shouldInline b.id then emittedBases g p above
     else if g.hasNode b.id then [b.id] else []) ++ emittedBases g p rest

/-- What is passed to `FoundDecl` by `Sema::LookupVisibleDecls`, and what is read
about the declaration. -/
structure Found where
  decl : Nat
  /-- the declaration that hides it -/
  hiddenBy : Option Nat := none
  inBaseClass : Bool := false
  access : Access
  /-- it is a constructor or the template of one -/
  isConstructor : Bool := false
  isDestructor : Bool := false
  /-- definition of the record it is a member of -/
  parentRecord : Option Nat := none
  /-- target if it is a `UsingShadowDecl` -/
  shadows : Option Nat := none

/-- `shouldInlineDecl`, src/visible_decls.cpp:50-63. -/
def shouldInlineDecl (policy : Option InliningPolicy) (f : Found) : Bool :=
  match policy with
  | none => false
  | some p =>
    if f.isConstructor || f.isDestructor then false
    else match f.parentRecord with
      | none => false
      | some r => p.shouldInline r

/-- `FoundDecl`, src/visible_decls.cpp:66-85: the declaration that is collected, if
any.  `hasLocation` is `getLocation().isValid()`; `isLookupContext` is
`DeclContextGraph::accepts`, src/decl_context_graph.cpp:27-30. -/
def foundDecl (w : World) (hasLocation : Nat → Bool) (policy : Option InliningPolicy)
    (f : Found) : Option Nat :=
  if f.hiddenBy.isSome || !(f.access = .public || f.access = .none) then none
  else if f.inBaseClass && !shouldInlineDecl policy f then none
  else
    let decl := f.shadows.getD f.decl
    if (w.info decl).kind.isLookupContext then none
    else if !hasLocation decl then none
    else some decl

/-- `collectVisibleDeclsFromDeclContext`, src/visible_decls.cpp:161-176, given what
name lookup finds. -/
def collectVisibleDecls (w : World) (hasLocation : Nat → Bool) (policy : Option InliningPolicy)
    (found : List Found) : List Nat := found.filterMap (foundDecl w hasLocation policy)

end Verif
