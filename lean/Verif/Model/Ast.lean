import Verif.Model.Storage
/-!
# The translation unit as seen by the generator
-/
namespace Verif

/-- What is read about a translation unit beyond `DeclEnv`.  All of this comes
from clang. -/
structure World extends DeclEnv where
  /-- the chain of declaration contexts around a declaration: `getDeclContext`,
  its `getParent`, ..., up to the translation unit -/
  ancestors : Nat → List Nat
  /-- `getCanonicalDecl` of a namespace -/
  canonical : Nat → Nat
  /-- `getAccess` -/
  access : Nat → Access
  /-- position of `getLocation` in the translation unit; different declarations
  can have the same (template specializations, macros) -/
  loc : Nat → Nat
  /-- `getDeclContext()->isDependentContext()` -/
  dependentContext : Nat → Bool
  /-- the translation unit -/
  unit : Nat

/-- `DeclContext::isLookupContext` (clang/AST/DeclBase.h): neither a function nor
a linkage specification. -/
def DeclKind.isLookupContext : DeclKind → Bool
  | .translationUnit | .namespace | .enum | .record => true
  | _ => false

/-- `llvm::isa<clang::NamedDecl>`. -/
def DeclKind.isNamed : DeclKind → Bool
  | .translationUnit | .linkageSpec => false
  | _ => true

/-- `findLookupContextDecl(decl->getDeclContext())`,
src/decl_context_graph_builder.cpp:21-26.  Every declaration but the translation
unit is inside of the latter, so the null result does not occur there; it is
represented by the translation unit here. -/
def World.findLookupContextDecl (w : World) (id : Nat) : Nat :=
  ((w.ancestors id).find? fun p => (w.info p).kind.isLookupContext).getD w.unit

/-- The declarations in the order in which `clang::RecursiveASTVisitor` visits
them: the children of a node are its lexical children, for templates also their
specializations; implicit declarations, statements and types are left out
(lookup_context_collector.h:52-60). -/
inductive Tree where
  | node (id : Nat) (children : List Tree)

/-- Identity of the root declaration of a tree. -/
def Tree.id : Tree → Nat
  | .node id _ => id

end Verif
