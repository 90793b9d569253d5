import Verif.Basic.Text
/-!
# Printing of default arguments (src/expose.cpp, `AttemptFullQualificationPrinter`)

Expressions are given as trees of the node classes that the helper distinguishes.  All
other classes are printed by `clang::StmtPrinter` as text interleaved with its operands,
which are visited via the helper again (`Parts`).
-/
namespace Verif.DefaultArgument

/-- A declaration a name in an expression refers to, and how it is named. -/
structure Ref where
  /-- names of the enclosing scopes, as printed by `printNestedNameSpecifier` for
  declarations that do not belong to a function -/
  scopes : List Str := []
  /-- the name, empty for the field of an anonymous struct or union -/
  name : Str
  /-- parameters and local variables, e.g. of a lambda expression -/
  isLocal : Bool := false
  /-- `FieldDecl::isAnonymousStructOrUnion` -/
  isAnonymousRecord : Bool := false
  /-- whether an unqualified call of this member would be dispatched dynamically -/
  isVirtual : Bool := false
  /-- `hasTemplateKeyword` -/
  template : Bool := false
  /-- text printed for explicit template arguments -/
  arguments : Option Str := none
  deriving DecidableEq, Repr

mutual
/-- Expressions.  `type` is the result of `getFullyQualifiedName` with the prefix for the
global namespace, for the type of the expression. -/
inductive Expr where
  /-- node classes that are printed as their operand: `ImplicitCastExpr`,
  `ExprWithCleanups`, `CXXBindTemporaryExpr`, `MaterializeTemporaryExpr`,
  `CXXStdInitializerListExpr`, ... -/
  | wrapper (sub : Expr)
  /-- all other node classes -/
  | other (parts : Parts)
  /-- `InitListExpr`.  Simplified: `elements` are those of the syntactic form, if there is
  one, as this is what is printed. -/
  | initList (type : Str) (elements : Args)
  /-- `CXXConstructExpr`, but not `CXXTemporaryObjectExpr` -/
  | construct (type : Str) (list stdInitList : Bool) (args : Args)
  /-- `CXXTemporaryObjectExpr` -/
  | temporary (type : Str) (list stdInitList : Bool) (args : Args)
  /-- `CStyleCastExpr` -/
  | cStyleCast (type : Str) (sub : Expr)
  /-- `CXXNamedCastExpr`: `static_cast`, ... -/
  | namedCast (cast type : Str) (sub : Expr)
  /-- `CXXFunctionalCastExpr`; `parens` is whether `getLParenLoc` is valid -/
  | functionalCast (type : Str) (parens : Bool) (sub : Expr)
  /-- `DeclRefExpr` -/
  | declRef (ref : Ref)
  /-- `MemberExpr` -/
  | member (base : Expr) (arrow : Bool) (ref : Ref)
/-- Arguments, along with `isDefaultArgument`. -/
inductive Args where
  | nil
  | cons (arg : Expr) (isDefault : Bool) (rest : Args)
/-- Text and operands. -/
inductive Parts where
  | nil
  | text (s : Str) (rest : Parts)
  | sub (e : Expr) (rest : Parts)
end

/-- Pieces of the printed text. -/
inductive Tok where
  /-- written by `StmtPrinter` for node classes that are not distinguished -/
  | raw (s : Str)
  | text (s : Str)
  | type (s : Str)
  /-- the name of a scope, followed by `::` -/
  | scope (s : Str)
  /-- a name with its template arguments -/
  | name (s : Str) (arguments : Option Str)
  deriving DecidableEq, Repr

/-- The text of a piece. -/
def Tok.render : Tok → Str
  | .raw s | .text s | .type s => s
  | .scope s => s ++ t%"::"
  | .name s args => s ++ args.getD []

def render (ts : List Tok) : Str := ts.flatMap Tok.render

/-- `NamedDecl::printNestedNameSpecifier`: nothing is printed for declarations in
functions. -/
def Ref.printNestedNameSpecifier (r : Ref) : List Tok :=
  if r.isLocal then [] else r.scopes.map .scope

/-- Name as printed for `DeclRefExpr` and `MemberExpr`, src/expose.cpp:213-220, 243-250. -/
def Ref.print (r : Ref) : List Tok :=
  .text t%"::" :: r.printNestedNameSpecifier ++
    (if r.template then [.text t%"template "] else []) ++ [.name r.name r.arguments]

/-- What is printed, and `within_braced_initializer` afterwards. -/
abbrev Printed := List Tok × Bool

/-- The outermost braced initializer is prefixed with its type, and printed with
`within_braced_initializer` set, src/expose.cpp:106-128. -/
def prepend (within : Bool) (type : Str) (print : Bool → Printed) : Printed :=
  if within then print within else (.type type :: (print true).1, false)

/-- `os << before; print; os << after;` -/
def surround (before : List Tok) (p : Printed) (after : List Tok) : Printed :=
  (before ++ p.1 ++ after, p.2)

/-- Whether the base of a member access is the field for an anonymous struct or union,
src/expose.cpp:229-236. -/
def Expr.isAnonymousField : Expr → Bool
  | .member _ _ r => r.isAnonymousRecord
  | _ => false

mutual
/-- `StmtPrinter::Visit` with the helper, i.e. `handledStmt` (src/expose.cpp:95-254) and, if
it returns false, the corresponding method of `StmtPrinter`. -/
def Expr.visit : Expr → Bool → Printed
  | .wrapper e, w => e.visit w
  | .other ps, w => ps.visit w
  | .initList t es, w =>
    prepend w t fun w => surround [.text t%"{"] (es.visit false false w) [.text t%"}"]
  | .construct t list std args, w =>
    -- `StmtPrinter::VisitCXXConstructExpr`
    let plain := fun w =>
      if list && !std then surround [.text t%"{"] (args.visit true false w) [.text t%"}"]
      else args.visit true false w
    if list then prepend w t plain else plain w
  | .temporary t list std args, w =>
    if std then surround [.type t] (args.visit true false w) []
    else surround [.type t, .text (if list then t%"{" else t%"(")] (args.visit true false w)
      [.text (if list then t%"}" else t%")")]
  | .cStyleCast t e, w => surround [.text t%"(", .type t, .text t%")"] (e.visit w) []
  | .namedCast c t e, w =>
    surround [.text c, .text t%"<", .type t, .text t%">("] (e.visit w) [.text t%")"]
  | .functionalCast t parens e, w =>
    surround (.type t :: if parens then [.text t%"("] else []) (e.visit w)
      (if parens then [.text t%")"] else [])
  | .declRef r, w => (r.print, w)
  | .member base arrow r, w =>
    surround [] (base.visit w)
      ((if base.isAnonymousField then [] else [.text (if arrow then t%"->" else t%".")])
        ++ r.print)
/-- Comma-separated arguments; those of constructors end at the first default argument. -/
def Args.visit : Args → (stop comma : Bool) → Bool → Printed
  | .nil, _, _, w => ([], w)
  | .cons e isDefault rest, stop, comma, w =>
    if stop && isDefault then ([], w)
    else
      let p := e.visit w
      surround ((if comma then [.text t%", "] else []) ++ p.1) (rest.visit stop true p.2) []
def Parts.visit : Parts → Bool → Printed
  | .nil, w => ([], w)
  | .text s rest, w => surround [.raw s] (rest.visit w) []
  | .sub e rest, w =>
    let p := e.visit w
    surround p.1 (rest.visit p.2) []
end

/-- The default arguments of the parameters of one function are printed by the same helper,
src/expose.cpp:329-364. -/
def printDefaults : List (Option Expr) → Bool → List (Option (List Tok))
  | [], _ => []
  | none :: es, w => none :: printDefaults es w
  | some e :: es, w =>
    let p := e.visit w
    some p.1 :: printDefaults es p.2

end Verif.DefaultArgument
