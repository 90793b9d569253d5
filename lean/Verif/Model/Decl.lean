import Verif.Model.Parser
/-!
# Declarations and diagnostics

A declaration is known by a number (its address in the code); what the generator
reads from clang about it is collected in `DeclInfo`.
-/
namespace Verif

/-- Kinds of declarations distinguished by the generator.  `method` stands for a
`CXXMethodDecl` which is none of its subclasses `constructor`, `destructor`,
`conversion`; `function` for a `FunctionDecl` which is neither of these nor a
`CXXDeductionGuideDecl`; `other` for any other named declaration. -/
inductive DeclKind where
  | translationUnit | linkageSpec
  | namespace | enum | record | typedefName
  | field | var
  | function | method | constructor | destructor | conversion | deductionGuide
  | enumConstant | other
  deriving DecidableEq, Repr

/-- `llvm::isa<clang::FunctionDecl>`. -/
def DeclKind.isFunction : DeclKind → Bool
  | .function | .method | .constructor | .destructor | .conversion | .deductionGuide => true
  | _ => false

/-- `llvm::isa<clang::CXXMethodDecl>`. -/
def DeclKind.isMethod : DeclKind → Bool
  | .method | .constructor | .destructor | .conversion => true
  | _ => false

/-- `llvm::isa<clang::TagDecl>` (only C++ is processed, so all records are
`CXXRecordDecl`s). -/
def DeclKind.isTag : DeclKind → Bool
  | .enum | .record => true
  | _ => false

/-- `clang::OverloadedOperatorKind` (clang/Basic/OperatorKinds.def), without
`OO_None`. -/
inductive OperatorKind where
  | new | delete | arrayNew | arrayDelete
  | plus | minus | star | slash | percent | caret | amp | pipe | tilde | exclaim
  | equal | less | greater
  | plusEqual | minusEqual | starEqual | slashEqual | percentEqual | caretEqual
  | ampEqual | pipeEqual
  | lessLess | greaterGreater | lessLessEqual | greaterGreaterEqual
  | equalEqual | exclaimEqual | lessEqual | greaterEqual | spaceship
  | ampAmp | pipePipe | plusPlus | minusMinus | comma | arrowStar | arrow
  | call | subscript | conditional | coawait
  deriving DecidableEq, Repr

/-- What `manual_bindings_expr` inspects of a variable's initializer,
src/annotated_decl.cpp:826-845. -/
structure LambdaInit where
  id : Nat
  hasExplicitParameters : Bool
  numParams : Nat
  paramIsLValueReference : Bool
  paramIsUndeducedAuto : Bool
  deriving DecidableEq, Repr

/-- `clang::AccessSpecifier`. -/
inductive Access where
  | «public» | «protected» | «private» | none
  deriving DecidableEq, Repr

/-- What annotation processing reads about a declaration. -/
structure DeclInfo where
  kind : DeclKind
  /-- name as printed by clang -/
  name : Str := []
  /-- `DeclarationName::isIdentifier` -/
  nameIsIdentifier : Bool := true
  /-- printed template argument list of a class template specialization -/
  templateArgs : Option Str := .none
  /-- texts of all `annotate` attributes, in order -/
  attrTexts : List Str := []
  /-- `getOverloadedOperator` (functions only) -/
  operator : Option OperatorKind := .none
  /-- parameter names -/
  params : List Str := []
  /-- `getMinRequiredArguments` -/
  minRequired : Nat := 0
  /-- return type is `void` -/
  returnsVoid : Bool := false
  /-- `isConvertingConstructor(/*AllowExplicit=*/true)` -/
  converting : Bool := false
  /-- definitions of the direct bases, in order -/
  bases : List Nat := []
  /-- definitions of all bases in the order visited by `forallBases` -/
  allBases : List Nat := []
  /-- the initializer if it is a lambda -/
  lambda : Option LambdaInit := .none
  /-- semantic parent is the translation unit -/
  inTranslationUnit : Bool := false
  /-- definition of the aliased tag type, if there is one -/
  aliasTarget : Option Nat := .none
  /-- the aliased type has qualifiers -/
  aliasQualified : Bool := false
  /-- `isCompleteDefinition` of a tag -/
  complete : Bool := true
  /-- `isDependentType` of a tag -/
  dependent : Bool := false
  /-- `isStdNamespace` -/
  isStd : Bool := false
  deriving Repr

/-- The declarations of a translation unit. -/
structure DeclEnv where
  info : Nat → DeclInfo
  /-- `HasNameMatcher(names).matchesNode(decl)` for the types named by
  `hide_base` and `inline_base` (clang/ASTMatchers); left uninterpreted -/
  hasName : List Str → Nat → Bool

/-- `Diagnostics::Kind`, include/genpybind/diagnostics.h:22-43, the parse errors
of include/genpybind/annotations/parser.h:51-78, and `assertion`, which is not a
diagnostic of the code but marks a failed `assert` (e.g. reading a literal value
as something it is not). -/
inductive DiagKind where
  | alreadyExposedElsewhere | unknownBaseType | incompatibleSignature
  | invalidArgumentSpecifier | invalidForDeclKind | invalidSpelling
  | wrongArgumentType | wrongNumberOfArguments | needToMatchFirstDecl
  | conflictingAnnotations | exposeHereCycle | invalidAssumption
  | ignoringQualifiers | onlyGlobalScope | previouslyExposedHere
  | propertyAlreadyDefined | propertyHasNoGetter | trailingParameters
  | unreachableDeclContext | unsupportedAliasTarget
  | noteDeclaredAt | notePreviousDefinition
  | parseError (e : ParseErrorKind)
  | assertion
  deriving DecidableEq, Repr

/-- Severities, src/diagnostics.cpp:31-107 (`getCustomDiagID`); parse errors are
errors, src/annotations/parser.cpp:234-255. -/
def DiagKind.isError : DiagKind → Bool
  | .unknownBaseType | .invalidAssumption | .ignoringQualifiers | .unreachableDeclContext => false
  | .previouslyExposedHere | .noteDeclaredAt | .notePreviousDefinition => false
  | _ => true

/-- A reported diagnostic: the declaration it is attached to, its kind and its
arguments. -/
structure Diag where
  decl : Nat
  kind : DiagKind
  args : List Str := []
  deriving DecidableEq, Repr

/-- `Diag` of severity error: what a `clang::DiagnosticErrorTrap` notices. -/
def Diag.isError (d : Diag) : Bool := d.kind.isError

/-- `DiagnosticErrorTrap::hasErrorOccurred` for the diagnostics reported since
the trap was set. -/
def hasErrors (ds : List Diag) : Bool := ds.any Diag.isError

end Verif
