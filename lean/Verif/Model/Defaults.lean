/-!
# Instantiation of default arguments (src/instantiate_default_arguments.cpp)

Parameters and template specializations are numbers.  What clang does is given by
`DefaultsWorld`.
-/
namespace Verif

/-- The default argument of a parameter, as told apart by `hasUnparsedDefaultArg`,
`hasUninstantiatedDefaultArg` and `getDefaultArg` of `clang::ParmVarDecl`. -/
inductive DefaultArg where
  | none | unparsed | uninstantiated
  /-- there is an expression -/
  | present
  deriving DecidableEq, Repr

/-- What is read about the function a parameter is declared in. -/
structure ParmFunction where
  /-- `isInvalidDecl` -/
  invalid : Bool := false
  /-- `getTemplateSpecializationKind() == TSK_Undeclared` -/
  undeclared : Bool := false
  deriving DecidableEq, Repr

/-- A parameter. -/
structure Parm where
  /-- the specializations that have to be listed by their template for the parameter to be
  visited: the ones that contain it -/
  needs : List Nat := []
  /-- the function, if the declaration context is one -/
  function : Option ParmFunction := some {}
  arg : DefaultArg
  /-- whether `InstantiateDefaultArgument` succeeds -/
  instantiable : Bool := true
  /-- the specializations implicitly instantiated for the expression -/
  creates : List Nat := []
  /-- other parameters whose default arguments are used, hence instantiated, by it -/
  uses : List Nat := []
  deriving DecidableEq, Repr

/-- The translation unit.  Simplified in that all parameters that can be visited, with those
of specializations that are instantiated meanwhile, are listed in the order of the traversal:
a specialization is visited with its template (`shouldVisitTemplateInstantiations`,
include/genpybind/instantiate_default_arguments.h:34), if it exists by then. -/
structure DefaultsWorld where
  order : List Nat
  parm : Nat → Parm
  /-- the specializations that exist at the beginning -/
  existing : Nat → Bool

structure DefaultsState where
  created : List Nat := []
  /-- the parameters passed to `InstantiateDefaultArgument` -/
  calls : List Nat := []
  /-- the parameters whose default argument has been instantiated -/
  instantiated : List Nat := []
  /-- those for which clang has reported errors -/
  errors : List Nat := []
  deriving DecidableEq, Repr

/-- The default argument at some point. -/
def argNow (w : DefaultsWorld) (s : DefaultsState) (p : Nat) : DefaultArg :=
  if s.instantiated.contains p then .present else (w.parm p).arg

/-- `VisitParmVarDecl`, src/instantiate_default_arguments.cpp:21-37. -/
def visitParmVarDecl (w : DefaultsWorld) (s : DefaultsState) (p : Nat) : DefaultsState :=
  if argNow w s p = .unparsed || !(argNow w s p = .uninstantiated) then s
  else match (w.parm p).function with
    | none => s
    | some f =>
      if f.invalid then s
      else if f.undeclared then s
      else if (w.parm p).instantiable then { s with
        created := s.created ++ (w.parm p).creates
        calls := s.calls ++ [p]
        instantiated := s.instantiated ++ p :: (w.parm p).uses }
      else { s with calls := s.calls ++ [p], errors := s.errors ++ [p] }

/-- A step of the traversal: the parameter is visited if it exists. -/
def stepParm (w : DefaultsWorld) (s : DefaultsState) (p : Nat) : DefaultsState :=
  if (w.parm p).needs.all (fun n => w.existing n || s.created.contains n) then visitParmVarDecl w s p
  else s

/-- `HandleTranslationUnit`, src/instantiate_default_arguments.cpp:16-19. -/
def instantiateDefaults (w : DefaultsWorld) : DefaultsState := w.order.foldl (stepParm w) {}

/-- `getDefaultArg` as called at src/expose.cpp:357: whether there is an expression.  `none` is a
failed assertion of clang (without assertions, the expression is the one of the template). -/
def getDefaultArg : DefaultArg → Option Bool
  | .none => some false
  | .present => some true
  | .unparsed | .uninstantiated => none

end Verif
