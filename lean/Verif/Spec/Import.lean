import Verif.Spec.Module
/-!
# Importing a generated module

What pybind11 and Python do when the generated code is compiled, linked and imported,
as far as types and scopes are concerned (pybind11/detail/class.h, pybind11/pybind11.h):
* `class_<T, Bases...>(scope, name)` and `enum_<T>(scope, name)` fail if a base has not
  been registered, if the scope already has an attribute with this name, or if `T` has
  been registered before;
* `def_submodule(name)` gives the existing submodule if there is one;
* default arguments and `getObjectForType` (public/genpybind/binding-helpers.h:20-32) use
  the types registered at the time the statement is executed.

Attributes every module or class has from the start (`__name__`, `__doc__`, ...) and
the requirement that holder types of bases and derived classes are compatible are left
out; for the latter see Spec/Holder.lean.
-/
namespace Verif.Spec

/-- What prevents a module from being imported. -/
inductive ImportProblem where
  /-- errors of the compiler -/
  | undeclaredVariable (name : Str) | redeclaredVariable (name : Str)
  /-- an error of the linker -/
  | undefinedFunction (name : Str)
  /-- `ImportError`: generic_type: type "..." referenced unknown base type "..." -/
  | unknownBase (type : Str)
  /-- `ImportError`: generic_type: cannot initialize type "...": an object with that name
  is already defined -/
  | nameTaken (type : Str)
  /-- `ImportError`: generic_type: type "..." is already registered! -/
  | alreadyRegistered (type : Str)
  /-- no exception, but a type is replaced by a submodule of the same name -/
  | replaced (path : List Str)
  deriving DecidableEq, Repr

/-- A statement that has been executed, the object it has been applied to, and the types
known at this time. -/
structure Execution where
  object : List Str
  stmt : Stmt
  known : List (Str × List Str)
  deriving DecidableEq, Repr

/-- State of the import. -/
structure Importing where
  /-- variables of the module definition and the objects they refer to -/
  vars : List (Str × List Str) := []
  /-- registered types and their objects -/
  types : List (Str × List Str) := []
  /-- submodules -/
  modules : List (List Str) := []
  executed : List Execution := []
  deriving DecidableEq, Repr

/-- Constructor of `class_` and `enum_`. -/
def Importing.createType (st : Importing) (path : List Str) (name : Str) (bases : List Str) :
    Except ImportProblem Importing :=
  if ¬ ∀ b ∈ bases, b ∈ st.types.map (·.1) then .error (.unknownBase name)
  else if path ∈ st.types.map (·.2) ∨ path ∈ st.modules then .error (.nameTaken name)
  else if name ∈ st.types.map (·.1) then .error (.alreadyRegistered name)
  else .ok { st with types := st.types ++ [(name, path)] }

/-- Evaluate an introducer; `path` is the object that results. -/
def Importing.create (st : Importing) (path : List Str) : Introducer → Except ImportProblem Importing
  | .same _ => .ok st
  | .submodule _ _ =>
    if path ∈ st.types.map (·.2) then .error (.replaced path)
    else .ok { st with modules := st.modules ++ [path] }
  | .type (.record name bases _) _ _ _ _ => st.createType path name bases
  | .type (.enum name) _ _ _ _ => st.createType path name []
  | .type .module _ _ _ _ => .ok st

/-- The statements of a function, up to the end of its definition. -/
def bodyOf : List Line → List Stmt
  | .stmt s :: l => s :: bodyOf l
  | _ => []

/-- The functions defined in a file. -/
def bodies : List Line → List (Str × List Stmt)
  | [] => []
  | .defineBegin f _ :: l => (f, bodyOf l) :: bodies l
  | _ :: l => bodies l

/-- The function with this name: there has to be exactly one in all files. -/
def linked (files : List (List Line)) (f : Str) : Option (List Stmt) :=
  match (files.flatMap bodies).filter (·.1 = f) with
  | [p] => some p.2
  | _ => none

/-- Execute a line of the module definition. -/
def Importing.line (files : List (List Line)) (st : Importing) : Line → Except ImportProblem Importing
  | .introduce x i =>
    match st.vars.lookup i.parent, st.vars.lookup x with
    | none, _ => .error (.undeclaredVariable i.parent)
    | _, some _ => .error (.redeclaredVariable x)
    | some parent, none =>
      (st.create (Introducer.object parent i) i).map fun st =>
        { st with vars := (x, Introducer.object parent i) :: st.vars }
  | .call f =>
    match st.vars.lookup f, linked files f with
    | none, _ => .error (.undeclaredVariable f)
    | _, none => .error (.undefinedFunction f)
    | some object, some body => .ok { st with
        executed := st.executed ++ body.map fun s => { object, stmt := s, known := st.types } }
  | .postamble decl lambda =>
    -- applied to `context` (src/expose.cpp:416), which here is a variable
    match st.vars.lookup t%"context" with
    | none => .error (.undeclaredVariable t%"context")
    | some object => .ok { st with
        executed := st.executed ++ [{ object, stmt := .manual decl lambda, known := st.types }] }
  | _ => .ok st

/-- Execute lines one after the other. -/
def Importing.lines (files : List (List Line)) (st : Importing) : List Line → Except ImportProblem Importing
  | [] => .ok st
  | l :: rest =>
    match st.line files l with
    | .ok st => st.lines files rest
    | .error e => .error e

/-- Import a module: the module definition is in the first file. -/
def importModule (files : List (List Line)) : Except ImportProblem Importing :=
  Importing.lines files { vars := [(t%"root", [])] } (files.headD [])

/-! ### Expectations -/

/-- The bases listed for a class. -/
def listedBases (w : EmitWorld) (s : Storage) (g : Graph) (x : Nat) : List Nat :=
  if (w.info x).kind = .record then
    emittedBases g (createFromAnnotations s (w.hierarchy x) x) (w.hierarchy x)
  else []

/-- A context is a class or enum. -/
def isTypeContext (w : EmitWorld) (x : Nat) : Bool :=
  (w.info x).kind = .record || (w.info x).kind = .enum

/-- Conditions for a module to be imported.  `place` are the objects of contexts. -/
structure Importable (w : EmitWorld) (s : Storage) (g : Graph) (order : List Nat)
    (place : Nat → List Str) : Prop where
  /-- no class or enum has the same name, in the same scope, as another one or as a submodule -/
  names : ∀ x ∈ contextsOf w order, ∀ y ∈ contextsOf w order, x ≠ y → isTypeContext w x = true →
    hasObject w s y = true → place x ≠ place y
  /-- different types are printed differently -/
  types : ∀ x ∈ contextsOf w order, ∀ y ∈ contextsOf w order, isTypeContext w x = true →
    isTypeContext w y = true → w.typeName x = w.typeName y → x = y
  /-- bases come first -/
  bases : ∀ pre x post, contextsOf w order = pre ++ x :: post → ∀ b ∈ listedBases w s g x,
    ∃ y ∈ pre, isTypeContext w y = true ∧ w.typeName y = w.typeName b

/-- The types of an imported module and their objects. -/
def typesOf (w : EmitWorld) (order : List Nat) (place : Nat → List Str) : List (Str × List Str) :=
  ((contextsOf w order).filter (isTypeContext w)).map fun x => (w.typeName x, place x)

/-- The submodules of an imported module. -/
def modulesOf (w : EmitWorld) (s : Storage) (order : List Nat) (place : Nat → List Str) : List (List Str) :=
  ((contextsOf w order).filter fun x => !isTypeContext w x && hasObject w s x).map place

/-- What is executed when the module is imported: for one context after the other, the
statements written for it, applied to its object; then the `postamble` bindings, applied
to the module.  All types are known from the start. -/
def executionsOf (w : EmitWorld) (s : Storage) (vis : Visibilities) (order : List Nat)
    (place : Nat → List Str) : List Execution :=
  ((contextsOf w order).flatMap fun x =>
    (exposeContext w vis s (Exposer.create w s x) x).emitted.stmts.map fun st =>
      { object := place x, stmt := st, known := typesOf w order place }) ++
  w.unitVars.filterMap fun v => (postambleLambda s v).map fun l =>
    { object := [], stmt := .manual v l, known := typesOf w order place }

end Verif.Spec
