import Verif.Spec.Members
/-!
# Attributes of the objects of an imported module

What pybind11 and Python do when the statements of the generated code are executed, as far as
names are concerned (pybind11/pybind11.h; `cpp_function::initialize_generic`,
`class_::def`, `def_static`, `def_property...`, `enum_base::value`, `export_values`;
pybind11/detail/class.h: `pybind11_meta_setattro`):
* `def` adds an overload to the functions with this name the object has itself.  It fails if
  some of them are methods and the new one is static, or the other way round, or if the name
  refers to something else, here or in a base; the latter does not apply to names that begin
  with an underscore.
* Other attributes are replaced without notice, with two exceptions: enumerators have to be
  distinct, and an assignment to a static data member changes its value.
* `export_values` copies the enumerators to the object around the enum.

Manual bindings can do anything; they are left out, as are the attributes every module, class
or enum has from the start.
-/
namespace Verif.Spec

/-- What is defined by a statement. -/
inductive What where
  | function (isMethod : Bool) | staticData | enumerator | value
  deriving DecidableEq, Repr

/-- A statement gives an object an attribute. -/
structure Definition where
  object : List Str
  name : Str
  what : What
  stmt : Stmt
  deriving DecidableEq, Repr

/-- It is a function. -/
def Definition.isFunction (d : Definition) : Prop := ∃ m, d.what = .function m

/-- What the statement defines when it is executed for object `o`. -/
def definedBy (isClass : List Str → Bool) (o : List Str) (s : Stmt) : Option Definition :=
  match s with
  | .init .. => some ⟨o, t%"__init__", .function (isClass o), s⟩
  | .function _ isStatic name _ _ _ _ => some ⟨o, name, .function (isClass o && !isStatic), s⟩
  | .operator _ name _ _ => some ⟨o, name, .function (isClass o), s⟩
  | .stringFromLshift _ name _ => some ⟨o, name, .function (isClass o), s⟩
  | .typeAttr _ name _ => some ⟨o, name, .value, s⟩
  | .valueAttr _ name _ => some ⟨o, name, .value, s⟩
  | .property name _ _ => some ⟨o, name, .value, s⟩
  | .field _ _ isStatic name _ => some ⟨o, name, if isStatic then .staticData else .value, s⟩
  | .enumValue _ name _ _ _ => some ⟨o, name, .enumerator, s⟩
  | .implicitlyConvertible .. => none
  | .manual .. => none
  | .exportValues => none
  | .useContext => none

/-- What is copied from an enum when its values are exported, given the statements executed
before. -/
def exportedBy (before : List Execution) (e : Execution) : List Definition :=
  match e.stmt with
  | .exportValues => before.filterMap fun b => match b.stmt with
    | .enumValue _ name _ _ _ =>
      if b.object = e.object then some ⟨e.object.dropLast, name, .value, b.stmt⟩ else none
    | _ => none
  | _ => []

/-- Everything that is defined, in order. -/
def definitions (isClass : List Str → Bool) (before : List Execution) : List Execution → List Definition
  | [] => []
  | e :: l => (definedBy isClass e.object e.stmt).toList ++ exportedBy before e ++
      definitions isClass (before ++ [e]) l

/-- What an attribute refers to. -/
inductive Attribute where
  | type
  | module
  /-- overloads, in the order in which they are tried -/
  | functions (isMethod : Bool) (overloads : List Stmt)
  | data (what : What) (stmt : Stmt)
  deriving DecidableEq, Repr

/-- The attributes of all objects. -/
abbrev PyNames := List Str → Str → Option Attribute

/-- Classes, enums and submodules are attributes of the object around them. -/
def PyNames.start (types modules : List (List Str)) : PyNames := fun o n =>
  if o ++ [n] ∈ types then some .type else if o ++ [n] ∈ modules then some .module else none

/-- The object's attribute is now this. -/
def PyNames.set (names : PyNames) (o : List Str) (n : Str) (a : Attribute) : PyNames :=
  fun o' n' => if o' = o ∧ n' = n then some a else names o' n'

/-- What prevents the module from being imported, or changes the value of a C++ variable. -/
inductive NameProblem where
  /-- `ImportError`: Cannot overload existing non-function object "..." with a function of
  the same name -/
  | notAFunction (object : List Str) (name : Str)
  /-- `ImportError`: overloading a method with both static and instance methods is not supported -/
  | staticAndInstance (object : List Str) (name : Str)
  /-- `ImportError`: element "..." already exists! -/
  | enumeratorExists (object : List Str) (name : Str)
  /-- an assignment to a static data member -/
  | assigned (object : List Str) (name : Str)
  deriving DecidableEq, Repr

/-- The name begins with an underscore. -/
def isPrivateName (n : Str) : Bool := n.head? = some '_'

/-- The attribute found by `getattr`: the one of the object or else of the first base that has
it; `mro` are the bases in Python's method resolution order. -/
def PyNames.find (mro : List Str → List (List Str)) (names : PyNames) (o : List Str) (n : Str) :
    Option Attribute :=
  (o :: mro o).findSome? (names · n)

/-- Execute a definition. -/
def PyNames.define (mro : List Str → List (List Str)) (names : PyNames) (d : Definition) :
    Except NameProblem PyNames :=
  match d.what with
  | .function m =>
    match names d.object d.name with
    | some (.functions m' l) =>
      if m = m' then .ok (names.set d.object d.name (.functions m (l ++ [d.stmt])))
      else .error (.staticAndInstance d.object d.name)
    | _ =>
      match names.find mro d.object d.name with
      | some (.functions _ _) => .ok (names.set d.object d.name (.functions m [d.stmt]))
      | none => .ok (names.set d.object d.name (.functions m [d.stmt]))
      | some a =>
        if isPrivateName d.name = false then .error (.notAFunction d.object d.name)
        else match a with
          | .data .staticData _ => .error (.assigned d.object d.name)
          | _ => .ok (names.set d.object d.name (.functions m [d.stmt]))
  | .staticData => .ok (names.set d.object d.name (.data .staticData d.stmt))
  | what =>
    match names.find mro d.object d.name, names d.object d.name with
    | some (.data .staticData _), _ => .error (.assigned d.object d.name)
    | _, some (.data .enumerator _) =>
      if what = .enumerator then .error (.enumeratorExists d.object d.name)
      else .ok (names.set d.object d.name (.data what d.stmt))
    | _, _ => .ok (names.set d.object d.name (.data what d.stmt))

/-- Execute definitions one after the other. -/
def PyNames.run (mro : List Str → List (List Str)) (names : PyNames) : List Definition → Except NameProblem PyNames
  | [] => .ok names
  | d :: l =>
    match names.define mro d with
    | .ok names => names.run mro l
    | .error e => .error e

/-! ### Expectations -/

/-- No two things have the same name, except for functions. -/
structure NoClash (mro : List Str → List (List Str)) (start : PyNames) (l : List Definition) : Prop where
  /-- attributes of an object with the same name are functions, all of them static or none -/
  names : ∀ d ∈ l, ∀ d' ∈ l, d.object = d'.object → d.name = d'.name →
    d = d' ∨ ∃ m, d.what = .function m ∧ d'.what = .function m
  /-- no enumerator is defined twice -/
  enumerators : (l.filter fun d => d.what = .enumerator).Nodup
  /-- they have other names than classes, enums and submodules -/
  fresh : ∀ d ∈ l, start d.object d.name = none
  /-- functions hide nothing but functions of bases -/
  functions : ∀ d ∈ l, d.isFunction → isPrivateName d.name = false → ∀ b ∈ mro d.object,
    start b d.name = none ∧ ∀ d' ∈ l, d'.object = b → d'.name = d.name → d'.isFunction
  /-- static data members of bases are hidden by static data members only -/
  statics : ∀ d ∈ l, d.what ≠ .staticData → ∀ b ∈ mro d.object, ∀ d' ∈ l, d'.object = b →
    d'.name = d.name → d'.what ≠ .staticData

/-- All definitions of an attribute. -/
def definitionsOf (l : List Definition) (o : List Str) (n : Str) : List Definition :=
  l.filter fun d => d.object = o ∧ d.name = n

/-- The attributes one would expect: what has been there before, all functions with this name in
order, or the only thing with this name. -/
def expectedNames (start : PyNames) (l : List Definition) : PyNames := fun o n =>
  match start o n with
  | some a => some a
  | none =>
    match definitionsOf l o n with
    | [] => none
    | d :: ds => match d.what with
      | .function m => some (.functions m ((d :: ds).map (·.stmt)))
      | what => some (.data what d.stmt)

end Verif.Spec
