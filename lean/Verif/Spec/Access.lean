import Verif.Spec.Evaluate
import Verif.Spec.Contents
import Verif.Spec.Success
/-!
# Attributes of objects in Python: reading, assigning, hashing

pybind11 implements data members and properties as descriptors of the class: reading an attribute of an object
calls the getter found in its class or the first of its bases that has an attribute with this name, assigning to it
calls the setter and raises `AttributeError` if there is none.  `py::module_::attr(...) = value` copies a value when
the module is imported.
-/
namespace Verif.Spec

/-- What is reached in C++. -/
inductive Target where
  /-- a data member of the object -/
  | member (d : Nat)
  /-- a static data member -/
  | shared (d : Nat)
  /-- a method that is called for the object -/
  | method (p : FnPtr)
  /-- the type or the value a variable had when the module was imported -/
  | copied (d : Nat) (cpp : Str)
  deriving DecidableEq, Repr

/-- What is read if this statement has defined the attribute. -/
def readFrom : Stmt → Option Target
  | .property _ getter _ => some (.method getter)
  | .field d _ isStatic _ _ => some (if isStatic then .shared d else .member d)
  | .typeAttr d _ t => some (.copied d t)
  | .valueAttr d _ q => some (.copied d q)
  | _ => none

/-- What is assigned to if this statement has defined the attribute. -/
def assignTo : Stmt → Option Target
  | .property _ _ (some setter) => some (.method setter)
  | .field d false isStatic _ _ => some (if isStatic then .shared d else .member d)
  | _ => none

/-- What is reached through the attribute of an instance of class (or of module) `c`. -/
def PyNames.reach (mro : List Str → List (List Str)) (names : PyNames) (how : Stmt → Option Target)
    (c : List Str) (n : Str) : Option Target :=
  match names.find mro c n with
  | some (.data _ s) => how s
  | _ => none

/-! ### Expectations -/

/-- Reading attribute `n` of something with the contents of context `x` is meant to give this. -/
def ReadsFrom (w : EmitWorld) (s : Storage) (g : Graph) (x : Nat) (n : Str) : Target → Prop
  | .member d => (w.info x).kind = .record ∧ Offers w s g x d ∧ (∃ v, DataMember w s d v) ∧
      (w.info d).kind ≠ .var ∧ n = pythonName w s d
  | .shared d => (w.info x).kind = .record ∧ Offers w s g x d ∧ (∃ v, DataMember w s d v) ∧
      (w.info d).kind = .var ∧ n = pythonName w s d
  | .method p => (w.info x).kind = .record ∧ ∃ d, GetterIn w s g x n d ∧ p = emitFunctionPointer w d
  | .copied d cpp => (w.info x).kind ≠ .enum ∧ Offers w s g x d ∧
      (AliasFor w s d cpp ∨ (w.info x).kind ≠ .record ∧ (w.info d).kind = .var ∧ cpp = w.qualifiedName d ∧
        ∃ v, DataMember w s d v) ∧ n = pythonName w s d

/-- Assigning to attribute `n` is meant to reach this: a data member that is neither constant nor annotated as
read-only, or the setter of a property. -/
def AssignsTo (w : EmitWorld) (s : Storage) (g : Graph) (x : Nat) (n : Str) : Target → Prop
  | .member d => (w.info x).kind = .record ∧ Offers w s g x d ∧
      (∃ v, DataMember w s d v ∧ v.readonly = false) ∧ w.isConstType d = false ∧
      (w.info d).kind ≠ .var ∧ n = pythonName w s d
  | .shared d => (w.info x).kind = .record ∧ Offers w s g x d ∧
      (∃ v, DataMember w s d v ∧ v.readonly = false) ∧ w.isConstType d = false ∧
      (w.info d).kind = .var ∧ n = pythonName w s d
  | .method p => (w.info x).kind = .record ∧ (∃ d, GetterIn w s g x n d) ∧
      ∃ d, SetterIn w s g x n d ∧ p = emitFunctionPointer w d
  | .copied .. => False

/-! ### Hashing

`py::class_::def("__eq__", ...)` sets `__hash__` to `None` unless the class itself has got one. -/

/-- How objects are hashed. -/
inductive Hashing where
  /-- by a method of this class -/
  | method (object : List Str)
  /-- `TypeError` is raised -/
  | unhashable
  /-- like `object.__hash__` -/
  | identity
  deriving DecidableEq, Repr

/-- What `__hash__` of this class is, if it has got one. -/
def PyNames.ownHash (names : PyNames) (o : List Str) : Option Hashing :=
  if (names o t%"__hash__").isSome then some (.method o)
  else match names o t%"__eq__" with
    | some (.functions true _) => some .unhashable
    | _ => none

/-- How instances of class `c` are hashed. -/
def PyNames.hashing (mro : List Str → List (List Str)) (names : PyNames) (c : List Str) : Hashing :=
  ((c :: mro c).findSome? names.ownHash).getD .identity

end Verif.Spec
