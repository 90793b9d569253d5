import Verif.Spec.Success
import Verif.Spec.Signature
/-!
# Values that become Python objects when a module is imported

pybind11 converts some C++ values as soon as the statement that mentions them is executed, not
when they are used (pybind11/cast.h, pybind11/pybind11.h):
* `arg("x") = value`: default arguments of functions and constructors;
* `object.attr("x") = value`: variables of namespaces;
* `enum_::value("x", value)`: enumerators;
* `implicitly_convertible<A, B>()` looks up the Python type for `B`.

A value of class or enum type can only be converted if the type is registered, by this module or
by another one that has been imported before; otherwise an exception is raised and the import
fails.  All other statements only store pointers.  What manual bindings do is left out, and which
types a value needs is a parameter: none for numbers, strings and Python objects, `T` for a `T`
or a `std::vector<T>`.
-/
namespace Verif.Spec

/-- The types that have to be registered when a statement is executed; `needs` are those for the
value of a C++ expression. -/
def converted (needs : Str → List Str) : Stmt → List Str
  | .function _ _ _ _ _ args _ | .init _ _ _ args _ => (args.filterMap (·.default)).flatMap needs
  | .valueAttr _ _ qualified => needs qualified
  | .enumValue _ _ scope _ _ => [scope]
  | .implicitlyConvertible _ _ target => [target]
  | _ => []

/-- All values in an executed statement can be converted, given the types registered by other
modules. -/
def Converts (needs : Str → List Str) (others : List Str) (e : Execution) : Prop :=
  ∀ t ∈ converted needs e.stmt, t ∈ others ∨ t ∈ e.known.map (·.1)

/-- The module can be imported, including the conversion of values. -/
def ImportedWith (needs : Str → List Str) (others : List Str) (files : List (List Line)) : Prop :=
  ∃ st, importModule files = .ok st ∧ ∀ e ∈ st.executed, Converts needs others e

/-- A class or enum is available: it is exposed in this module or registered by another one. -/
def RegisteredType (w : EmitWorld) (s : Storage) (name : Str) (g : Graph) (others : List Str) (t : Str) : Prop :=
  t ∈ others ∨ ∃ y, Exposed w.toWorld s name g y ∧ w.typeName y = t

/-- The function or constructor becomes part of the object of context `x`. -/
def Callable (w : EmitWorld) (s : Storage) (g : Graph) (x d : Nat) : Prop :=
  Offers w s g x d ∧ ((w.info x).kind ≠ .enum ∧ FunctionIn w s x d ∨
    (w.info x).kind = .record ∧ callable w x d = true)

/-- A default argument of the function that is given by this expression. -/
def DefaultArgument (w : EmitWorld) (d : Nat) (e : Str) : Prop :=
  ∃ p ∈ paramsOf w d, p.argsType = none ∧ p.default = some e

/-- The variable becomes part of the object of context `x`. -/
def Constant (w : EmitWorld) (s : Storage) (g : Graph) (x d : Nat) : Prop :=
  (w.info x).kind ≠ .enum ∧ (w.info x).kind ≠ .record ∧ Offers w s g x d ∧ (w.info d).kind = .var ∧
    ∃ v, DataMember w s d v

end Verif.Spec
