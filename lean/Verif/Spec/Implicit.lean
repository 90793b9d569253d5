import Verif.Spec.Call
import Verif.Spec.Contents
/-!
# Implicit conversions of arguments

What pybind11 does with a value that is not an instance of the class a parameter has
(pybind11/pybind11.h: `implicitly_convertible`; pybind11/detail/type_caster_base.h: `load_impl`): if conversions
are allowed, the ones registered for the class are tried in order.  `implicitly_convertible<A, B>()`
applies if the value can be loaded as an `A` without conversions, and then calls the class in
Python with this value.  All of its constructors take part in this call, not only the one the
conversion has been registered for.

A conversion is not used while it is in use already; this never matters below, because the call
needs no conversions.
-/
namespace Verif.Spec

/-- The conversions registered while the code for this object is executed, in order, as the
constructors they have been registered for. -/
def conversionsOf (object : List Str) (executed : List Execution) : List Nat :=
  executed.filterMap fun e => if e.object = object then (conversionOf e.stmt).map (·.1) else none

/-- The constructor that is called to convert a value and the values of its arguments, for a class with
these constructors and conversions; `self` is the new object.  The type named by a conversion is
that of the parameter of its constructor. -/
def convertValue {V : Type} (P : PyValues V) (constructors : List Stmt) (conversions : List Nat) (self v : V) :
    Option (Nat × List V) :=
  conversions.findSome? fun c =>
    if P.loads c (some 0) false v then
      dispatch P (constructors.filterMap (pyFunction P true)) [self, v] []
    else none

/-! ### Expectations -/

/-- A constructor annotated with `implicit_conversion` that is available for the class exposed as this
object. -/
def ConvertingFor (i : ToolInput) (name : Str) (g : Graph) (b : Building) (place : Nat → List Str)
    (object : List Str) (c : Nat) : Prop :=
  ∃ x, Fills i.world.toWorld b.storage i.members name g place x object ∧ (i.world.info x).kind = .record ∧
    Offers i.world b.storage g x c ∧ callable i.world x c = true ∧
    convertsImplicitly i.world b.storage c = true

/-- The constructor takes this value alone, without conversions. -/
def TakesDirectly {V : Type} (P : PyValues V) (w : EmitWorld) (v : V) (d : Nat) : Prop :=
  ∃ given, Matches P w false [v] [] d given

end Verif.Spec
