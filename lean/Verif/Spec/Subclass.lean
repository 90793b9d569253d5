import Verif.Spec.Run
import Verif.Spec.Members
/-!
# Subclasses in Python and in C++
-/
namespace Verif.Spec

/-- The direct bases of classes. -/
def directBases (w : EmitWorld) : BaseSpecs := fun x => (w.hierarchy x).direct

/-- What C++ ensures about classes: hierarchies are finite, and only classes have bases, which
are classes as well.  Annotations are compared with all direct and indirect bases. -/
structure ClassesOK (w : EmitWorld) : Prop where
  unfolds : ∀ x, Unfolds (directBases w) (w.hierarchy x) (directBases w x)
  records : ∀ x, ∀ b ∈ directBases w x, (w.info x).kind = .record ∧ (w.info b.id).kind = .record
  all : ∀ x, ∀ c ∈ (w.info x).allBases, ∃ p, InheritancePath (directBases w) x p ∧ LeadsTo p c

/-- `x` derives from `y`, directly or indirectly, and users of `x` know about it: all steps are
public.  Conversions from `x &` to `y &` are allowed everywhere (C++17, 14.2 [class.access.base]). -/
def PubliclyDerived (w : EmitWorld) (x y : Nat) : Prop :=
  ∃ p, InheritancePath (directBases w) x p ∧ LeadsTo p y ∧ ∀ b ∈ p, b.access = .public

/-- `pybind11::class_<T, ..., U, ...>` is instantiated: the Python class for `T` has the one for
`U` as a base. -/
def CreatedWith (lines : List Line) (T U : Str) : Prop :=
  ∃ x bases holder parent name doc flag,
    Line.introduce x (.type (.record T bases holder) parent name doc flag) ∈ lines ∧ U ∈ bases

/-- `issubclass(T, U)` for the classes of an imported module: bases, their bases, and so on. -/
inductive IsSubclass (lines : List Line) (T : Str) : Str → Prop where
  | refl : IsSubclass lines T T
  | step {U V : Str} : IsSubclass lines T U → CreatedWith lines U V → IsSubclass lines T V

/-- If `z` is exposed, its base `c` can be used: it is not hidden from `z`, and is exposed itself
or inlined into `z`. -/
def Unobstructed (w : EmitWorld) (s : Storage) (exposed : Nat → Prop) (z c : Nat) : Prop :=
  exposed z → ¬ HiddenBase s z c ∧ (exposed c ∨ InlinedInto w s z c)

/-- There is a public path from `x` to `y` along which no class is missing or hidden from those
before, and `y` itself is not to be inlined. -/
def Connected (w : EmitWorld) (s : Storage) (exposed : Nat → Prop) (x y : Nat) : Prop :=
  ∃ p, InheritancePath (directBases w) x p ∧ LeadsTo p y ∧ (∀ b ∈ p, b.access = .public) ∧
    (x :: p.map (·.id)).Pairwise (Unobstructed w s exposed) ∧ ∀ z ∈ x :: p.map (·.id), ¬ NamedForInlining s z y

end Verif.Spec
