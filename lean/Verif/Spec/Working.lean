import Verif.Spec.Holder
import Verif.Spec.Mro
import Verif.Spec.Convert
import Verif.Spec.Distinct
import Verif.Spec.Subclass
/-!
# Modules that can be imported

Everything that can go wrong when a generated module is compiled, linked and imported, as far as it is
described by C61, C73, C97, C98 and C99: identifiers that are used twice, names that are taken, types that
are registered twice, bases that are not known yet, holders that do not fit, classes without a method
resolution order, values that cannot be converted, and attributes that replace each other.
-/
namespace Verif.Spec

/-- The module can be imported, up to the names of attributes: `st` is the result and `mros` are the
method resolution orders. -/
structure Starts (custom : Str → Bool) (needs : Str → List Str) (others : List Str) (files : List (List Line))
    (st : Importing) (mros : List (Str × List Str)) : Prop where
  imported : importModule files = .ok st
  holders : HoldersFit custom [] (files.headD [])
  orders : mrosOf files = some mros
  values : ∀ e ∈ st.executed, Converts needs others e

/-- The module can be imported, and nothing is lost: `names` are the attributes of all objects. -/
structure Works (custom : Str → Bool) (needs : Str → List Str) (others : List Str) (files : List (List Line))
    (st : Importing) (mros : List (Str × List Str)) (names : PyNames) : Prop
    extends Starts custom needs others files st mros where
  attributes : PyNames.run (mroAt st.types mros) (.start (st.types.map (·.2)) st.modules)
    (definitions (fun o => decide (o ∈ st.types.map (·.2))) [] st.executed) = .ok names

/-- Holders fit: a class has a custom one exactly if the bases listed for it have. -/
def UniformHolders (custom : Str → Bool) (i : ToolInput) (s : Storage) (name : Str) (g p : Graph) : Prop :=
  ∀ x y, Exposed i.world.toWorld s name g x →
    ExposedBase s (directBases i.world) p (InlinedInto i.world s x) x y →
    (CustomHolder custom i.world x ↔ CustomHolder custom i.world y)

/-- All types needed by default arguments and constants are available. -/
def ValuesAvailable (needs : Str → List Str) (others : List Str) (i : ToolInput) (s : Storage) (name : Str)
    (g : Graph) (place : Nat → List Str) : Prop :=
  ∀ x object, Fills i.world.toWorld s i.members name g place x object →
    (∀ d e, Callable i.world s g x d → DefaultArgument i.world d e →
      ∀ t ∈ needs e, RegisteredType i.world s name g others t) ∧
    ∀ d, Constant i.world s g x d →
      ∀ t ∈ needs (i.world.qualifiedName d), RegisteredType i.world s name g others t

/-- The identifier of a context, before numbers are added. -/
def identifierBase (w : EmitWorld) (x : Nat) : Str := (contextLabel w x).baseName.getD []

/-- Conditions on the source code.  `p` are the contexts that are part of the module, and `place` tells
the object for each of them. -/
structure Fit (custom : Str → Bool) (needs : Str → List Str) (others : List Str) (i : ToolInput) (s : Storage)
    (name : Str) (g p : Graph) (place : Nat → List Str) : Prop where
  /-- no identifier is another one followed by a number, as in `A` and `A_2` -/
  identifiers : ∀ x ∈ p.nodes, ∀ y ∈ p.nodes, ∀ k, 2 ≤ k →
    identifierBase i.world y ≠ identifierBase i.world x ++ '_' :: printNat k
  /-- no class or enum has the same name, in the same scope, as another one or as a submodule -/
  places : ∀ x y, Exposed i.world.toWorld s name g x → y ∈ p.nodes → hasObject i.world s y = true → x ≠ y →
    place x ≠ place y
  /-- different types are printed differently -/
  types : ∀ x y, Exposed i.world.toWorld s name g x → Exposed i.world.toWorld s name g y →
    i.world.typeName x = i.world.typeName y → x = y
  /-- inlined bases are exposed themselves -/
  inlined : ∀ x c, InlinedInto i.world s x c → Exposed i.world.toWorld s name g c
  /-- all classes of a hierarchy have custom holders, or none -/
  holders : UniformHolders custom i s name g p
  /-- what the bases of a class have in common comes from a single class, and none is a base of another -/
  diamonds : JoinedOnce (Exposed i.world.toWorld s name g) (listedBases i.world s p)
  /-- types of default arguments and constants are available -/
  values : ValuesAvailable needs others i s name g place
  /-- names are distinct, also from those of classes, enums and submodules, and among bases -/
  names : ∀ mro start,
    (∀ o, ∀ o' ∈ mro o, ∃ x y, Exposed i.world.toWorld s name g x ∧ o = place x ∧
      Ascends (listedBases i.world s p) x y ∧ o' = place y) →
    (∀ o n, start o n ≠ none → ∃ y ∈ p.nodes, hasObject i.world s y = true ∧ place y = o ++ [n]) →
    DistinctNames i s g name place mro start

end Verif.Spec
