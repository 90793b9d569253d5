import Verif.Spec.Import
import Verif.Spec.Settings
import Verif.Spec.Signature
/-!
# Holders

`pybind11::class_<T, Bases..., Holder>` keeps objects in a `Holder`.  When a class is created,
pybind11 checks one base after the other (`type_record::add_base`, pybind11/attr.h): unless both
or neither of the classes use `std::unique_ptr`, the default, the import fails with
`ImportError: generic_type: type "..." does not have a non-default holder type while its base
"..." does` (or the other way around).
-/
namespace Verif.Spec

/-- A holder other than the default one is used.  `custom` tells which texts name one. -/
def holderFlag (custom : Str → Bool) (holder : Str) : Bool := decide (holder ≠ []) && custom holder

/-- All checks succeed when the lines of the module definition are executed.  `known` are the
classes created before, and whether they have a custom holder. -/
def HoldersFit (custom : Str → Bool) : List (Str × Bool) → List Line → Prop
  | _, [] => True
  | known, .introduce _ (.type (.record T bases holder) _ _ _ _) :: rest =>
    (∀ U ∈ bases, (U, holderFlag custom holder) ∈ known) ∧
      HoldersFit custom ((T, holderFlag custom holder) :: known) rest
  | known, .introduce _ (.type (.enum T) _ _ _ _) :: rest => HoldersFit custom ((T, false) :: known) rest
  | known, _ :: rest => HoldersFit custom known rest

/-- The module can be imported, holders included. -/
def Imported (custom : Str → Bool) (files : List (List Line)) : Prop :=
  (∃ st, importModule files = .ok st) ∧ HoldersFit custom [] (files.headD [])

/-- A class has a custom holder, by its last annotation `holder_type`. -/
def CustomHolder (custom : Str → Bool) (w : EmitWorld) (x : Nat) : Prop :=
  ∃ holder, lastGiven .holderType (annotationsOf w x) = some holder ∧ holder ≠ [] ∧ custom holder = true

end Verif.Spec
