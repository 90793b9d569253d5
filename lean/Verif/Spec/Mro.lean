import Verif.Spec.Import
/-!
# Method resolution orders

Python fixes the order in which a class and its bases are searched when the class is created
(`mro_implementation` and `pmerge` in CPython's Objects/typeobject.c).  If there is no such order
pybind11 gives up: `PyType_Ready` fails, and so does the import.
`pybind11_object` and `object`, which come last for every class, are left out.
-/
namespace Verif.Spec

variable {α : Type} [DecidableEq α]

/-- The first class at the front of a list that is not further back in another one. -/
def goodHead (ls : List (List α)) : Option α :=
  (ls.filterMap List.head?).find? fun c => ls.all fun l => decide (c ∉ l.tail)

/-- Remove a class from the front of a list. -/
def dropHead (c : α) (l : List α) : List α := if l.head? = some c then l.tail else l

/-- Merge lists, in at most `n` steps. -/
def mergeMro : Nat → List (List α) → Option (List α)
  | 0, ls => if ls.all (·.isEmpty) then some [] else none
  | n + 1, ls =>
    if ls.all (·.isEmpty) then some []
    else (goodHead ls).bind fun c => (mergeMro n (ls.map (dropHead c))).map (c :: ·)

/-- The method resolution order of the class `T`, given its bases and their orders. -/
def c3 (T : α) (bases : List α) (mros : List (List α)) : Option (List α) :=
  if bases.Nodup then
    (mergeMro (mros ++ [bases]).flatten.length (mros ++ [bases])).map (T :: ·)
  else none

/-- The type created by a line, and its bases. -/
def createdTypeOf : Line → Option (Str × List Str)
  | .introduce _ (.type (.record T bases _) _ _ _ _) => some (T, bases)
  | .introduce _ (.type (.enum T) _ _ _ _) => some (T, [])
  | _ => none

/-- Determine the orders for types, one after the other; `known` are those of earlier types. -/
def linearize (known : List (Str × List Str)) : List (Str × List Str) → Option (List (Str × List Str))
  | [] => some known
  | (T, bases) :: rest =>
    (c3 T bases (bases.map fun U => (known.lookup U).getD [])).bind fun m =>
      linearize ((T, m) :: known) rest

/-- The orders for all types of a module. -/
def mrosOf (files : List (List Line)) : Option (List (Str × List Str)) :=
  linearize [] ((files.headD []).filterMap createdTypeOf)

/-- The module can be imported, method resolution orders included. -/
def Loads (files : List (List Line)) : Prop :=
  (∃ st, importModule files = .ok st) ∧ ∃ mros, mrosOf files = some mros

/-- The method resolution order of a class, by paths, without the class itself. -/
def mroAt (types mros : List (Str × List Str)) (a : List Str) : List (List Str) :=
  match types.find? (·.2 = a) with
  | none => []
  | some p => (((mros.lookup p.1).getD []).tail).map fun U => (types.lookup U).getD []

variable {β : Type}

/-- Following listed bases. -/
inductive Ascends (listed : β → List β) (x : β) : β → Prop where
  | refl : Ascends listed x x
  | step {y z : β} : Ascends listed x y → z ∈ listed y → Ascends listed x z

/-- No exposed class is reached from another one in two ways. -/
def NoDiamonds (exposed : β → Prop) (listed : β → List β) : Prop :=
  ∀ x, exposed x → (listed x).Nodup ∧
    ∀ y ∈ listed x, ∀ y' ∈ listed x, y ≠ y' → ∀ z, Ascends listed y z → ¬ Ascends listed y' z

/-- No listed base of an exposed class is a base of another one, and whatever two of them have in common
are the bases of a single class (for this class), itself included. -/
def JoinedOnce (exposed : β → Prop) (listed : β → List β) : Prop :=
  ∀ x, exposed x → (listed x).Nodup ∧ ∃ z, ∀ y ∈ listed x, ∀ y' ∈ listed x, y ≠ y' →
    ¬ Ascends listed y y' ∧
    ∀ a, Ascends listed y a → Ascends listed y' a → Ascends listed y z ∧ Ascends listed z a

/-- `mro` is what Python computes for a class. -/
def Linearized (nm : β → Str) (listed : β → List β) (mro : Str → List Str) (x : β) : Prop :=
  c3 (nm x) ((listed x).map nm) ((listed x).map fun y => mro (nm y)) = some (mro (nm x))

end Verif.Spec
