import Verif.Spec.Subclass
import Verif.Spec.Names
/-!
# Looking up members of classes, in C++ and in Python
-/
namespace Verif.Spec

/-- The class has a member of its own with this name. -/
def Declares (w : EmitWorld) (x : Nat) (n : Str) : Prop :=
  ∃ f ∈ w.found x, f.inBaseClass = false ∧ (w.info f.decl).name = n

/-- `y` is `x` or one of its direct or indirect bases. -/
def DerivesFrom (w : EmitWorld) (x y : Nat) : Prop :=
  y = x ∨ ∃ p, InheritancePath (directBases w) x p ∧ LeadsTo p y

/-- C++ looks for the name in the class itself and, if there is none, in its bases: class `c` is
found on one of the ways (C++17, 13.2 [class.member.lookup]). -/
inductive FoundAlong (w : EmitWorld) (n : Str) : Nat → Nat → Prop where
  | here {x : Nat} : Declares w x n → FoundAlong w n x x
  | base {x c : Nat} {b : BaseSpec} : ¬ Declares w x n → b ∈ directBases w x → FoundAlong w n b.id c →
      FoundAlong w n x c

/-- C++ finds the members of class `c` with this name: whatever is found on other ways is `c` itself
or hidden by `c`.  (C++ rejects some of these as ambiguous, if there are several subobjects.) -/
def CppFinds (w : EmitWorld) (n : Str) (x c : Nat) : Prop :=
  FoundAlong w n x c ∧ ∀ f, FoundAlong w n x f → DerivesFrom w c f

/-- One of these classes, given by their paths, is a subclass of the other, or the same. -/
def SubclassAt (lines : List Line) (types : List (Str × List Str)) (a b : List Str) : Prop :=
  ∃ T U, (T, a) ∈ types ∧ (U, b) ∈ types ∧ IsSubclass lines T U

/-- What is known about Python's method resolution order: it consists of the class and its bases,
direct and indirect, and classes come before their bases. -/
structure MroOK (lines : List Line) (types : List (Str × List Str)) (mro : List Str → List (List Str)) : Prop where
  members : ∀ a ∈ types.map (·.2), ∀ b, b ∈ a :: mro a ↔ SubclassAt lines types a b
  order : ∀ a ∈ types.map (·.2), (a :: mro a).Pairwise fun b c => SubclassAt lines types c b → c = b

end Verif.Spec
