import Verif.Model.Inlining
import Verif.Spec.TopoSort
/-!
# Notions about class hierarchies
-/
namespace Verif.Spec

/-- Direct bases of classes. -/
abbrev BaseSpecs := Nat → List BaseSpec

/-- A sequence of steps from class `x` to one of its direct or indirect bases. -/
inductive InheritancePath (bases : BaseSpecs) : Nat → List BaseSpec → Prop where
  | direct {x : Nat} {b : BaseSpec} : b ∈ bases x → InheritancePath bases x [b]
  | step {x : Nat} {b : BaseSpec} {p : List BaseSpec} : b ∈ bases x →
      InheritancePath bases b.id p → InheritancePath bases x (b :: p)

/-- The path leads to class `b`. -/
def LeadsTo (p : List BaseSpec) (b : Nat) : Prop := ∃ s, p.getLast? = some s ∧ s.id = b

/-- `h` describes the bases `l` and, in turn, their bases. -/
def Unfolds (bases : BaseSpecs) : Hierarchy → List BaseSpec → Prop
  | .nil, l => l = []
  | .cons b above rest, l => ∃ l', l = b :: l' ∧ Unfolds bases above (bases b.id) ∧
      Unfolds bases rest l'

/-- `b` is named by `inline_base` on `r` or on a class so named. -/
inductive NamedForInlining (s : Storage) (r : Nat) : Nat → Prop where
  | direct {attrs : DeclAttrs} {rec : RecordDeclAttrs} {b : Nat} : s.entries r = some attrs →
      attrs.record = some rec → b ∈ rec.inlineBase → NamedForInlining s r b
  | indirect {attrs : DeclAttrs} {rec : RecordDeclAttrs} {c b : Nat} : NamedForInlining s r c →
      s.entries c = some attrs → attrs.record = some rec → b ∈ rec.inlineBase →
      NamedForInlining s r b

/-- `b` is named by `hide_base` on `r` or on a class named for inlining. -/
def HiddenBase (s : Storage) (r b : Nat) : Prop :=
  ∃ c attrs rec, (c = r ∨ NamedForInlining s r c) ∧ s.entries c = some attrs ∧
    attrs.record = some rec ∧ b ∈ rec.hideBase

/-- All steps are public and none leads to a hidden base. -/
def Usable (s : Storage) (r : Nat) (p : List BaseSpec) : Prop :=
  ∀ b ∈ p, b.access = .public ∧ ¬ HiddenBase s r b.id

/-- The base `b` of `r` is to be inlined. -/
def Inlined (s : Storage) (bases : BaseSpecs) (r b : Nat) : Prop :=
  NamedForInlining s r b ∧ ∃ p, InheritancePath bases r p ∧ LeadsTo p b ∧ Usable s r p

/-- `b` is exposed and directly visible as a base of `r`, once inlined bases are
disregarded. -/
def ExposedBase (s : Storage) (bases : BaseSpecs) (g : Graph) (inlined : Nat → Prop)
    (r b : Nat) : Prop :=
  b ∈ g.nodes ∧ ¬ inlined b ∧ ∃ p last, InheritancePath bases r (p ++ [last]) ∧ last.id = b ∧
    Usable s r (p ++ [last]) ∧ ∀ c ∈ p, inlined c.id

/-- The base `last` is directly visible as a base of `r` by way of the inlined bases `p`. -/
def VisibleThrough (s : Storage) (bases : BaseSpecs) (inlined : Nat → Prop) (r : Nat)
    (p : List BaseSpec) (last : BaseSpec) : Prop :=
  InheritancePath bases r (p ++ [last]) ∧ Usable s r (p ++ [last]) ∧ ∀ c ∈ p, inlined c.id

/-- The classes `listed` in place of the bases `specs`: base by base in the order of
declaration, with the bases of an inlined base in its place. -/
inductive Listing (bases : BaseSpecs) (g : Graph) (inlined hidden : Nat → Prop) :
    List BaseSpec → List Nat → Prop where
  | nil : Listing bases g inlined hidden [] []
  | skipped {b : BaseSpec} {specs : List BaseSpec} {listed : List Nat} :
      b.access ≠ .public ∨ hidden b.id → Listing bases g inlined hidden specs listed →
      Listing bases g inlined hidden (b :: specs) listed
  | absent {b : BaseSpec} {specs : List BaseSpec} {listed : List Nat} :
      b.id ∉ g.nodes → ¬ inlined b.id → Listing bases g inlined hidden specs listed →
      Listing bases g inlined hidden (b :: specs) listed
  | own {b : BaseSpec} {specs : List BaseSpec} {listed : List Nat} :
      b.access = .public → ¬ hidden b.id → ¬ inlined b.id → b.id ∈ g.nodes →
      Listing bases g inlined hidden specs listed →
      Listing bases g inlined hidden (b :: specs) (b.id :: listed)
  | inline {b : BaseSpec} {specs : List BaseSpec} {above listed : List Nat} :
      b.access = .public → ¬ hidden b.id → inlined b.id →
      Listing bases g inlined hidden (bases b.id) above →
      Listing bases g inlined hidden specs listed →
      Listing bases g inlined hidden (b :: specs) (above ++ listed)

/-- Annotations name only bases. -/
def NamesBases (s : Storage) (bases : BaseSpecs) : Prop :=
  ∀ c attrs rec b, s.entries c = some attrs → attrs.record = some rec →
    b ∈ rec.inlineBase → ∃ p, InheritancePath bases c p ∧ LeadsTo p b

/-- What lookup found can be exposed: it is not hidden by another declaration,
accessible, and a member of the class itself or of an inlined base, in which case
it must not be a constructor or destructor. -/
def Exposable (inlined : Nat → Prop) (f : Found) : Prop :=
  f.hiddenBy = none ∧ (f.access = .public ∨ f.access = .none) ∧
  (f.inBaseClass = true → f.isConstructor = false ∧ f.isDestructor = false ∧
    ∃ r, f.parentRecord = some r ∧ inlined r)

end Verif.Spec
