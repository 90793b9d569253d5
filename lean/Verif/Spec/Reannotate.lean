import Verif.Spec.Visibility
import Verif.Spec.Tool
/-!
# The same code with other annotations

What it means that two translation units only differ in the annotations of some members, and
which lines of the generated code are about these.
-/
namespace Verif.Spec

/-- The same declarations, annotated with `texts`. -/
def reannotate (w : EmitWorld) (texts : Nat → List Str) : EmitWorld :=
  { w with info := fun x => { w.info x with attrTexts := texts x } }

/-- The input with the same declarations, annotated with `texts`. -/
def reannotated (i : ToolInput) (texts : Nat → List Str) : ToolInput :=
  { i with world := reannotate i.world texts }

/-- Members of types and namespaces: anything but types, aliases and namespaces. -/
def IsMember (k : DeclKind) : Prop :=
  k ≠ .namespace ∧ k ≠ .enum ∧ k ≠ .record ∧ k ≠ .typedefName ∧ k ≠ .translationUnit ∧
  k ≠ .linkageSpec

/-- Only the annotations of the members in `D` are different. -/
structure OnlyAnnotated (w : EmitWorld) (D : Nat → Bool) (texts : Nat → List Str) : Prop where
  member : ∀ d, D d = true → IsMember (w.info d).kind
  rest : ∀ x, D x = false → texts x = (w.info x).attrTexts

/-- The annotations if the members in `D` are annotated with nothing but `hidden`. -/
def hideOnly (w : EmitWorld) (D : Nat → Bool) : Nat → List Str :=
  fun x => if D x = true then [lozenge ++ t%"hidden"] else (w.info x).attrTexts

/-- The properties a declaration with these annotations contributes to; the empty name stands for
names that are not valid (which is an error). -/
def accessed (as : List Annotation) : List Str :=
  as.flatMap fun a => if a.kind = .getterFor ∨ a.kind = .setterFor
    then [] :: a.arguments.filterMap fun
      | .string s => some s
      | _ => none
    else []

/-- The same, given the annotations as they are written. -/
def accessedBy (d : Nat) (texts : List Str) : List Str := accessed (parseAllTexts d [] texts).1

/-- `P` contains all properties the members contribute to, with either annotations. -/
structure Covers (w : EmitWorld) (D : Nat → Bool) (texts : Nat → List Str) (P : Str → Bool) : Prop where
  before : ∀ d, D d = true → ∀ n ∈ accessedBy d (w.info d).attrTexts, P n = true
  after : ∀ d, D d = true → ∀ n ∈ accessedBy d (texts d), P n = true

/-- The line is about one of the declarations, or about one of the properties. -/
def concerns (D : Nat → Bool) (P : Str → Bool) : Line → Bool
  | .stmt (.property name _ _) => P name
  | .stmt (.implicitlyConvertible d ..) | .stmt (.init d ..) | .stmt (.function d ..)
  | .stmt (.operator d ..) | .stmt (.stringFromLshift d ..) | .stmt (.typeAttr d ..)
  | .stmt (.valueAttr d ..) | .stmt (.manual d ..) | .stmt (.field d ..)
  | .stmt (.enumValue d ..) => D d
  | .stmt .exportValues | .stmt .useContext => false
  | .postamble d _ => D d
  | _ => false

/-- Something in the context that is visible on its own: one of its members or of its types. -/
def Populated (w : World) (s : Storage) (m : Members) (g : Graph) (x : Nat) : Prop :=
  HasVisibleMember s m (EffVisible w s g) x ∨ ∃ c, Edge g x c ∧ IsType w c ∧ EffVisible w s g c

/-- What is written to file number `k` of `n` after the includes. -/
def linesOf (i : ToolInput) (name : Str) (n k : Nat) : List Line :=
  match buildGraph i.world.toWorld i.tree with
  | (none, _) => []
  | (some g, b) =>
    let a := analyze i.world.toWorld b.storage i.members name g
    (emitModule i.world b.storage a.pruned a.vis i.pick (i.iterate a.pruned) n name).stream k

end Verif.Spec
