import Verif.Spec.Annotations
import Verif.Spec.Reannotate
/-!
# Different ways to write the same annotations
-/
namespace Verif.Spec

/-- What a kind of annotation is about.  Annotations about the same thing override or exclude each
other: `hidden` and `visible`; `expose_as` and `module` (both can give the name);
`encourage` and `expose_here`. -/
def setting : AnnotationKind → AnnotationKind
  | .hidden => .visible
  | .module => .exposeAs
  | .exposeHere => .encourage
  | k => k

/-- The annotation is used as documented, nothing is reported about its arguments. -/
def Silent (env : DeclEnv) (d : DeclInfo) (a : Annotation) : Prop :=
  Documented d a ∧ ∀ y, acceptedDiagKinds env d a y = []

/-- Annotations that give a single value, so that only the last one counts. -/
def SingleValued : AnnotationKind → Prop
  | .hidden | .visible | .exposeAs | .arithmetic | .exportValues | .dynamicAttr | .holderType
  | .readonly | .implicitConversion | .returnValuePolicy => True
  | _ => False

/-- Annotations that add to a collection in which the order does not matter. -/
def SetValued : AnnotationKind → Prop
  | .noconvert | .required | .getterFor | .setterFor | .hideBase | .inlineBase => True
  | _ => False

/-- Annotations taking one or more names, each of which could have been given on its own. -/
def ManyNames : AnnotationKind → Prop
  | .noconvert | .required | .getterFor | .setterFor | .onlyExposeIn => True
  | _ => False

/-- `Interchangeable env d as bs`: on the declaration `d` one can as well write `bs` instead of
`as`. -/
inductive Interchangeable (env : DeclEnv) (d : DeclInfo) :
    List Annotation → List Annotation → Prop where
  | refl (as) : Interchangeable env d as as
  | symm (as bs) : Interchangeable env d as bs → Interchangeable env d bs as
  | trans (as bs cs) : Interchangeable env d as bs → Interchangeable env d bs cs →
      Interchangeable env d as cs
  | append (as bs as' bs') : Interchangeable env d as bs → Interchangeable env d as' bs' →
      Interchangeable env d (as ++ as') (bs ++ bs')
  /-- `hidden` is short for `visible(false)` -/
  | hidden : Interchangeable env d [⟨.hidden, []⟩] [⟨.visible, [.boolean false]⟩]
  /-- `flag` is short for `flag(true)` -/
  | flag (k) : Documented d ⟨k, []⟩ → Documented d ⟨k, [.boolean true]⟩ →
      Interchangeable env d [⟨k, []⟩] [⟨k, [.boolean true]⟩]
  /-- `f(a, b)` is short for `f(a), f(b)` -/
  | split (k) (vs ws : List LiteralValue) : ManyNames k → vs ≠ [] → ws ≠ [] →
      Documented d ⟨k, vs ++ ws⟩ → Interchangeable env d [⟨k, vs ++ ws⟩] [⟨k, vs⟩, ⟨k, ws⟩]
  /-- the order of annotations about different things does not matter (if not both of them have
  something reported about them) -/
  | swap (a b) : setting a.kind ≠ setting b.kind → Silent env d b →
      Interchangeable env d [a, b] [b, a]
  /-- only the last of several annotations about the same thing counts -/
  | overridden (a b) : setting a.kind = setting b.kind → SingleValued a.kind → SingleValued b.kind →
      Silent env d a → Silent env d b → Interchangeable env d [a, b] [b]
  /-- saying the same again makes no difference -/
  | again (a) : SetValued a.kind → Silent env d a → Interchangeable env d [a, a] [a]

/-- Attribute texts that say the same, in any of these ways.  (Attributes that are not ours do not
count.) -/
structure SameAnnotations (env : DeclEnv) (d : DeclInfo) (a b : List Str) : Prop where
  annotated : (∃ t ∈ a, marker <+: t) ↔ ∃ t ∈ b, marker <+: t
  meaning : ∃ as bs, TextsRead marker a as ∧ TextsRead marker b bs ∧ Interchangeable env d as bs

end Verif.Spec
