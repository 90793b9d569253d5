import Verif.Spec.Annotations
/-!
# Settings made by a sequence of annotations

Switches and values are those of the last annotation, everything else accumulates.
Annotations that are not used as documented count for nothing.
-/
namespace Verif.Spec

/-- The annotation is among `as`, and used as documented. -/
def Given (d : DeclInfo) (as : List Annotation) (k : AnnotationKind) (args : List LiteralValue) : Prop :=
  ⟨k, args⟩ ∈ as ∧ Documented d ⟨k, args⟩

/-- `k`, `k(true)` or `k(false)`. -/
def switchOf (k : AnnotationKind) : Annotation → Option Bool
  | ⟨k', []⟩ => if k' = k then some true else none
  | ⟨k', [.boolean b]⟩ => if k' = k then some b else none
  | _ => none

/-- The last switch of this kind. -/
def lastSwitch (k : AnnotationKind) (as : List Annotation) : Option Bool :=
  (as.filterMap (switchOf k)).getLast?

/-- `k("text")`. -/
def textOf (k : AnnotationKind) : Annotation → Option Str
  | ⟨k', [.string s]⟩ => if k' = k then some s else none
  | _ => none

/-- The last text of this kind. -/
def lastGiven (k : AnnotationKind) (as : List Annotation) : Option Str :=
  (as.filterMap (textOf k)).getLast?

/-- Attributes of a declaration annotated with `as`.  (For functions see `Signature`, for
names and visibility C14 and C15.) -/
structure Settings (env : DeclEnv) (d : DeclInfo) (as : List Annotation) (x : DeclAttrs) : Prop where
  module : ∀ n, x.namespace_ = some n → (n.module = true ↔ ∃ args, Given d as .module args)
  onlyExposeIn : ∀ n, x.namespace_ = some n → ∀ s, s ∈ n.onlyExposeIn ↔
    ∃ args, Given d as .onlyExposeIn args ∧ .string s ∈ args
  arithmetic : ∀ e, x.enum = some e → e.arithmetic = (lastSwitch .arithmetic as).getD false
  exportValues : ∀ e, x.enum = some e → e.exportValues = lastSwitch .exportValues as
  dynamicAttr : ∀ r, x.record = some r → r.dynamicAttr = (lastSwitch .dynamicAttr as).getD false
  holderType : ∀ r, x.record = some r → r.holderType = (lastGiven .holderType as).getD []
  hideBase : ∀ r, x.record = some r → ∀ b, b ∈ r.hideBase ↔
    b ∈ d.bases ∧ ∃ args, Given d as .hideBase args ∧ SelectsBase env args b
  inlineBase : ∀ r, x.record = some r → ∀ b, b ∈ r.inlineBase ↔
    b ∈ d.allBases ∧ ∃ args, Given d as .inlineBase args ∧ SelectsBase env args b
  encourage : ∀ t, x.typedefName = some t → (t.encourage = true ↔ ∃ args, Given d as .encourage args)
  exposeHere : ∀ t, x.typedefName = some t → (t.exposeHere = true ↔ ∃ args, Given d as .exposeHere args)
  readonly : ∀ v, x.fieldOrVar = some v → v.readonly = (lastSwitch .readonly as).getD false
  manual : ∀ v, x.fieldOrVar = some v → ∀ l, v.manualBindings = some l ↔
    (∃ args, Given d as .manual args) ∧ IsManualLambda d l
  postamble : ∀ v, x.fieldOrVar = some v → (v.postamble = true ↔ ∃ args, Given d as .postamble args)
  /-- (the empty name only occurs if there has been an error) -/
  getterFor : ∀ m, x.method = some m → ∀ s, s ≠ [] → (s ∈ m.getterFor ↔
    ValidIdent s ∧ ∃ args, Given d as .getterFor args ∧ .string s ∈ args)
  setterFor : ∀ m, x.method = some m → ∀ s, s ≠ [] → (s ∈ m.setterFor ↔
    ValidIdent s ∧ ∃ args, Given d as .setterFor args ∧ .string s ∈ args)
  implicitConversion : ∀ c, x.constructor = some c → (c.implicitConversion = true ↔
    d.params.length = 1 ∧ d.converting = true ∧ lastSwitch .implicitConversion as = some true)

end Verif.Spec
