import Verif.Spec.Module
import Verif.Spec.Settings
import Verif.Spec.Signature
/-!
# How classes, enums and namespaces are introduced
-/
namespace Verif.Spec

/-- The flag is passed exactly if the last such annotation says so. -/
def flagOf (as : List Annotation) (k : AnnotationKind) (flag : Str) : Option Str :=
  if lastSwitch k as = some true then some flag else none

/-- The expression `x` is introduced by, in the object called `parent`. -/
inductive Introduces (w : EmitWorld) (s : Storage) (g : Graph) (x : Nat) (parent : Str) :
    Introducer → Prop where
  /-- there is no object of its own for the translation unit -/
  | unit : (w.info x).kind = .translationUnit → Introduces w s g x parent (.same parent)
  /-- nor for namespaces, -/
  | namespace : (w.info x).kind = .namespace →
      (∀ args, ¬ Given (w.info x) (annotationsOf w x) .module args) →
      Introduces w s g x parent (.same parent)
  /-- unless they are annotated with `module` -/
  | submodule (args) : (w.info x).kind = .namespace →
      Given (w.info x) (annotationsOf w x) .module args →
      Introduces w s g x parent (.submodule parent (pythonName w s x))
  | enum : (w.info x).kind = .enum →
      Introduces w s g x parent (.type (.enum (w.typeName x)) parent (pythonName w s x) (w.brief x)
        (flagOf (annotationsOf w x) .arithmetic t%"::pybind11::arithmetic()"))
  /-- for the bases see C43 -/
  | record : (w.info x).kind = .record →
      Introduces w s g x parent (.type (.record (w.typeName x)
          ((emittedBases g (createFromAnnotations s (w.hierarchy x) x) (w.hierarchy x)).map w.typeName)
          ((lastGiven .holderType (annotationsOf w x)).getD []))
        parent (pythonName w s x) (w.brief x)
        (flagOf (annotationsOf w x) .dynamicAttr t%"::pybind11::dynamic_attr()"))

end Verif.Spec
