import Verif.Spec.Tool
import Verif.Spec.Settings
import Verif.Spec.Signature
/-!
# What the name of the module has an effect on
-/
namespace Verif.Spec

/-- The line that defines the module. -/
def moduleLine (name : Str) : Str := t%"PYBIND11_MODULE(" ++ name ++ t%", root) {\n"

/-- Two texts are equal, or only differ in the line that defines the module. -/
def EqualBut (name name' : Str) (a b : Str) : Prop :=
  a = b ∨ ∃ pre post, a = pre ++ moduleLine name ++ post ∧ b = pre ++ moduleLine name' ++ post

/-- Two lists have the same length, and their elements are related. -/
inductive ForEach {α : Type} (R : α → α → Prop) : List α → List α → Prop where
  | nil : ForEach R [] []
  | cons {a b : α} {l m : List α} : R a b → ForEach R l m → ForEach R (a :: l) (b :: m)

/-- Two results are equal, or only differ in the line that defines the module. -/
structure SameUpToName (name name' : Str) (r r' : ToolResult) : Prop where
  exitCode : r'.exitCode = r.exitCode
  diags : r'.diags = r.diags
  files : ∀ p, r.files p = r'.files p ∨
    ∃ a b, r.files p = some a ∧ r'.files p = some b ∧ EqualBut name name' a b
  printed : ForEach (EqualBut name name') r.printed r'.printed

/-- A namespace is annotated with `only_expose_in`, and the name is one of those given. -/
def OnlyExposedIn (w : EmitWorld) (x : Nat) (name : Str) : Prop :=
  ∃ args, Given (w.info x) (annotationsOf w x) .onlyExposeIn args ∧ .string name ∈ args

end Verif.Spec
