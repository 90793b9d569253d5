import Verif.Model.Templates
/-!
# Which specializations are to be instantiated

In terms of the translation unit only.
-/
namespace Verif.Spec

/-- Annotated, or the underlying type of an annotated alias. -/
def Names (v : Visit) (y : Nat) : Prop := v.annotated = true ∧ v.target = some y

/-- Neither an explicit specialization nor an explicit instantiation. -/
def Instantiable (w : TemplateWorld) (x : Nat) : Prop :=
  w.kind x = .undeclared ∨ w.kind x = .implicit ∨ w.kind x = .explicitDeclaration

/-- Not yet part of a declaration context. -/
def NotPlaced (w : TemplateWorld) (x : Nat) : Prop :=
  w.kind x = .undeclared ∨ w.kind x = .implicit

/-- Named in the translation unit or in the definition of such a specialization. -/
inductive Reached (w : TemplateWorld) : Nat → Prop where
  | root {v : Visit} {y : Nat} : v ∈ w.roots → Names v y → Reached w y
  | body {v : Visit} {x y : Nat} : Reached w x → v ∈ w.body x → Names v y → Reached w y

/-- The same, where only those are considered that exist at the beginning, or have been
created by the instantiation in whose definition they are named. -/
inductive Present (w : TemplateWorld) : Nat → Prop where
  | root {v : Visit} {y : Nat} : v ∈ w.roots → Names v y →
      (∀ n ∈ v.needs, w.existing n = true) → Present w y
  | body {v : Visit} {x y : Nat} : Present w x → v ∈ w.body x → Names v y →
      (∀ n ∈ v.needs, w.existing n = true ∨ (Instantiable w x ∧ n ∈ w.creates x)) → Present w y

end Verif.Spec
