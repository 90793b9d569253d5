import Verif.Model.Storage
/-!
# When annotations are the same

The lists of names that annotations keep are sets: their order and repetitions do not matter.
-/
namespace Verif

theorem sameSet_iff {α : Type} [DecidableEq α] (a b : List α) : sameSet a b = true ↔ ∀ x, x ∈ a ↔ x ∈ b := by
  simp only [sameSet, Bool.and_eq_true, List.all_eq_true, decide_eq_true_eq]
  exact ⟨fun h x => ⟨h.1 x, h.2 x⟩, fun h => ⟨fun x => (h x).1, fun x => (h x).2⟩⟩

theorem method_same (a b : MethodDeclAttrs) : a.same b = true ↔
    (∀ x, x ∈ a.getterFor ↔ x ∈ b.getterFor) ∧ ∀ x, x ∈ a.setterFor ↔ x ∈ b.setterFor := by
  simp only [MethodDeclAttrs.same, Bool.and_eq_true, sameSet_iff]

theorem record_same (a b : RecordDeclAttrs) : a.same b = true ↔
    a.dynamicAttr = b.dynamicAttr ∧ (∀ x, x ∈ a.hideBase ↔ x ∈ b.hideBase) ∧
    (∀ x, x ∈ a.inlineBase ↔ x ∈ b.inlineBase) ∧ a.holderType = b.holderType := by
  simp only [RecordDeclAttrs.same, Bool.and_eq_true, sameSet_iff, decide_eq_true_eq, and_assoc]

theorem function_same (a b : FunctionDeclAttrs) : a.same b = true ↔
    a.keepAlive = b.keepAlive ∧ (∀ x, x ∈ a.noconvert ↔ x ∈ b.noconvert) ∧
    (∀ x, x ∈ a.required ↔ x ∈ b.required) ∧ a.returnValuePolicy = b.returnValuePolicy := by
  simp only [FunctionDeclAttrs.same, Bool.and_eq_true, sameSet_iff, decide_eq_true_eq, and_assoc]

/-- Two declarations of a namespace agree if all their annotations do. -/
theorem equal_iff (s : Storage) (l r : Nat) (a b : DeclAttrs) (ha : s.entries l = some a)
    (hb : s.entries r = some b) : s.equal l r = true ↔
    a.named = b.named ∧ a.namespace_ = b.namespace_ ∧ a.enum = b.enum ∧
    optSame RecordDeclAttrs.same a.record b.record = true ∧ a.typedefName = b.typedefName ∧
    a.fieldOrVar = b.fieldOrVar ∧ a.operator = b.operator ∧ a.conversion = b.conversion ∧
    optSame MethodDeclAttrs.same a.method b.method = true ∧ a.constructor = b.constructor ∧
    optSame FunctionDeclAttrs.same a.function b.function = true := by
  simp only [Storage.equal, ha, hb, Option.map_some, Option.bind_some, Bool.and_eq_true, decide_eq_true_eq,
    Option.some.injEq, and_assoc]

example : MethodDeclAttrs.same { getterFor := [t%"a", t%"b"], setterFor := [] }
    { getterFor := [t%"b", t%"a", t%"b"], setterFor := [] } = true := by decide
example : MethodDeclAttrs.same { getterFor := [t%"a"], setterFor := [] }
    { getterFor := [t%"a"], setterFor := [t%"a"] } = false := by decide

end Verif
