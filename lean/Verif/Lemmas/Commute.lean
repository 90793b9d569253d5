import Verif.Lemmas.Steady
import Verif.Lemmas.Storage
import Verif.Spec.Interchange
/-!
# Lemmas: annotations about different things can be applied in any order
-/
namespace Verif
open Spec

/-! ### The fields -/

def slotVisible : Slot NamedDeclAttrs :=
  ⟨_, (·.visible), fun n u => { n with visible := u }, fun _ _ => rfl, fun _ => rfl, fun _ _ _ => rfl⟩
def slotSpelling : Slot NamedDeclAttrs :=
  ⟨_, (·.spelling), fun n u => { n with spelling := u }, fun _ _ => rfl, fun _ => rfl, fun _ _ _ => rfl⟩
def slotModule : Slot NamespaceDeclAttrs :=
  ⟨_, (·.module), fun n u => { n with module := u }, fun _ _ => rfl, fun _ => rfl, fun _ _ _ => rfl⟩
def slotOnly : Slot NamespaceDeclAttrs :=
  ⟨_, (·.onlyExposeIn), fun n u => { n with onlyExposeIn := u }, fun _ _ => rfl, fun _ => rfl, fun _ _ _ => rfl⟩
def slotArithmetic : Slot EnumDeclAttrs :=
  ⟨_, (·.arithmetic), fun n u => { n with arithmetic := u }, fun _ _ => rfl, fun _ => rfl, fun _ _ _ => rfl⟩
def slotExport : Slot EnumDeclAttrs :=
  ⟨_, (·.exportValues), fun n u => { n with exportValues := u }, fun _ _ => rfl, fun _ => rfl, fun _ _ _ => rfl⟩
def slotDynamic : Slot RecordDeclAttrs :=
  ⟨_, (·.dynamicAttr), fun n u => { n with dynamicAttr := u }, fun _ _ => rfl, fun _ => rfl, fun _ _ _ => rfl⟩
def slotHide : Slot RecordDeclAttrs :=
  ⟨_, (·.hideBase), fun n u => { n with hideBase := u }, fun _ _ => rfl, fun _ => rfl, fun _ _ _ => rfl⟩
def slotHolder : Slot RecordDeclAttrs :=
  ⟨_, (·.holderType), fun n u => { n with holderType := u }, fun _ _ => rfl, fun _ => rfl, fun _ _ _ => rfl⟩
def slotInline : Slot RecordDeclAttrs :=
  ⟨_, (·.inlineBase), fun n u => { n with inlineBase := u }, fun _ _ => rfl, fun _ => rfl, fun _ _ _ => rfl⟩
def slotReadonly : Slot FieldOrVarDeclAttrs :=
  ⟨_, (·.readonly), fun n u => { n with readonly := u }, fun _ _ => rfl, fun _ => rfl, fun _ _ _ => rfl⟩
def slotManual : Slot FieldOrVarDeclAttrs :=
  ⟨_, (·.manualBindings), fun n u => { n with manualBindings := u }, fun _ _ => rfl, fun _ => rfl, fun _ _ _ => rfl⟩
def slotPostamble : Slot FieldOrVarDeclAttrs :=
  ⟨_, (·.postamble), fun n u => { n with postamble := u }, fun _ _ => rfl, fun _ => rfl, fun _ _ _ => rfl⟩
def slotGetter : Slot MethodDeclAttrs :=
  ⟨_, (·.getterFor), fun n u => { n with getterFor := u }, fun _ _ => rfl, fun _ => rfl, fun _ _ _ => rfl⟩
def slotSetter : Slot MethodDeclAttrs :=
  ⟨_, (·.setterFor), fun n u => { n with setterFor := u }, fun _ _ => rfl, fun _ => rfl, fun _ _ _ => rfl⟩
def slotImplicit : Slot ConstructorDeclAttrs :=
  ⟨_, (·.implicitConversion), fun n u => { n with implicitConversion := u }, fun _ _ => rfl, fun _ => rfl, fun _ _ _ => rfl⟩
def slotKeep : Slot FunctionDeclAttrs :=
  ⟨_, (·.keepAlive), fun n u => { n with keepAlive := u }, fun _ _ => rfl, fun _ => rfl, fun _ _ _ => rfl⟩
def slotNoconvert : Slot FunctionDeclAttrs :=
  ⟨_, (·.noconvert), fun n u => { n with noconvert := u }, fun _ _ => rfl, fun _ => rfl, fun _ _ _ => rfl⟩
def slotRequired : Slot FunctionDeclAttrs :=
  ⟨_, (·.required), fun n u => { n with required := u }, fun _ _ => rfl, fun _ => rfl, fun _ _ _ => rfl⟩
def slotPolicy : Slot FunctionDeclAttrs :=
  ⟨_, (·.returnValuePolicy), fun n u => { n with returnValuePolicy := u }, fun _ _ => rfl, fun _ => rfl, fun _ _ _ => rfl⟩

/-- The field a kind of annotation is about. -/
def fieldNamed : AnnotationKind → Slot NamedDeclAttrs
  | .exposeAs | .module => slotSpelling
  | _ => slotVisible
def fieldNamespace : AnnotationKind → Slot NamespaceDeclAttrs
  | .onlyExposeIn => slotOnly
  | _ => slotModule
def fieldEnum : AnnotationKind → Slot EnumDeclAttrs
  | .arithmetic => slotArithmetic
  | _ => slotExport
def fieldRecord : AnnotationKind → Slot RecordDeclAttrs
  | .dynamicAttr => slotDynamic
  | .hideBase => slotHide
  | .holderType => slotHolder
  | _ => slotInline
def fieldVar : AnnotationKind → Slot FieldOrVarDeclAttrs
  | .readonly => slotReadonly
  | .manual => slotManual
  | _ => slotPostamble
def fieldMethod : AnnotationKind → Slot MethodDeclAttrs
  | .getterFor => slotGetter
  | _ => slotSetter
def fieldFunction : AnnotationKind → Slot FunctionDeclAttrs
  | .keepAlive => slotKeep
  | .noconvert => slotNoconvert
  | .required => slotRequired
  | _ => slotPolicy

variable (env : DeclEnv) (id : Nat) (d : DeclInfo) (a : Annotation)

theorem stable_named : (fieldNamed a.kind).Stable (processNamed id d a) := by
  obtain ⟨k, args⟩ := a
  cases k
  case hidden =>
    exact stable_checkMatch (steady_nullary (steady_start slotVisible id _ {}) ⟨fun _ => some false, [], fun _ => rfl⟩)
  case visible =>
    exact stable_checkMatch (steady_unary (steady_unary (steady_nullary (steady_start slotVisible id _ {})
      ⟨fun _ => some true, [], fun _ => rfl⟩) _ fun _ => ⟨fun _ => none, [], fun _ => rfl⟩) _
      (acts_boolean id fun b => ⟨fun _ => some b, [], fun _ => rfl⟩))
  case exposeAs =>
    refine stable_checkMatch (steady_unary (steady_unary (steady_start slotSpelling id _ {}) _
      fun _ => ⟨fun _ => [], [], fun _ => rfl⟩) _ (acts_string id fun t => ?_))
    by_cases h : isValidIdentifier t = true
    · exact ⟨fun _ => t, [], fun n => by simp [h]; rfl⟩
    · exact ⟨fun u => u, _, fun n => by simp [h]; exact ⟨rfl, rfl⟩⟩
  case module =>
    refine stable_unchecked (steady_unary (steady_ensure (steady_start slotSpelling id _ {}) _) _
      (acts_string id fun t => ?_))
    by_cases h : isValidIdentifier t = true
    · exact ⟨fun _ => t, [], fun n => by simp [h]; rfl⟩
    · exact ⟨fun u => u, _, fun n => by simp [h]; exact ⟨rfl, rfl⟩⟩
  all_goals exact stable_notHandled _

theorem stable_namespace : (fieldNamespace a.kind).Stable (processNamespace id a) := by
  obtain ⟨k, args⟩ := a
  cases k
  case module =>
    exact stable_checkMatch (steady_unary (steady_nullary (steady_start slotModule id _ {})
      ⟨fun _ => true, [], fun _ => rfl⟩) _ fun _ => ⟨fun _ => true, [], fun _ => rfl⟩)
  case onlyExposeIn =>
    exact stable_checkMatch (steady_variadic (steady_start slotOnly id _ {}) _
      (acts_string id fun t => ⟨fun u => List.append u [t], [], fun _ => rfl⟩))
  all_goals exact stable_notHandled _

theorem stable_enum : (fieldEnum a.kind).Stable (processEnum id a) := by
  obtain ⟨k, args⟩ := a
  cases k
  case arithmetic =>
    exact stable_checkMatch (steady_unary (steady_nullary (steady_start slotArithmetic id _ {})
      ⟨fun _ => true, [], fun _ => rfl⟩) _ (acts_boolean id fun b => ⟨fun _ => b, [], fun _ => rfl⟩))
  case exportValues =>
    exact stable_checkMatch (steady_unary (steady_nullary (steady_start slotExport id _ {})
      ⟨fun _ => some true, [], fun _ => rfl⟩) _ (acts_boolean id fun b => ⟨fun _ => some b, [], fun _ => rfl⟩))
  all_goals exact stable_notHandled _

theorem stable_record : (fieldRecord a.kind).Stable (processRecord env id a) := by
  obtain ⟨k, args⟩ := a
  cases k
  case dynamicAttr =>
    exact stable_checkMatch (steady_unary (steady_nullary (steady_start slotDynamic id _ {})
      ⟨fun _ => true, [], fun _ => rfl⟩) _ (acts_boolean id fun b => ⟨fun _ => b, [], fun _ => rfl⟩))
  case hideBase =>
    exact stable_checkMatch (steady_variadicCollect (steady_start slotHide id _ {}) _ _
      fun l => ⟨fun u => (selectBases env l (env.info id).bases).foldl setInsert u, _, _, fun _ => rfl⟩)
  case holderType =>
    exact stable_checkMatch (steady_unary (steady_start slotHolder id _ {}) _
      (acts_string id fun b => ⟨fun _ => b, [], fun _ => rfl⟩))
  case inlineBase =>
    exact stable_checkMatch (steady_variadicCollect (steady_start slotInline id _ {}) _ _
      fun l => ⟨fun u => (selectBases env l (env.info id).allBases).foldl setInsert u, _, _, fun _ => rfl⟩)
  all_goals exact stable_notHandled _

theorem stable_var : (fieldVar a.kind).Stable (processFieldOrVar id d a) := by
  obtain ⟨k, args⟩ := a
  cases k
  case readonly =>
    exact stable_checkMatch (steady_unary (steady_nullary (steady_start slotReadonly id _ {})
      ⟨fun _ => true, [], fun _ => rfl⟩) _ (acts_boolean id fun b => ⟨fun _ => b, [], fun _ => rfl⟩))
  case postamble =>
    exact stable_checkMatch (steady_nullary (steady_ensure (steady_start slotPostamble id _ {}) _)
      ⟨fun _ => true, [], fun _ => rfl⟩)
  case manual =>
    exact stable_checkMatch (steady_nullary (steady_ensure (steady_start slotManual id _ {}) _)
      ⟨fun _ => manualBindingsExpr d, [], fun _ => rfl⟩)
  all_goals exact stable_notHandled _

theorem stable_method : (fieldMethod a.kind).Stable (processMethod id d a) := by
  obtain ⟨k, args⟩ := a
  cases k
  case getterFor =>
    refine stable_checkMatch (steady_variadicCollect (steady_ensure (steady_start slotGetter id _ {}) _) _ _
      fun l => ?_)
    by_cases h : l.isEmpty = true
    · exact ⟨fun u => u, false, [], fun n => by simp only [h, if_true]; rfl⟩
    · exact ⟨fun u => l.foldl setInsert u, true, [], fun n => by simp only [h]; rfl⟩
  case setterFor =>
    refine stable_checkMatch (steady_variadicCollect (steady_ensure (steady_start slotSetter id _ {}) _) _ _
      fun l => ?_)
    by_cases h : l.isEmpty = true
    · exact ⟨fun u => u, false, [], fun n => by simp only [h, if_true]; rfl⟩
    · exact ⟨fun u => l.foldl setInsert u, true, [], fun n => by simp only [h]; rfl⟩
  all_goals exact stable_notHandled _

theorem stable_constructor : slotImplicit.Stable (processConstructor id d a) := by
  obtain ⟨k, args⟩ := a
  cases k
  case implicitConversion =>
    exact stable_checkMatch (steady_unary (steady_nullary (steady_ensure (steady_start slotImplicit id _ {}) _)
      ⟨fun _ => true, [], fun _ => rfl⟩) _ (acts_boolean id fun b => ⟨fun _ => b, [], fun _ => rfl⟩))
  all_goals exact stable_notHandled _

theorem stable_function : (fieldFunction a.kind).Stable (processFunction id d a) := by
  obtain ⟨k, args⟩ := a
  cases k
  case returnValuePolicy =>
    exact stable_checkMatch (steady_unary (steady_start slotPolicy id _ {}) _
      (acts_string id fun b => ⟨fun _ => b, [], fun _ => rfl⟩))
  case keepAlive =>
    refine stable_checkMatch (steady_binary (steady_start slotKeep id _ {}) _ fun v w => ?_)
    cases v <;> cases w <;> try exact slotKeep.acts_none _
    rename_i s t
    dsimp only
    cases h1 : lookupIndex (parameterNames d true d.kind.isMethod) s with
    | none => exact ⟨fun u => u, _, fun n => rfl⟩
    | some i =>
      cases h2 : lookupIndex (parameterNames d true d.kind.isMethod) t with
      | none => exact ⟨fun u => u, _, fun n => rfl⟩
      | some j => exact ⟨fun u => List.append u [(i, j)], [], fun n => rfl⟩
  case noconvert =>
    refine stable_checkMatch (steady_variadic (steady_start slotNoconvert id _ {}) _ (acts_string id fun t => ?_))
    cases h1 : lookupIndex (parameterNames d false false) t with
    | none => exact ⟨fun u => u, _, fun n => rfl⟩
    | some i => exact ⟨fun u => setInsert u i, [], fun n => rfl⟩
  case required =>
    refine stable_checkMatch (steady_variadic (steady_start slotRequired id _ {}) _ (acts_string id fun t => ?_))
    cases h1 : lookupIndex (parameterNames d false false) t with
    | none => exact ⟨fun u => u, _, fun n => rfl⟩
    | some i => exact ⟨fun u => setInsert u i, [], fun n => rfl⟩
  all_goals exact stable_notHandled _

/-! ### Order -/

theorem Slot.Apart.symm' {σ : Type} {s t : Slot σ} (h : s.Apart t) : t.Apart s :=
  ⟨fun n u v => (h.1 n v u).symm, h.2.2, h.2.1⟩

/-- The annotation does nothing here. -/
def Idle {σ : Type} (P : σ → Outcome σ) : Prop := ∀ n, P n = notHandled n

theorem commute_of {σ : Type} {s t : Slot σ} {P Q : σ → Outcome σ} (hp : s.Stable P) (hq : t.Stable Q)
    (h : Idle P ∨ Idle Q ∨ s.Apart t) (n : σ) : (P (Q n).attrs).attrs = (Q (P n).attrs).attrs := by
  rcases h with h | h | h
  · rw [h, h]; rfl
  · rw [h, h]; rfl
  · exact stable_commute h hp hq n

variable (b : Annotation) (hs : setting a.kind ≠ setting b.kind)
include hs

local macro "commute_tac" i:num k:ident l:ident hs:ident : tactic => `(tactic| (
  by_cases hk : responsible $k $i = true
  · by_cases hl : responsible $l $i = true
    · right; right
      cases $k:ident <;> simp only [responsible, Bool.or_eq_true, decide_eq_true_eq] at hk <;>
        cases $l:ident <;> simp only [responsible, Bool.or_eq_true, decide_eq_true_eq] at hl <;>
        first
        | (exfalso; exact $hs rfl)
        | (exfalso; omega)
        | exact ⟨fun _ _ _ => rfl, fun _ _ => rfl, fun _ _ => rfl⟩
    · right; left
      intro n
      cases $l:ident <;> first | rfl | exact absurd rfl hl
  · left
    intro n
    cases $k:ident <;> first | rfl | exact absurd rfl hk))

theorem commute_named (n : NamedDeclAttrs) :
    (processNamed id d a (processNamed id d b n).attrs).attrs = (processNamed id d b (processNamed id d a n).attrs).attrs := by
  refine commute_of (stable_named id d a) (stable_named id d b) ?_ n
  obtain ⟨k, as⟩ := a
  obtain ⟨l, bs⟩ := b
  commute_tac 0 k l hs

theorem commute_namespace (n : NamespaceDeclAttrs) :
    (processNamespace id a (processNamespace id b n).attrs).attrs = (processNamespace id b (processNamespace id a n).attrs).attrs := by
  refine commute_of (stable_namespace id a) (stable_namespace id b) ?_ n
  obtain ⟨k, as⟩ := a
  obtain ⟨l, bs⟩ := b
  commute_tac 1 k l hs

theorem commute_enum (n : EnumDeclAttrs) :
    (processEnum id a (processEnum id b n).attrs).attrs = (processEnum id b (processEnum id a n).attrs).attrs := by
  refine commute_of (stable_enum id a) (stable_enum id b) ?_ n
  obtain ⟨k, as⟩ := a
  obtain ⟨l, bs⟩ := b
  commute_tac 2 k l hs

theorem commute_record (n : RecordDeclAttrs) :
    (processRecord env id a (processRecord env id b n).attrs).attrs = (processRecord env id b (processRecord env id a n).attrs).attrs := by
  refine commute_of (stable_record env id a) (stable_record env id b) ?_ n
  obtain ⟨k, as⟩ := a
  obtain ⟨l, bs⟩ := b
  commute_tac 3 k l hs

theorem commute_var (n : FieldOrVarDeclAttrs) :
    (processFieldOrVar id d a (processFieldOrVar id d b n).attrs).attrs = (processFieldOrVar id d b (processFieldOrVar id d a n).attrs).attrs := by
  refine commute_of (stable_var id d a) (stable_var id d b) ?_ n
  obtain ⟨k, as⟩ := a
  obtain ⟨l, bs⟩ := b
  commute_tac 5 k l hs

theorem commute_method (n : MethodDeclAttrs) :
    (processMethod id d a (processMethod id d b n).attrs).attrs = (processMethod id d b (processMethod id d a n).attrs).attrs := by
  refine commute_of (stable_method id d a) (stable_method id d b) ?_ n
  obtain ⟨k, as⟩ := a
  obtain ⟨l, bs⟩ := b
  commute_tac 8 k l hs

theorem commute_constructor (n : ConstructorDeclAttrs) :
    (processConstructor id d a (processConstructor id d b n).attrs).attrs = (processConstructor id d b (processConstructor id d a n).attrs).attrs := by
  refine commute_of (stable_constructor id d a) (stable_constructor id d b) ?_ n
  obtain ⟨k, as⟩ := a
  obtain ⟨l, bs⟩ := b
  commute_tac 9 k l hs

theorem commute_function (n : FunctionDeclAttrs) :
    (processFunction id d a (processFunction id d b n).attrs).attrs = (processFunction id d b (processFunction id d a n).attrs).attrs := by
  refine commute_of (stable_function id d a) (stable_function id d b) ?_ n
  obtain ⟨k, as⟩ := a
  obtain ⟨l, bs⟩ := b
  commute_tac 10 k l hs

theorem commute_typedef (n : TypedefNameDeclAttrs) :
    (processTypedef id a (processTypedef id b n).attrs).attrs = (processTypedef id b (processTypedef id a n).attrs).attrs := by
  obtain ⟨k, as⟩ := a
  obtain ⟨l, bs⟩ := b
  by_cases hk : responsible k 4 = true
  · by_cases hl : responsible l 4 = true
    · exfalso
      cases k <;> simp only [responsible, Bool.or_eq_true, decide_eq_true_eq] at hk <;>
        cases l <;> simp only [responsible, Bool.or_eq_true, decide_eq_true_eq] at hl <;>
        first | exact hs rfl | omega
    · have : ∀ n, processTypedef id ⟨l, bs⟩ n = notHandled n := by
        intro n
        cases l <;> first | rfl | exact absurd rfl hl
      rw [this, this]; rfl
  · have : ∀ n, processTypedef id ⟨k, as⟩ n = notHandled n := by
      intro n
      cases k <;> first | rfl | exact absurd rfl hk
    rw [this, this]; rfl

end Verif
