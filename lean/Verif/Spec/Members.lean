import Verif.Spec.Run
import Verif.Spec.Inlining
import Verif.Spec.ClassOperators
/-!
# What is expected to become part of the objects of a module
-/
namespace Verif.Spec

/-- A context whose contents can become part of the module: it is placed in the translation
unit, not in a namespace for other modules, and the types around it and itself are visible. -/
def Contributes (w : World) (s : Storage) (name : Str) (g : Graph) (x : Nat) : Prop :=
  Reachable g x ∧ ¬ InOther w s name g x ∧ ∀ a, Below g a x → IsType w a → EffVisible w s g a

/-- Base `b` is inlined into the class `x`. -/
def InlinedInto (w : EmitWorld) (s : Storage) (x b : Nat) : Prop :=
  (w.info x).kind = .record ∧
    (createFromAnnotations s (w.hierarchy x) x).shouldInline b = true

/-- Lookup in context `x` finds `m`, which is accessible, not hidden, and not inherited unless
from an inlined base. -/
def FoundIn (w : EmitWorld) (s : Storage) (x m : Nat) : Prop :=
  ∃ f ∈ w.found x, Exposable (InlinedInto w s x) f ∧ m = f.shadows.getD f.decl ∧
    (w.info m).kind ≠ .namespace ∧ (w.info m).kind ≠ .enum ∧ (w.info m).kind ≠ .record ∧
    (w.info m).kind ≠ .translationUnit ∧ w.hasLocation m = true

/-- The declaration is visible in context `x`: by its own annotations, or because it has none
about that and the context is visible. -/
def VisibleIn (w : EmitWorld) (s : Storage) (g : Graph) (x d : Nat) : Prop :=
  ∃ a, attrsOf w s d = some a ∧
    (a.named.visible = some true ∨ a.named.visible = none ∧ EffVisible w.toWorld s g x)

/-- The declaration becomes a function of context `x`, if it is visible: a function, method or
conversion that is neither deleted nor used for a property nor, in a class, an operator. -/
def FunctionIn (w : EmitWorld) (s : Storage) (x d : Nat) : Prop :=
  isPlainFunction (w.info d) = true ∧ (w.fn d).isDeleted = false ∧ isAccessor w s d = false ∧
    ((w.info x).kind = .record → isOperator (w.info d) = false)

/-- A statement that does this has been executed for this object. -/
def Has {α : Type} (executed : List Execution) (object : List Str) (what : Stmt → Option α) (v : α) : Prop :=
  ∃ e ∈ executed, e.object = object ∧ what e.stmt = some v

/-- The contents of context `x` are defined for this object. -/
def Fills (w : World) (s : Storage) (m : Members) (name : Str) (g : Graph) (place : Nat → List Str)
    (x : Nat) (object : List Str) : Prop :=
  Contributes w s name g x ∧ ((w.info x).kind = .namespace → HasVisible w s m (EffVisible w s g) g x) ∧
    place x = object

/-- Lookup in context `x` finds the declaration, or a template it is a specialization of, and it
is visible. -/
def Offers (w : EmitWorld) (s : Storage) (g : Graph) (x d : Nat) : Prop :=
  (∃ m, FoundIn w s x m ∧ d ∈ specializationsOf w m) ∧ VisibleIn w s g x d

/-- An annotated alias, which becomes an attribute that refers to type `t`; not one that moves
the type. -/
def AliasFor (w : EmitWorld) (s : Storage) (d : Nat) (t : Str) : Prop :=
  ∃ a q, attrsOf w s d = some a ∧ a.typedefName = some q ∧ a.named.visible ≠ none ∧
    q.exposeHere = false ∧ w.aliasTag d = some t

/-- A variable or data member that is not used for manual bindings, and its annotations. -/
def DataMember (w : EmitWorld) (s : Storage) (d : Nat) (v : FieldOrVarDeclAttrs) : Prop :=
  ∃ a, attrsOf w s d = some a ∧ a.fieldOrVar = some v ∧ v.manualBindings = none

/-- What is assumed about name lookup: it gives the same for all declarations of a namespace,
what argument dependent lookup finds for the names of operators are operators, and
specializations are no templates. -/
structure LookupOK (w : EmitWorld) : Prop where
  same : ∀ x y, SameNamespace w.toWorld x y → w.found x = w.found y
  operators : ∀ r, ∀ f ∈ w.associated r, ∀ d ∈ specializationsOf w f, overloadsOperator (w.info d) = true
  specialized : ∀ t l, w.specializations t = some l → ∀ d ∈ l, w.specializations d = none

/-- A run has resulted in this graph of contexts, which are sorted like this, and in these
objects. -/
structure Placement (i : ToolInput) (name : Str) (g : Graph) (b : Building) (order : List Nat)
    (place : Nat → List Str) : Prop where
  graph : buildGraph i.world.toWorld i.tree = (some g, b)
  sorted : ValidOrder i.world.toWorld b.storage i.world.bases
    (analyze i.world.toWorld b.storage i.members name g).pruned order
  objects : ∀ x ∈ (analyze i.world.toWorld b.storage i.members name g).pruned.nodes,
    Refers i.world b.storage (analyze i.world.toWorld b.storage i.members name g).pruned order x (place x)

/-- What is executed on import of the module. -/
def executed (i : ToolInput) (name : Str) (g : Graph) (b : Building) (order : List Nat)
    (place : Nat → List Str) : List Execution :=
  executionsOf i.world b.storage (analyze i.world.toWorld b.storage i.members name g).vis order place

end Verif.Spec
