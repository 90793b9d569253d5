import Verif.Spec.Contents
import Verif.Spec.Names
/-!
# Python names given by the source code
-/
namespace Verif.Spec

/-- What an attribute comes from; enumerators can be available outside of their enum. -/
inductive Origin where
  | function (d : Nat) | member (d : Nat) | attribute (d : Nat) | property (n : Str)
  | enumerator (d : Nat) | exported (enum : List Str) (d : Nat)
  deriving DecidableEq, Repr

/-- Names of operators: they begin with two underscores, or are empty if Python has no such
operator. -/
def isOperatorName (n : Str) : Prop := n = [] ∨ ['_', '_'] <+: n

/-- According to the source code the object has an attribute of this name. -/
inductive HasAttr (i : ToolInput) (s : Storage) (g : Graph) (name : Str) (place : Nat → List Str) :
    List Str → Str → What → Origin → Prop where
  | constructor {x d o} : Fills i.world.toWorld s i.members name g place x o →
      (i.world.info x).kind = .record → Offers i.world s g x d → callable i.world x d = true →
      HasAttr i s g name place o t%"__init__" (.function true) (.function d)
  | function {x d o} : Fills i.world.toWorld s i.members name g place x o →
      (i.world.info x).kind ≠ .enum → Offers i.world s g x d → FunctionIn i.world s x d →
      HasAttr i s g name place o (pythonName i.world s d)
        (.function (decide ((i.world.info x).kind = .record) &&
          !((i.world.info d).kind.isMethod && (i.world.fn d).isStatic))) (.function d)
  | operator {x d o n} : Fills i.world.toWorld s i.members name g place x o →
      (i.world.info x).kind = .record →
      ((∃ m, FoundIn i.world s x m ∧ d ∈ specializationsOf i.world m) ∨ isFreeOperator i.world x d) →
      VisibleIn i.world s g x d → definesOperator i.world x d = true → isOperatorName n →
      HasAttr i s g name place o n (.function true) (.function d)
  | stream {x d o n} : Fills i.world.toWorld s i.members name g place x o →
      (i.world.info x).kind = .record → isFreeOperator i.world x d → VisibleIn i.world s g x d →
      PrintsAs i.world s d n → HasAttr i s g name place o n (.function true) (.function d)
  | member {x d o v} : Fills i.world.toWorld s i.members name g place x o →
      (i.world.info x).kind = .record → Offers i.world s g x d → DataMember i.world s d v →
      HasAttr i s g name place o (pythonName i.world s d)
        (if (i.world.info d).kind = .var then .staticData else .value) (.member d)
  | attribute {x d o} : Fills i.world.toWorld s i.members name g place x o →
      (i.world.info x).kind ≠ .enum → Offers i.world s g x d →
      (∃ t, AliasFor i.world s d t) ∨ (i.world.info x).kind ≠ .record ∧ (i.world.info d).kind = .var ∧
        (∃ v, DataMember i.world s d v) →
      HasAttr i s g name place o (pythonName i.world s d) .value (.attribute d)
  | property {x d o n} : Fills i.world.toWorld s i.members name g place x o →
      (i.world.info x).kind = .record → GetterIn i.world s g x n d →
      HasAttr i s g name place o n .value (.property n)
  | enumerator {x d o} : Fills i.world.toWorld s i.members name g place x o →
      (i.world.info x).kind = .enum → Offers i.world s g x d → (i.world.info d).kind = .enumConstant →
      HasAttr i s g name place o (pythonName i.world s d) .enumerator (.enumerator d)
  | exported {x d o} : Fills i.world.toWorld s i.members name g place x o →
      (i.world.info x).kind = .enum → ExportsValues i.world s x → Offers i.world s g x d →
      (i.world.info d).kind = .enumConstant →
      HasAttr i s g name place o.dropLast (pythonName i.world s d) .value (.exported o d)

/-- Different things have different Python names, except for overloads: functions of one object,
all of them static or none. -/
structure DistinctNames (i : ToolInput) (s : Storage) (g : Graph) (name : Str) (place : Nat → List Str)
    (mro : List Str → List (List Str)) (start : PyNames) : Prop where
  names : ∀ o n w w' r r', HasAttr i s g name place o n w r → HasAttr i s g name place o n w' r' →
    r = r' ∧ w = w' ∨ ∃ k, w = .function k ∧ w' = .function k
  /-- also different from the ones of classes, enums and submodules -/
  fresh : ∀ o n w r, HasAttr i s g name place o n w r → start o n = none
  /-- functions have the names of functions only, if at all, in bases -/
  functions : ∀ o n k r, HasAttr i s g name place o n (.function k) r → isPrivateName n = false →
    ∀ b ∈ mro o, start b n = none ∧
      ∀ w' r', HasAttr i s g name place b n w' r' → ∃ k', w' = .function k'
  /-- static data members have names of their own in all derived classes -/
  statics : ∀ o n w r, HasAttr i s g name place o n w r → w ≠ .staticData →
    ∀ b ∈ mro o, ∀ r', ¬ HasAttr i s g name place b n .staticData r'

/-- Lookup in an enum finds each enumerator once. -/
def EnumeratorsOnce (w : EmitWorld) : Prop :=
  ∀ x, (w.info x).kind = .enum → (w.found x).Pairwise fun f f' =>
    f.hiddenBy = none → f'.hiddenBy = none → ∀ d ∈ specializationsOf w (f.shadows.getD f.decl),
      d ∉ specializationsOf w (f'.shadows.getD f'.decl)

/-- Namespaces are not inside of classes or enums. -/
def NamespacesOutside (w : World) : Prop :=
  ∀ x p, (w.info x).kind = .namespace → ScopeOf w x p → ¬ IsType w p

end Verif.Spec
