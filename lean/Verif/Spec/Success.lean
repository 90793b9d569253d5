import Verif.Spec.Members
import Verif.Spec.Pragmas
/-!
# When a run is expected to succeed

Everything that has to be in order, each in terms of the source code.
-/
namespace Verif.Spec

/-- The names given as arguments are ones that can be used: Python identifiers, or parameters
of the function. -/
def ValuesOK (d : DeclInfo) (a : Annotation) : Prop :=
  ∀ s, LiteralValue.string s ∈ a.arguments →
    match a.kind with
    | .exposeAs | .module | .getterFor | .setterFor => ValidIdent s
    | .keepAlive => s ∈ keepAliveNames d
    | .noconvert | .required => s ∈ d.params
    | _ => True

/-- The annotations of the declaration can be read, are used as documented, with meaningful
arguments, and not contradictory; if it is an alias, it names a type definition. -/
def WellAnnotated (d : DeclInfo) : Prop :=
  ∃ as, TextsRead marker d.attrTexts as ∧ (∀ a ∈ as, Documented d a ∧ ValuesOK d a) ∧
    ¬ ((∃ a ∈ as, a.kind = .encourage) ∧ ∃ a ∈ as, a.kind = .exposeHere) ∧
    (d.kind = .typedefName → (∃ t ∈ d.attrTexts, marker <+: t) → d.aliasTarget ≠ none)

/-- The pragma has been rejected as a directive, or names a file and nothing else; what is behind
the name is overlooked if it is a single token at the end of the file. -/
def PragmaOK (l : PragmaLine) : Prop :=
  l.accepted = false ∨ (∃ file, IncludePragma l file) ∨
    l.endsFile = true ∧ ∃ file t, file ≠ [] ∧
      l.tokens = [.identifier t%"include", .filename file, t]

/-- No ordinary parameter follows `**kwargs`. -/
def KwargsLast (ps : List FnParam) : Prop :=
  ∀ (i j : Nat) (p q : FnParam), i < j → ps[i]? = some p → ps[j]? = some q →
    p.param.argsType = some .kwargs → q.param.argsType ≠ none

/-- A declaration considered for context `x`: found by lookup there, or an operator for the
class. -/
def Considered (w : EmitWorld) (s : Storage) (x d : Nat) : Prop :=
  (∃ m, FoundIn w s x m ∧ d ∈ specializationsOf w m) ∨
    (w.info x).kind = .record ∧ isFreeOperator w x d

/-- The declaration can be exposed in context `x`. -/
structure CanExpose (w : EmitWorld) (s : Storage) (x d : Nat) : Prop where
  /-- as a function -/
  function : (w.info x).kind ≠ .enum → FunctionIn w s x d → KwargsLast (w.fn d).params
  /-- as a constructor -/
  constructor : (w.info x).kind = .record → callable w x d = true → KwargsLast (w.fn d).params
  /-- as an operator: there is a name to compare with the one of `std::ostream` -/
  operator : (w.info x).kind = .record → overloadsOperator (w.info d) = true →
    (w.fn d).isDeleted = false → (w.info d).kind.isMethod = false →
    (w.info d).operator = some .lessLess → (w.fn d).firstPointee ≠ .unnamed

/-- A visible method of class `x` that is to be used as getter of property `n`. -/
def GetterIn (w : EmitWorld) (s : Storage) (g : Graph) (x : Nat) (n : Str) (d : Nat) : Prop :=
  Offers w s g x d ∧ ∃ a m, attrsOf w s d = some a ∧ a.method = some m ∧ n ∈ m.getterFor

/-- A visible method of class `x` that is to be used as setter of property `n`. -/
def SetterIn (w : EmitWorld) (s : Storage) (g : Graph) (x : Nat) (n : Str) (d : Nat) : Prop :=
  Offers w s g x d ∧ ∃ a m, attrsOf w s d = some a ∧ a.method = some m ∧ n ∈ m.setterFor

/-- Nothing is wrong with the contents of context `x`. -/
structure ContextOK (w : EmitWorld) (s : Storage) (g : Graph) (x : Nat) : Prop where
  annotations : ∀ d, Considered w s x d → WellAnnotated (w.info d)
  exposed : ∀ d, Considered w s x d → VisibleIn w s g x d → CanExpose w s x d
  /-- no property has two getters -/
  getters : (w.info x).kind = .record → ∀ n d d', GetterIn w s g x n d → GetterIn w s g x n d' → d = d'
  /-- no property has two setters -/
  setters : (w.info x).kind = .record → ∀ n d d', SetterIn w s g x n d → SetterIn w s g x n d' → d = d'
  /-- no property has a setter only -/
  readable : (w.info x).kind = .record → ∀ n d, SetterIn w s g x n d → ∃ d', GetterIn w s g x n d'

/-- What is assumed about where declarations are found: constructors and data members in
classes, and variables of the translation unit not in classes.  Lookup finds members of classes
once, unless hidden by other declarations. -/
structure MembersOK (w : EmitWorld) : Prop where
  ofClass : ∀ x, ∀ f ∈ w.found x, ∀ d ∈ specializationsOf w (f.shadows.getD f.decl),
    (w.info d).kind = .constructor ∨ (w.info d).kind = .field → (w.info x).kind = .record
  ofUnit : ∀ x, ∀ f ∈ w.found x, ∀ d ∈ specializationsOf w (f.shadows.getD f.decl),
    (w.info d).kind = .var → (w.info d).inTranslationUnit = true → (w.info x).kind ≠ .record
  once : ∀ x, (w.info x).kind = .record → (w.found x).Pairwise fun f f' =>
    f.hiddenBy = none → f'.hiddenBy = none → ∀ d ∈ specializationsOf w (f.shadows.getD f.decl),
      d ∉ specializationsOf w (f'.shadows.getD f'.decl)
  distinct : ∀ m, (specializationsOf w m).Nodup

end Verif.Spec
