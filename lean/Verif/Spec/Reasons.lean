import Verif.Model.Tool
import Verif.Spec.Success
/-!
# What justifies a diagnostic

For every kind of diagnostic: what has to be the case in the source code for it to be true, and
which declaration and which texts it has to name.
-/
namespace Verif.Spec

/-- The kind of arguments the form is about. -/
def Form.literal : Form → Option LiteralKind
  | .bare => none
  | .one k | .two k | .some k | .any k => Option.some k

/-- What declarations are called in messages. -/
def called (d : DeclInfo) : Str :=
  match d.kind, d.operator with
  | .namespace, _ => t%"namespace"
  | .enum, _ => t%"enum"
  | .record, _ => t%"class"
  | .typedefName, _ => t%"type alias"
  | .field, _ | .var, _ => t%"variable"
  | .conversion, none | .conversion, some .call => t%"conversion function"
  | .method, none | .method, some .call => t%"method"
  | .constructor, none | .constructor, some .call => t%"constructor"
  | .function, none | .function, some .call => t%"free function"
  | .destructor, none | .destructor, some .call => t%"named declaration"
  | .deductionGuide, none | .deductionGuide, some .call => t%"named declaration"
  | .translationUnit, _ | .linkageSpec, _ | .enumConstant, _ | .other, _ => t%"named declaration"
  | _, _ => t%"operator"

/-- Some list of annotations starts with these lexemes. -/
def Viable (ls : List Lexeme) : Prop := ∃ more as, Anns (ls ++ more) as

/-- A parenthesis is open behind these lexemes. -/
def Unclosed (ls : List Lexeme) : Prop := ∃ front c, ls = front ++ .lpar :: c ∧ Lexeme.rpar ∉ c

/-- An annotation can start behind these lexemes. -/
def Starting (ls : List Lexeme) : Prop := ls = [] ∨ ls.getLast? = some .comma

/-- What is said about a list of annotations that goes wrong behind these lexemes, with this one or
at the end: a name is not the name of an annotation, or the parenthesis that is open is not closed,
or there is something that does not belong there. -/
def Wrong (ls : List Lexeme) (next : Option Lexeme) : ParseErrorKind → Prop
  | .invalidAnnotation => ¬ Unclosed ls ∧ Starting ls ∧ ∃ s, next = some (.ident s) ∧ ∀ k, s ≠ kindName k
  | .missingClosingParen => Unclosed ls ∧ ∀ s, next ≠ some (.bad s)
  | .invalidToken => (∃ s, next = some (.bad s)) ∨
      ¬ Unclosed ls ∧ next ≠ none ∧ (Starting ls → ∀ s, next ≠ some (.ident s))

/-- The lexemes are no list of annotations, and `tok` is the first one at which that is clear: the
ones in front of it could still become a list of annotations, but not with it.  It is empty if
something is missing at the end. -/
def StopsAt (ls : List Lexeme) (e : ParseErrorKind) (tok : Str) : Prop :=
  (∃ pre l rest, ls = pre ++ l :: rest ∧ tok = l.text ∧ Viable pre ∧ ¬ Viable (pre ++ [l]) ∧
      Wrong pre (some l) e) ∨
    tok = [] ∧ Viable ls ∧ (¬ ∃ as, Anns ls as) ∧ Wrong ls none e

/-- The annotation is spelled in one of the texts attached to the declaration, behind other
annotations only. -/
def Spelled (d : DeclInfo) (a : Annotation) : Prop :=
  ∃ text ls front rest as, marker ++ text ∈ d.attrTexts ∧ Lexes text ls ∧ ls = front ++ rest ∧
    Anns front as ∧ a ∈ as

/-- What justifies a complaint about one annotation of a declaration. -/
inductive Complaint (env : DeclEnv) (id : Nat) (a : Annotation) : Diag → Prop where
  /-- it is not meant for declarations like this, or for variables that are not initialized by
  a suitable lambda -/
  | unsupported (p : Str) : (¬ Applies a.kind (env.info id) ∨
        (a.kind = .manual ∨ a.kind = .postamble) ∧ ¬ ∃ l, IsManualLambda (env.info id) l) →
      a.print = some p → Complaint env id a ⟨id, .invalidForDeclKind, [called (env.info id), p]⟩
  /-- the constructor does not convert -/
  | converting (p : Str) : a.kind = .implicitConversion → Applies a.kind (env.info id) →
      ¬ SideCondition a.kind (env.info id) → a.print = some p →
      Complaint env id a ⟨id, .invalidForDeclKind, [t%"non-converting constructor", p]⟩
  /-- the method cannot be used to get or set a property -/
  | signature : a.kind = .getterFor ∨ a.kind = .setterFor → Applies a.kind (env.info id) →
      ¬ SideCondition a.kind (env.info id) →
      Complaint env id a ⟨id, .incompatibleSignature, [called (env.info id), kindName a.kind]⟩
  /-- the lambda is not defined in the translation unit itself -/
  | scope (l : Nat) : a.kind = .postamble → IsManualLambda (env.info id) l →
      (env.info id).inTranslationUnit = false →
      Complaint env id a ⟨id, .onlyGlobalScope, [kindName a.kind]⟩
  /-- this argument is of a kind that cannot be used here at all -/
  | type (v : LiteralValue) : Applies a.kind (env.info id) → SideCondition a.kind (env.info id) →
      (∃ f ∈ forms a.kind, f.AcceptsCount a.arguments.length) → v ∈ a.arguments →
      (∀ f ∈ forms a.kind, f.literal ≠ some v.kind) →
      Complaint env id a ⟨id, .wrongArgumentType, [kindName a.kind, v.print]⟩
  /-- there are too many or too few arguments -/
  | number : Applies a.kind (env.info id) → SideCondition a.kind (env.info id) →
      (¬ ∃ f ∈ forms a.kind, f.AcceptsCount a.arguments.length) →
      Complaint env id a ⟨id, .wrongNumberOfArguments, [kindName a.kind]⟩
  /-- the argument is to be used as a name in Python, but cannot -/
  | spelling (s : Str) : a.kind ∈ [.exposeAs, .module, .getterFor, .setterFor] →
      .string s ∈ a.arguments → ¬ ValidIdent s →
      Complaint env id a ⟨id, .invalidSpelling, [kindName a.kind, s]⟩
  /-- the argument is to be the name of a parameter, but is not -/
  | parameter (s : Str) : (a.kind = .keepAlive ∧ s ∉ keepAliveNames (env.info id) ∨
        (a.kind = .noconvert ∨ a.kind = .required) ∧ s ∉ (env.info id).params) →
      .string s ∈ a.arguments →
      Complaint env id a ⟨id, .invalidArgumentSpecifier, [kindName a.kind, s]⟩
  /-- there is no such base class -/
  | base : (a.kind = .hideBase ∧ (¬ ∃ b ∈ (env.info id).bases, SelectsBase env a.arguments b) ∨
        a.kind = .inlineBase ∧ ¬ ∃ b ∈ (env.info id).allBases, SelectsBase env a.arguments b) →
      Complaint env id a ⟨id, .unknownBaseType, [kindName a.kind]⟩

/-- What justifies a complaint about the annotations of a declaration. -/
inductive AnnotationReason (env : DeclEnv) (id : Nat) : Diag → Prop where
  /-- one of the texts is no list of annotations -/
  | text (t tok : Str) (ls : List Lexeme) (e : ParseErrorKind) :
      marker ++ t ∈ (env.info id).attrTexts → Lexes t ls → StopsAt ls e tok →
      AnnotationReason env id ⟨id, .parseError e, [tok]⟩
  /-- the alias is annotated, but not of a class or enum that is defined -/
  | target : (env.info id).kind = .typedefName → (env.info id).aliasTarget = none →
      (∃ t ∈ (env.info id).attrTexts, marker <+: t) →
      AnnotationReason env id ⟨id, .unsupportedAliasTarget, []⟩
  /-- two annotations that exclude each other -/
  | conflict : Spelled (env.info id) ⟨.encourage, []⟩ → Spelled (env.info id) ⟨.exposeHere, []⟩ →
      AnnotationReason env id
        ⟨id, .conflictingAnnotations, [kindName .encourage, kindName .exposeHere]⟩
  /-- one annotation -/
  | annotation (a : Annotation) (g : Diag) : Spelled (env.info id) a → Complaint env id a g →
      AnnotationReason env id g

/-! ### The translation unit -/

mutual
/-- The declarations of a tree in the order in which they end. -/
def ends : Tree → List Nat
  | .node id children => endsAll children ++ [id]
/-- Those of several trees. -/
def endsAll : List Tree → List Nat
  | [] => []
  | t :: ts => ends t ++ endsAll ts
end

/-- `a` comes before `b` in the list. -/
def Precedes (l : List Nat) (a b : Nat) : Prop := ∃ pre mid post, l = pre ++ a :: mid ++ b :: post

/-- `f` comes first among those with a property. -/
def FirstIn (l : List Nat) (P : Nat → Prop) (f : Nat) : Prop := P f ∧ ∀ u, P u → u ≠ f → Precedes l f u

/-- A declaration of namespace `n` that is annotated or contains something that is. -/
def Opens (w : World) (root : Tree) (n x : Nat) : Prop :=
  (w.info x).kind = .namespace ∧ w.canonical x = n ∧ ∃ t, Occurs w root t ∧ t.id = x ∧ Relevant w t

/-- The same is said about both declarations. -/
def SaysSame (w : World) (x y : Nat) : Prop :=
  (Annotated w x ↔ Annotated w y) ∧ (Annotated w x → ownAttrs w x = ownAttrs w y)

/-- What justifies a complaint before anything is known about the structure of the module. -/
inductive SourceReason (w : World) (root : Tree) : Diag → Prop where
  /-- the annotations of a declaration of the translation unit -/
  | own (t : Tree) (g : Diag) : Occurs w root t → Annotated w t.id →
      AnnotationReason w.toDeclEnv t.id g → SourceReason w root g
  /-- qualifiers of an annotated alias, which have no effect -/
  | qualifiers (t : Tree) : Occurs w root t → Annotated w t.id → (w.info t.id).kind = .typedefName →
      (w.info t.id).aliasQualified = true → SourceReason w root ⟨t.id, .ignoringQualifiers, []⟩
  /-- a further declaration of a namespace that differs from the first one -/
  | differs (x f : Nat) : FirstIn (ends root) (Opens w root (w.canonical x)) f →
      Opens w root (w.canonical x) x → ¬ SaysSame w x f → SourceReason w root ⟨x, .needToMatchFirstDecl, []⟩
  /-- the first one -/
  | first (x f : Nat) : FirstIn (ends root) (Opens w root (w.canonical x)) f →
      Opens w root (w.canonical x) x → ¬ SaysSame w x f → SourceReason w root ⟨f, .noteDeclaredAt, []⟩
  /-- the annotations of a type for which there is an alias -/
  | target (a x : Nat) (g : Diag) : ExposesHere w root a x ∨ Encourages w root a x →
      AnnotationReason w.toDeclEnv x g → SourceReason w root g
  /-- an alias by which a type is moved that has been moved before -/
  | again (a f x : Nat) : FirstIn (ids root) (fun a => ExposesHere w root a x) f →
      ExposesHere w root a x → a ≠ f →
      SourceReason w root ⟨a, .alreadyExposedElsewhere, [(w.info x).name]⟩
  /-- the first alias for this type -/
  | previous (a f x : Nat) : FirstIn (ids root) (fun a => ExposesHere w root a x) f →
      ExposesHere w root a x → a ≠ f →
      SourceReason w root ⟨f, .previouslyExposedHere, [(w.info x).name]⟩

/-- The contents of context `x` are written. -/
def WrittenOut (i : ToolInput) (name : Str) (s : Storage) (g : Graph) (x : Nat) : Prop :=
  Contributes i.world.toWorld s name g x ∧ ((i.world.info x).kind = .namespace →
    HasVisible i.world.toWorld s i.members (EffVisible i.world.toWorld s g) g x)

/-- What justifies a complaint about the structure of the module, given by the places of contexts
`g` and annotations `s`, or about the contents of contexts. -/
inductive ModuleReason (i : ToolInput) (name : Str) (s : Storage) (g : Graph) : Diag → Prop where
  /-- an alias by which a type is moved into itself, or into one that is moved into itself -/
  | cycle (a x : Nat) : ExposesHere i.world.toWorld i.tree a x → ¬ Reachable g x →
      ModuleReason i name s g ⟨a, .exposeHereCycle, []⟩
  /-- a context that is not exposed, even though it contains something visible; it stands for
  itself, or is represented by the alias by which it is moved -/
  | hidden (x y : Nat) : Reachable g x → x ≠ g.root →
      HasVisible i.world.toWorld s i.members (EffVisible i.world.toWorld s g) g x →
      ¬ InOther i.world.toWorld s name g x → ¬ WrittenOut i name s g x →
      (ExposesHere i.world.toWorld i.tree y x ∨
        y = x ∧ ¬ ∃ a, ExposesHere i.world.toWorld i.tree a x) →
      ModuleReason i name s g ⟨y, .unreachableDeclContext, []⟩
  /-- a context that cannot be exposed before itself, or before one of which this is true -/
  | dependency (c x : Nat) :
      Steps (Depends i.world.toWorld s i.world.bases
        (analyze i.world.toWorld s i.members name g).pruned) c c →
      (c = x ∨ Steps (Depends i.world.toWorld s i.world.bases
        (analyze i.world.toWorld s i.members name g).pruned) c x) →
      ModuleReason i name s g ⟨x, .exposeHereCycle, []⟩
  /-- the annotations of something in a context -/
  | member (x d : Nat) (q : Diag) : WrittenOut i name s g x → Considered i.world s x d →
      AnnotationReason i.world.toDeclEnv d q → ModuleReason i name s g q
  /-- a parameter `**kwargs` of a function or constructor that is followed by an ordinary one, with
  nothing but `*args` in between -/
  | parameter (x d m n : Nat) (p q : FnParam) : WrittenOut i name s g x → Considered i.world s x d →
      VisibleIn i.world s g x d →
      ((i.world.info x).kind ≠ .enum ∧ FunctionIn i.world s x d ∨
        (i.world.info x).kind = .record ∧ callable i.world x d = true) →
      m < n → (i.world.fn d).params[m]? = some p → (i.world.fn d).params[n]? = some q →
      p.param.argsType = some .kwargs → q.param.argsType = none →
      (∀ k r, m < k → k < n → (i.world.fn d).params[k]? = some r → r.param.argsType = some .args) →
      ModuleReason i name s g ⟨p.param.id, .trailingParameters, []⟩
  /-- a further getter of a property -/
  | getter (x : Nat) (n : Str) (d d' : Nat) : WrittenOut i name s g x → (i.world.info x).kind = .record →
      GetterIn i.world s g x n d → GetterIn i.world s g x n d' → d ≠ d' →
      ModuleReason i name s g ⟨d, .propertyAlreadyDefined, [n, t%"0"]⟩
  /-- a further setter of a property -/
  | setter (x : Nat) (n : Str) (d d' : Nat) : WrittenOut i name s g x → (i.world.info x).kind = .record →
      SetterIn i.world s g x n d → SetterIn i.world s g x n d' → d ≠ d' →
      ModuleReason i name s g ⟨d, .propertyAlreadyDefined, [n, t%"1"]⟩
  /-- a getter or setter of which there is a further one -/
  | replaced (x : Nat) (n : Str) (d d' : Nat) : WrittenOut i name s g x → (i.world.info x).kind = .record →
      (GetterIn i.world s g x n d ∧ GetterIn i.world s g x n d' ∨
        SetterIn i.world s g x n d ∧ SetterIn i.world s g x n d') → d ≠ d' →
      ModuleReason i name s g ⟨d, .notePreviousDefinition, []⟩
  /-- a property with a setter only -/
  | unreadable (x : Nat) (n : Str) (d : Nat) : WrittenOut i name s g x → (i.world.info x).kind = .record →
      SetterIn i.world s g x n d → (¬ ∃ d', GetterIn i.world s g x n d') →
      ModuleReason i name s g ⟨d, .propertyHasNoGetter, [n]⟩
  /-- not a message: `<<` for a pointer to something without a name is not supported -/
  | unnamed (x d : Nat) : WrittenOut i name s g x → Considered i.world s x d → VisibleIn i.world s g x d →
      (i.world.info x).kind = .record → overloadsOperator (i.world.info d) = true →
      (i.world.fn d).isDeleted = false → (i.world.info d).kind.isMethod = false →
      (i.world.info d).operator = some .lessLess → (i.world.fn d).firstPointee = .unnamed →
      ModuleReason i name s g ⟨d, .assertion, []⟩

end Verif.Spec
