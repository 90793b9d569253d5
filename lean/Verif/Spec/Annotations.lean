import Verif.Model.Storage
import Verif.Spec.Identifier
/-!
# Documented meaning of annotations

Written from README.md ("Annotations") and the comments of the headers, as
tables over the annotation kinds; no use is made of the dispatcher or of the
`supports` predicates of the model.  Only data types are shared.
-/
namespace Verif.Spec

/-- Argument lists an annotation can be used with. -/
inductive Form where
  /-- no arguments -/
  | bare
  /-- one argument of this kind -/
  | one (k : LiteralKind)
  /-- two arguments of this kind -/
  | two (k : LiteralKind)
  /-- one or more arguments of this kind -/
  | some (k : LiteralKind)
  /-- any number of arguments of this kind -/
  | any (k : LiteralKind)

/-- The argument list has the documented form. -/
def Form.Accepts : Form → List LiteralValue → Prop
  | .bare, args => args = []
  | .one k, args => args.map LiteralValue.kind = [k]
  | .two k, args => args.map LiteralValue.kind = [k, k]
  | .some k, args => args ≠ [] ∧ ∀ v ∈ args, v.kind = k
  | .any k, args => ∀ v ∈ args, v.kind = k

/-- The argument list has the right length for this form. -/
def Form.AcceptsCount : Form → Nat → Prop
  | .bare, n => n = 0
  | .one _, n => n = 1
  | .two _, n => n = 2
  | .some _, n => n ≠ 0
  | .any _, _ => True

instance (f : Form) (n : Nat) : Decidable (f.AcceptsCount n) := by
  cases f <;> unfold Form.AcceptsCount <;> infer_instance

/-- Documented argument forms. -/
def forms : AnnotationKind → List Form
  | .hidden => [.bare]
  | .visible => [.bare, .one .default, .one .boolean]
  | .exposeAs => [.one .default, .one .string]
  | .module => [.bare, .one .string]
  | .onlyExposeIn => [.some .string]
  | .arithmetic | .exportValues | .dynamicAttr | .readonly | .implicitConversion =>
    [.bare, .one .boolean]
  | .hideBase | .inlineBase => [.any .string]
  | .holderType | .returnValuePolicy => [.one .string]
  | .encourage | .exposeHere | .manual | .postamble => [.bare]
  | .keepAlive => [.two .string]
  | .noconvert | .required | .getterFor | .setterFor => [.some .string]

/-- Kinds of declarations an annotation can be used on. -/
def Applies : AnnotationKind → DeclInfo → Prop
  | .exposeAs, _ | .hidden, _ | .visible, _ => True
  | .module, d | .onlyExposeIn, d => d.kind = .namespace
  | .arithmetic, d | .exportValues, d => d.kind = .enum
  | .dynamicAttr, d | .hideBase, d | .holderType, d | .inlineBase, d => d.kind = .record
  | .encourage, d | .exposeHere, d => d.kind = .typedefName
  | .readonly, d | .manual, d | .postamble, d => d.kind = .field ∨ d.kind = .var
  | .getterFor, d | .setterFor, d =>
    d.kind = .method ∧ (d.operator = none ∨ d.operator = some .call)
  | .implicitConversion, d => d.kind = .constructor
  | .keepAlive, d | .noconvert, d | .required, d | .returnValuePolicy, d =>
    d.kind = .function ∨ d.kind = .method ∨ d.kind = .constructor ∨ d.kind = .conversion

/-- A variable initialized with a lambda usable for manual bindings: explicit
parameter list with exactly one parameter, which is an lvalue reference to a
type that is not `auto`. -/
def IsManualLambda (d : DeclInfo) (id : Nat) : Prop :=
  d.kind = .var ∧ ∃ l, d.lambda = some l ∧ l.id = id ∧ l.hasExplicitParameters = true ∧
    l.numParams = 1 ∧ l.paramIsLValueReference = true ∧ l.paramIsUndeducedAuto = false

/-- Further conditions on the declaration. -/
def SideCondition : AnnotationKind → DeclInfo → Prop
  | .getterFor, d => d.minRequired = 0 ∧ d.returnsVoid = false
  | .setterFor, d => 1 ≤ d.params.length ∧ d.minRequired ≤ 1
  | .implicitConversion, d => d.params.length = 1 ∧ d.converting = true
  | .manual, d => ∃ l, IsManualLambda d l
  | .postamble, d => (∃ l, IsManualLambda d l) ∧ d.inTranslationUnit = true
  | _, _ => True

/-- The annotation is used as documented. -/
def Documented (d : DeclInfo) (a : Annotation) : Prop :=
  Applies a.kind d ∧ SideCondition a.kind d ∧ ∃ f ∈ forms a.kind, f.Accepts a.arguments

/-- `i` is the first position of `s` in `names`. -/
def FirstAt (names : List Str) (s : Str) (i : Nat) : Prop :=
  names[i]? = some s ∧ ∀ j, j < i → names[j]? ≠ some s

/-- The names `keep_alive` understands, in the order of the indices they are
translated to by the code. -/
def keepAliveNames (d : DeclInfo) : List Str :=
  t%"return" :: (match d.kind with
    | .method | .constructor | .destructor | .conversion => t%"this" :: d.params
    | _ => d.params)

/-- `new` is `old` as a set with the elements satisfying `P` added. -/
def Adds {α : Type} (P : α → Prop) (old new : List α) : Prop :=
  ∀ x, x ∈ new ↔ x ∈ old ∨ P x

/-- A base selected by the names given (all if none are given). -/
def SelectsBase (env : DeclEnv) (args : List LiteralValue) (b : Nat) : Prop :=
  args = [] ∨ ∃ names : List Str, args = names.map .string ∧ env.hasName names b = true

/-- What an annotation used as documented does to the attributes. -/
def Effect (env : DeclEnv) (d : DeclInfo) (a : Annotation) (x y : DeclAttrs) : Prop :=
  match a.kind, a.arguments with
  | .hidden, _ => y = { x with named := { x.named with visible := some false } }
  | .visible, [] => y = { x with named := { x.named with visible := some true } }
  | .visible, [.boolean b] => y = { x with named := { x.named with visible := some b } }
  | .visible, _ => y = { x with named := { x.named with visible := none } }
  | .exposeAs, [.string s] =>
    (ValidIdent s → y = { x with named := { x.named with spelling := s } }) ∧
    (¬ ValidIdent s → y = x)
  | .exposeAs, _ => y = { x with named := { x.named with spelling := [] } }
  | .module, [.string s] =>
    (ValidIdent s → y = { x with
      named := { x.named with spelling := s }
      namespace_ := x.namespace_.map ({ · with module := true }) }) ∧
    (¬ ValidIdent s → y = { x with namespace_ := x.namespace_.map ({ · with module := true }) })
  | .module, _ => y = { x with namespace_ := x.namespace_.map ({ · with module := true }) }
  | .onlyExposeIn, args => ∃ names : List Str, args = names.map .string ∧
    y = { x with namespace_ := x.namespace_.map fun n =>
      { n with onlyExposeIn := n.onlyExposeIn ++ names } }
  | .arithmetic, [.boolean b] => y = { x with enum := x.enum.map ({ · with arithmetic := b }) }
  | .arithmetic, _ => y = { x with enum := x.enum.map ({ · with arithmetic := true }) }
  | .exportValues, [.boolean b] =>
    y = { x with enum := x.enum.map ({ · with exportValues := some b }) }
  | .exportValues, _ => y = { x with enum := x.enum.map ({ · with exportValues := some true }) }
  | .dynamicAttr, [.boolean b] =>
    y = { x with record := x.record.map ({ · with dynamicAttr := b }) }
  | .dynamicAttr, _ => y = { x with record := x.record.map ({ · with dynamicAttr := true }) }
  | .hideBase, args => ∃ r r', x.record = some r ∧ y = { x with record := some r' } ∧
    r' = { r with hideBase := r'.hideBase } ∧
    Adds (fun b => b ∈ d.bases ∧ SelectsBase env args b) r.hideBase r'.hideBase
  | .inlineBase, args => ∃ r r', x.record = some r ∧ y = { x with record := some r' } ∧
    r' = { r with inlineBase := r'.inlineBase } ∧
    Adds (fun b => b ∈ d.allBases ∧ SelectsBase env args b) r.inlineBase r'.inlineBase
  | .holderType, args => ∃ s, args = [.string s] ∧
    y = { x with record := x.record.map ({ · with holderType := s }) }
  | .encourage, _ => y = { x with typedefName := x.typedefName.map ({ · with encourage := true }) }
  | .exposeHere, _ =>
    y = { x with typedefName := x.typedefName.map ({ · with exposeHere := true }) }
  | .readonly, [.boolean b] =>
    y = { x with fieldOrVar := x.fieldOrVar.map ({ · with readonly := b }) }
  | .readonly, _ => y = { x with fieldOrVar := x.fieldOrVar.map ({ · with readonly := true }) }
  | .manual, _ => ∃ l, IsManualLambda d l ∧
    y = { x with fieldOrVar := x.fieldOrVar.map ({ · with manualBindings := some l }) }
  | .postamble, _ => y = { x with fieldOrVar := x.fieldOrVar.map ({ · with postamble := true }) }
  | .getterFor, args => ∃ m m', x.method = some m ∧ y = { x with method := some m' } ∧
    m'.setterFor = m.setterFor ∧
    (∀ s, s ≠ [] → (s ∈ m'.getterFor ↔ s ∈ m.getterFor ∨ ValidIdent s ∧ .string s ∈ args))
  | .setterFor, args => ∃ m m', x.method = some m ∧ y = { x with method := some m' } ∧
    m'.getterFor = m.getterFor ∧
    (∀ s, s ≠ [] → (s ∈ m'.setterFor ↔ s ∈ m.setterFor ∨ ValidIdent s ∧ .string s ∈ args))
  | .implicitConversion, [.boolean b] =>
    y = { x with constructor := x.constructor.map ({ · with implicitConversion := b }) }
  | .implicitConversion, _ =>
    y = { x with constructor := x.constructor.map ({ · with implicitConversion := true }) }
  | .returnValuePolicy, args => ∃ s, args = [.string s] ∧
    y = { x with function := x.function.map ({ · with returnValuePolicy := s }) }
  | .keepAlive, args => ∃ s t, args = [.string s, .string t] ∧
    (∀ i j, FirstAt (keepAliveNames d) s i → FirstAt (keepAliveNames d) t j →
      y = { x with function := x.function.map fun f =>
        { f with keepAlive := f.keepAlive ++ [(i, j)] } }) ∧
    (s ∉ keepAliveNames d ∨ t ∉ keepAliveNames d → y = x)
  | .noconvert, args => ∃ f f', x.function = some f ∧ y = { x with function := some f' } ∧
    f' = { f with noconvert := f'.noconvert } ∧
    Adds (fun i => ∃ s, .string s ∈ args ∧ FirstAt d.params s i) f.noconvert f'.noconvert
  | .required, args => ∃ f f', x.function = some f ∧ y = { x with function := some f' } ∧
    f' = { f with required := f'.required } ∧
    Adds (fun i => ∃ s, .string s ∈ args ∧ FirstAt d.params s i) f.required f'.required

open Classical in
/-- Kinds of diagnostics reported for one annotation used as documented (`y`:
attributes afterwards): one for every argument that names nothing or cannot be
used as a name (for `keep_alive` only for the first such argument), one for a
conflict, a warning if no base type is selected. -/
noncomputable def acceptedDiagKinds (env : DeclEnv) (d : DeclInfo) (a : Annotation)
    (y : DeclAttrs) : List DiagKind :=
  match a.kind with
  | .exposeAs | .module | .getterFor | .setterFor =>
    a.arguments.flatMap fun
      | .string s => if ValidIdent s then [] else [.invalidSpelling]
      | _ => []
  | .keepAlive =>
    match a.arguments with
    | [.string s, .string t] =>
      if s ∈ keepAliveNames d ∧ t ∈ keepAliveNames d then [] else [.invalidArgumentSpecifier]
    | _ => []
  | .noconvert | .required =>
    a.arguments.flatMap fun
      | .string s => if s ∈ d.params then [] else [.invalidArgumentSpecifier]
      | _ => []
  | .hideBase =>
    if ∃ b ∈ d.bases, SelectsBase env a.arguments b then [] else [.unknownBaseType]
  | .inlineBase =>
    if ∃ b ∈ d.allBases, SelectsBase env a.arguments b then [] else [.unknownBaseType]
  | .encourage | .exposeHere =>
    if ∃ t, y.typedefName = some t ∧ t.encourage = true ∧ t.exposeHere = true
    then [.conflictingAnnotations] else []
  | _ => []

/-- Attributes of a declaration have exactly the parts its kind calls for. -/
structure Shape (d : DeclInfo) (x : DeclAttrs) : Prop where
  namespace_ : x.namespace_.isSome ↔ d.kind = .namespace
  enum : x.enum.isSome ↔ d.kind = .enum
  record : x.record.isSome ↔ d.kind = .record
  typedefName : x.typedefName.isSome ↔ d.kind = .typedefName
  fieldOrVar : x.fieldOrVar.isSome ↔ d.kind = .field ∨ d.kind = .var
  method : x.method.isSome ↔ d.kind = .method ∧ (d.operator = none ∨ d.operator = some .call)
  constructor : x.constructor.isSome ↔ d.kind = .constructor
  function : x.function.isSome ↔
    d.kind = .function ∨ d.kind = .method ∨ d.kind = .constructor ∨ d.kind = .conversion

/-- The diagnostic says which annotation it is about. -/
def Mentions (g : Diag) (k : AnnotationKind) : Prop := ∃ arg ∈ g.args, kindName k <+: arg

/-- Diagnostics for an annotation that is not used as documented. -/
inductive RejectedWith (d : DeclInfo) (id : Nat) (a : Annotation) : List Diag → Prop where
  /-- used on the wrong kind of declaration; the error about the alias target is
  repeated -/
  | wrongDecl (extra g) : ¬ Applies a.kind d → g.kind = .invalidForDeclKind → g.decl = id →
      Mentions g a.kind → (extra = [] ∨ d.kind = .typedefName ∧ d.aliasTarget = none ∧
        extra = [⟨id, .unsupportedAliasTarget, []⟩]) →
      RejectedWith d id a (extra ++ [g])
  /-- side condition violated -/
  | side (g) : Applies a.kind d → ¬ SideCondition a.kind d →
      g.isError = true → g.decl = id → Mentions g a.kind → RejectedWith d id a [g]
  /-- arguments of wrong kind -/
  | wrongType (g) : Applies a.kind d → SideCondition a.kind d →
      (∃ f ∈ forms a.kind, f.AcceptsCount a.arguments.length) →
      g.kind = .wrongArgumentType → g.decl = id → Mentions g a.kind → RejectedWith d id a [g]
  /-- wrong number of arguments -/
  | wrongCount (g) : Applies a.kind d → SideCondition a.kind d →
      (¬ ∃ f ∈ forms a.kind, f.AcceptsCount a.arguments.length) →
      g.kind = .wrongNumberOfArguments → g.decl = id → Mentions g a.kind →
      RejectedWith d id a [g]

/-- The texts of the `annotate` attributes of a declaration, all well-formed,
spell these annotations.  Attributes without the marker are not ours. -/
inductive TextsRead (marker : Str) : List Str → List Annotation → Prop where
  | nil : TextsRead marker [] []
  | other (t ts as) : ¬ marker <+: t → TextsRead marker ts as → TextsRead marker (t :: ts) as
  | ours (t ls new ts as) : Lexes t ls → Anns ls new → TextsRead marker ts as →
      TextsRead marker ((marker ++ t) :: ts) (new ++ as)

/-- The UTF-8 encoding of the marker "◊" (U+25CA) all annotations start with. -/
def marker : Str := [Char.ofNat 0xE2, Char.ofNat 0x97, Char.ofNat 0x8A]

/-- The visibility an annotation asks for, if any. -/
def visibilityGiven : Annotation → Option (Option Bool)
  | ⟨.hidden, []⟩ => some (some false)
  | ⟨.visible, []⟩ => some (some true)
  | ⟨.visible, [.default]⟩ => some none
  | ⟨.visible, [.boolean b]⟩ => some (some b)
  | _ => none

open Classical in
/-- The spelling an annotation asks for, if any (`[]`: the C++ name). -/
noncomputable def spellingGiven (d : DeclInfo) : Annotation → Option Str
  | ⟨.exposeAs, [.default]⟩ => some []
  | ⟨.exposeAs, [.string s]⟩ => if ValidIdent s then some s else none
  | ⟨.module, [.string s]⟩ => if ValidIdent s ∧ d.kind = .namespace then some s else none
  | _ => none

/-- Some annotation text has contents besides white space. -/
def HasContents (d : DeclInfo) : Prop :=
  ∃ rest, marker ++ rest ∈ d.attrTexts ∧ ∃ c ∈ rest, ¬ (HSpace c ∨ c = '\n' ∨ c = '\r')

end Verif.Spec
