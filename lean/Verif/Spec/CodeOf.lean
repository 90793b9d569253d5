import Verif.Spec.Code
import Verif.Spec.Tool
/-!
# What the generated code should say

What is expected when generated text is read (Spec/Code.lean).
-/
namespace Verif.Spec.Code

/-! ### Assumptions about texts provided by clang -/

/-- Read a text that does not end an argument or statement. -/
def scan (p : Pos) : Str → Option Pos
  | [] => some p
  | c :: t =>
    if (c = ',' && p.top) || (c = ';' && p.outside) then none
    else match p.next c with
      | none => none
      | some p => scan p t

/-- A type, name or expression: not empty, without spaces around it, all brackets (including
angle brackets) match, and commas and semicolons are in brackets. -/
def Clean (x : Str) : Prop :=
  (∃ c t, x = c :: t ∧ isSpace c = false) ∧ (∀ c, x.getLast? = some c → isSpace c = false) ∧
  scan {} x = some {}

/-- Read a text in brackets without leaving these. -/
def inside (p : Pos) : Str → Option Pos
  | [] => some p
  | c :: t =>
    match p.next c with
    | none => none
    | some p => if p.depth = 0 then none else inside p t

/-- The text of a block, with white space after it; the brackets in it match. -/
def CleanBlock (x : Str) : Prop :=
  ∃ block space, x = '{' :: block ++ '}' :: space ∧ space.all isSpace = true ∧
    inside { depth := 1 } block = some { depth := 1 }

/-- What is between the braces of a block. -/
def blockOf (x : Str) : Str :=
  ((x.drop 1).reverse.dropWhile isSpace).tail.reverse

/-- All characters are bytes. -/
def Bytes (x : Str) : Prop := ∀ c ∈ x, c.toNat < 256

/-- An identifier. -/
def Word (x : Str) : Prop := x ≠ [] ∧ ∀ c ∈ x, isIdentifierContinue c = true

/-! ### Statements -/

/-- Keyword arguments. -/
def extraOf (a : ArgOut) : Extra := .arg a.name a.noconvert (!a.noneFalse) a.default

/-- Policies. -/
def policyOf : PolicyOut → Extra
  | .returnValuePolicy p => .returnValuePolicy p
  | .keepAlive i j => .keepAlive i j

/-- Functions. -/
def targetOf (p : FnPtr) : Target := .overload p.types p.name p.isConst

/-- Operators. -/
def operatorOf (l : OpLambda) : Target :=
  .lambda (l.params.map fun p => (p.1, p.2.text)) l.returnType
    (match l.body with
      | .unary k p => .unary k.spelling p.text
      | .binary p k q => .binary p.text k.spelling q.text)

/-- A text that is left out if empty. -/
def optional (x : Str) : Option Str := if x = [] then none else some x

/-- What a statement does. -/
def statementOf (w : EmitWorld) : Stmt → Statement
  | .implicitlyConvertible _ source target => .implicitlyConvertible source target
  | .init _ types doc args policies => .constructor types doc (args.map extraOf ++ policies.map policyOf)
  | .function _ isStatic name pointer doc args policies =>
    .function isStatic name (targetOf pointer) (some doc) (args.map extraOf ++ policies.map policyOf)
  | .operator _ name definition doc => .function false name (operatorOf definition) (some doc) [.isOperator]
  | .stringFromLshift _ name record => .function false name (.lshift record) none []
  | .typeAttr _ name target => .typeAttribute name target
  | .valueAttr _ name qualified => .attribute name qualified
  | .manual _ lambda => .manual (w.manual lambda).context (blockOf (w.manual lambda).body)
  | .property name getter setter => .property name (targetOf getter) (setter.map targetOf)
  | .field _ readonly isStatic name qualified => .member isStatic (!readonly) name qualified
  | .enumValue _ name scope enumerator doc => .enumerator name (scope ++ t%"::" ++ enumerator) (optional doc)
  | .exportValues => .exportValues
  | .useContext => .nothing

/-- Assumptions about a keyword argument. -/
def ArgOut.Clean (a : ArgOut) : Prop := Bytes a.name ∧ ∀ e, a.default = some e → Code.Clean e

/-- Assumptions about a policy. -/
def PolicyOut.Clean : PolicyOut → Prop
  | .returnValuePolicy p => Code.Clean p
  | .keepAlive _ _ => True

/-- Assumptions about a function. -/
def FnPtr.Clean (p : FnPtr) : Prop := (∀ t ∈ p.types, Code.Clean t) ∧ Code.Clean p.name

/-- Assumptions about an operator: `co_await` is not separated from its operand. -/
def OpLambda.Clean (l : OpLambda) : Prop :=
  (∀ p ∈ l.params, Code.Clean p.1) ∧ Code.Clean l.returnType ∧
  match l.body with
  | .unary k _ => ∀ c ∈ k.spelling, isIdentifierContinue c = false
  | .binary _ _ _ => True

/-- Assumptions about manual bindings. -/
def ManualInfo.Clean (m : ManualInfo) : Prop :=
  CleanBlock m.body ∧ ∀ name, m.context = some name → Code.Clean name

/-- Assumptions about the texts in a statement. -/
def Stmt.Clean (w : EmitWorld) : Stmt → Prop
  | .implicitlyConvertible _ source target => Code.Clean source ∧ Code.Clean target
  | .init _ types doc args policies => (∀ t ∈ types, Code.Clean t) ∧ Bytes doc ∧
    (∀ a ∈ args, ArgOut.Clean a) ∧ ∀ p ∈ policies, PolicyOut.Clean p
  | .function _ _ name pointer doc args policies => Bytes name ∧ FnPtr.Clean pointer ∧ Bytes doc ∧
    (∀ a ∈ args, ArgOut.Clean a) ∧ ∀ p ∈ policies, PolicyOut.Clean p
  | .operator _ name definition doc => Bytes name ∧ OpLambda.Clean definition ∧ Bytes doc
  | .stringFromLshift _ name record => Bytes name ∧ Code.Clean record
  | .typeAttr _ name target => Bytes name ∧ Code.Clean target
  | .valueAttr _ name qualified => Bytes name ∧ Code.Clean qualified ∧
    strip t%"genpybind::getObjectForType<" qualified = none
  | .manual _ lambda => ManualInfo.Clean (w.manual lambda)
  | .property name getter setter => Bytes name ∧ FnPtr.Clean getter ∧ ∀ s, setter = some s → FnPtr.Clean s
  | .field _ _ _ name qualified => Bytes name ∧ Code.Clean qualified
  | .enumValue _ name scope enumerator doc => Bytes name ∧ Code.Clean scope ∧ Code.Clean enumerator ∧ Bytes doc
  | .exportValues => True
  | .useContext => True

/-! ### Files -/

/-- The type of the object of a context. -/
def objectTypeOf : ContextType → ObjectType
  | .module => .module
  | .enum name => .enum name
  | .record name bases holder => .class_ (name :: bases ++ (optional holder).toList)

/-- The object of a context. -/
def creationOf : Introducer → Creation
  | .same parent => .same parent
  | .submodule parent name => .submodule parent name
  | .type type parent name doc flag => .type (objectTypeOf type) parent name (optional doc) flag

/-- Assumptions about the type of an object. -/
def ContextType.Clean : ContextType → Prop
  | .module => True
  | .enum name => Code.Clean name
  | .record name bases holder => Code.Clean name ∧ (∀ b ∈ bases, Code.Clean b) ∧
    (holder ≠ [] → Code.Clean holder)

/-- Assumptions about how an object is created. -/
def Introducer.Clean : Introducer → Prop
  | .same parent => Word parent
  | .submodule parent name => Word parent ∧ Bytes name
  | .type type parent name doc flag => ContextType.Clean type ∧ Word parent ∧ Bytes name ∧ Bytes doc ∧
    ∀ f, flag = some f → Code.Clean f ∧ literal f = none

/-- Assumptions about the texts in a line. -/
def Line.Clean (w : EmitWorld) : Line → Prop
  | .declare identifier type => Word identifier ∧ ContextType.Clean type
  | .blank => True
  | .moduleBegin name => Word name
  | .introduce identifier i => Word identifier ∧ Introducer.Clean i
  | .call identifier => Word identifier
  | .postamble _ lambda => ManualInfo.Clean (w.manual lambda)
  | .moduleEnd => True
  | .defineBegin identifier type => Word identifier ∧ ContextType.Clean type
  | .stmt s => Stmt.Clean w s
  | .defineEnd => True

/-- What is expected in the module definition, for contexts with their identifiers: all
objects are created, then the functions applied to these, then additional manual bindings. -/
def moduleOf (w : EmitWorld) (s : Storage) (g : Graph) (order : List Nat) : List ModuleStatement :=
  let l := (contextsOf w order).zip (identifiersOf w order)
  (l.map fun p => .create p.2 (creationOf ((Exposer.create w s p.1).introducer w s g
    (parentIdentifier w s g order p.1)))) ++
  (l.map fun p => .call p.2 p.2) ++
  (w.unitVars.filterMap fun v => (postambleLambda s v).map fun m =>
    .manual (w.manual m).context (blockOf (w.manual m).body))

/-- What is expected for a context, in file number `k`. -/
def contextFunctionOf (w : EmitWorld) (s : Storage) (g : Graph) (vis : Visibilities) (k x : Nat)
    (identifier : Str) : List Declaration :=
  (if k ≠ 0 then [.declare identifier (objectTypeOf (contextTypeOf w s g x))] else []) ++
  [.define identifier (objectTypeOf (contextTypeOf w s g x))
    ((exposeContext w vis s (Exposer.create w s x) x).emitted.stmts.map (statementOf w))]

/-- What is expected in file number `k` of `n` after the includes. -/
def declarationsOf (w : EmitWorld) (s : Storage) (g : Graph) (vis : Visibilities) (name : Str)
    (order : List Nat) (n k : Nat) : List Declaration :=
  (if k = 0 then
    (((contextsOf w order).zip (identifiersOf w order)).map fun p =>
      .declare p.2 (objectTypeOf (contextTypeOf w s g p.1))) ++
    [.module name (moduleOf w s g order)]
  else []) ++
  (((contextsOf w order).zip (identifiersOf w order)).zipIdx.filter fun p =>
    p.2 * n / (contextsOf w order).length = k).flatMap fun p => contextFunctionOf w s g vis k p.1.1 p.1.2

/-! ### Assumptions about the input -/

/-- Texts about a function. -/
structure FnTexts (f : FnInfo) : Prop where
  name : Clean f.pointerName
  result : Clean f.returnType
  params : ∀ p ∈ f.params, Clean p.originalType ∧ Clean p.type.text ∧ Bytes p.param.name ∧
    ∀ e, p.param.default = some e → Clean e

/-- Texts provided by clang (see `Clean`); all strings consist of bytes.  Values for
other declarations (e.g. `typeName` of a function) are never used.  The operator
`co_await` is not used. -/
structure TextsOK (w : EmitWorld) : Prop where
  functions : ∀ f, FnTexts (w.fn f)
  types : ∀ x, Clean (w.typeName x)
  qualified : ∀ x, Clean (w.qualifiedName x) ∧
    strip t%"genpybind::getObjectForType<" (w.qualifiedName x) = none
  self : ∀ r c, Clean (w.selfType r c).text
  aliases : ∀ x t, w.aliasTag x = some t → Clean t
  docs : ∀ x, Bytes (w.brief x)
  spelling : ∀ x, Bytes (getSpelling (w.info x))
  enumerators : ∀ x, (w.info x).kind = .enumConstant → Clean (w.info x).name
  manual : ∀ m, ManualInfo.Clean (w.manual m)
  await : ∀ x, (w.info x).operator ≠ some .coawait

/-- Texts in annotations. -/
structure AttrTexts (a : DeclAttrs) : Prop where
  spelling : Bytes a.named.spelling
  holder : ∀ r, a.record = some r → r.holderType ≠ [] → Clean r.holderType
  policy : ∀ f, a.function = some f → f.returnValuePolicy ≠ [] → Clean f.returnValuePolicy
  getters : ∀ m, a.method = some m → ∀ n ∈ m.getterFor, Bytes n
  setters : ∀ m, a.method = some m → ∀ n ∈ m.setterFor, Bytes n

/-- See `AttrTexts`. -/
def AnnotationsOK (w : EmitWorld) (s : Storage) : Prop :=
  ∀ d a, attrsOf w s d = some a → AttrTexts a

/-- Texts in annotations that become part of the code as they are. -/
structure GivenTexts (w : EmitWorld) : Prop where
  holder : ∀ d a r, ownAttrs w.toWorld d = some a → a.record = some r → r.holderType ≠ [] →
    Clean r.holderType
  policy : ∀ d a f, ownAttrs w.toWorld d = some a → a.function = some f → f.returnValuePolicy ≠ [] →
    Clean f.returnValuePolicy

/-- What every file includes. -/
def includesOf (i : ToolInput) : List Str :=
  ('"' :: i.mainFile ++ ['"']) :: t%"<genpybind/binding-helpers.h>" :: t%"<pybind11/pybind11.h>" ::
  (handlePragmas i.pragmas).includes

end Verif.Spec.Code
