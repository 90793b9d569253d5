import Verif.Model.Decl
import Verif.Model.Identifier
/-!
# Attributes derived from annotations (src/annotated_decl.cpp)

Attribute structures, argument dispatch, and all overloads of
`processAnnotation`.
-/
namespace Verif

/-! ### Attribute structures, include/genpybind/annotated_decl.h:47-191 -/

/-- `NamedDeclAttrs`, annotated_decl.h:47-58. -/
structure NamedDeclAttrs where
  spelling : Str := []
  visible : Option Bool := none
  deriving DecidableEq, Repr

/-- `NamespaceDeclAttrs`, annotated_decl.h:64-71. -/
structure NamespaceDeclAttrs where
  module : Bool := false
  onlyExposeIn : List Str := []
  deriving DecidableEq, Repr

/-- `EnumDeclAttrs`, annotated_decl.h:77-84. -/
structure EnumDeclAttrs where
  arithmetic : Bool := false
  exportValues : Option Bool := none
  deriving DecidableEq, Repr

/-- `RecordDeclAttrs`, annotated_decl.h:90-99.  Sets are lists without
repetition in insertion order. -/
structure RecordDeclAttrs where
  dynamicAttr : Bool := false
  hideBase : List Nat := []
  inlineBase : List Nat := []
  holderType : Str := []
  deriving DecidableEq, Repr

/-- `TypedefNameDeclAttrs`, annotated_decl.h:105-114. -/
structure TypedefNameDeclAttrs where
  encourage : Bool := false
  exposeHere : Bool := false
  deriving DecidableEq, Repr

/-- `FieldOrVarDeclAttrs`, annotated_decl.h:120-128. -/
structure FieldOrVarDeclAttrs where
  readonly : Bool := false
  manualBindings : Option Nat := none
  postamble : Bool := false
  deriving DecidableEq, Repr

/-- `MethodDeclAttrs`, annotated_decl.h:157-164.  Sets as in `RecordDeclAttrs`. -/
structure MethodDeclAttrs where
  getterFor : List Str := []
  setterFor : List Str := []
  deriving DecidableEq, Repr

/-- `ConstructorDeclAttrs`, annotated_decl.h:170-176. -/
structure ConstructorDeclAttrs where
  implicitConversion : Bool := false
  deriving DecidableEq, Repr

/-- `FunctionDeclAttrs`, annotated_decl.h:182-191.  Sets as in `RecordDeclAttrs`. -/
structure FunctionDeclAttrs where
  keepAlive : List (Nat × Nat) := []
  noconvert : List Nat := []
  required : List Nat := []
  returnValuePolicy : Str := []
  deriving DecidableEq, Repr

/-- `SmallSet::insert` / `SmallPtrSet::insert`. -/
def setInsert {α : Type} [DecidableEq α] (s : List α) (x : α) : List α :=
  if x ∈ s then s else s ++ [x]

/-! ### Which attributes a declaration supports -/

/-- `k_lozenge`, src/annotated_decl.cpp:56, the UTF-8 bytes of "◊". -/
def lozenge : Str := ['\xe2', '\x97', '\x8a']

/-- `StringRef::ltrim()` (characters " \t\n\v\f\r"). -/
def ltrim (s : Str) : Str :=
  s.dropWhile fun c =>
    c = ' ' || c = '\t' || c = '\n' || c = '\x0b' || c = '\x0c' || c = '\r'

/-- `StringRef::consume_front`: the rest after the prefix, if it is one. -/
def consumeFront (pre s : Str) : Option Str :=
  if pre.isPrefixOf s then some (s.drop pre.length) else none

/-- `hasAnnotations`, src/annotated_decl.cpp:58-68. -/
def hasAnnotations (d : DeclInfo) (allowEmpty : Bool := true) : Bool :=
  d.attrTexts.any fun text =>
    match consumeFront lozenge text with
    | none => false
    | some rest => if allowEmpty then true else !(ltrim rest).isEmpty

/-- `NamespaceDeclAttrs::supports`, src/annotated_decl.cpp:340-342. -/
def supportsNamespace (d : DeclInfo) : Bool := d.kind = .namespace
/-- `EnumDeclAttrs::supports`, src/annotated_decl.cpp:370-372. -/
def supportsEnum (d : DeclInfo) : Bool := d.kind = .enum
/-- `RecordDeclAttrs::supports`, src/annotated_decl.cpp:401-403. -/
def supportsRecord (d : DeclInfo) : Bool := d.kind = .record
/-- `TypedefNameDeclAttrs::supports`, src/annotated_decl.cpp:494-503 (result). -/
def supportsTypedef (d : DeclInfo) : Bool := d.kind = .typedefName
/-- `TypedefNameDeclAttrs::supports`, src/annotated_decl.cpp:494-503 (what it
reports as a side effect, on every call). -/
def supportsTypedefDiags (id : Nat) (d : DeclInfo) : List Diag :=
  if d.kind = .typedefName ∧ d.aliasTarget = none ∧ hasAnnotations d
  then [{ decl := id, kind := .unsupportedAliasTarget }] else []
/-- `FieldOrVarDeclAttrs::supports`, src/annotated_decl.cpp:815-817. -/
def supportsFieldOrVar (d : DeclInfo) : Bool := d.kind = .field || d.kind = .var
/-- `OperatorDeclAttrs::supports`, src/annotated_decl.cpp:677-683. -/
def supportsOperator (d : DeclInfo) : Bool :=
  d.kind.isFunction && (match d.operator with
    | none => false
    | some o => o ≠ .call)
/-- `ConversionFunctionDeclAttrs::supports`, src/annotated_decl.cpp:691-693. -/
def supportsConversion (d : DeclInfo) : Bool := d.kind = .conversion
/-- `FunctionDeclAttrs::supports`, src/annotated_decl.cpp:576-580. -/
def supportsFunction (d : DeclInfo) : Bool :=
  d.kind.isFunction && d.kind ≠ .deductionGuide && d.kind ≠ .destructor
/-- `MethodDeclAttrs::supports`, src/annotated_decl.cpp:701-707. -/
def supportsMethod (d : DeclInfo) : Bool :=
  d.kind.isMethod && supportsFunction d && d.kind ≠ .constructor &&
    !supportsOperator d && !supportsConversion d
/-- `ConstructorDeclAttrs::supports`, src/annotated_decl.cpp:779-781. -/
def supportsConstructor (d : DeclInfo) : Bool := d.kind = .constructor

/-- `friendlyName`, src/annotated_decl.cpp:90-113. -/
def friendlyName (d : DeclInfo) : Str :=
  if supportsNamespace d then t%"namespace"
  else if supportsEnum d then t%"enum"
  else if supportsRecord d then t%"class"
  else if supportsTypedef d then t%"type alias"
  else if supportsFieldOrVar d then t%"variable"
  else if supportsOperator d then t%"operator"
  else if supportsConversion d then t%"conversion function"
  else if supportsMethod d then t%"method"
  else if supportsConstructor d then t%"constructor"
  else if supportsFunction d then t%"free function"
  else t%"named declaration"

/-- Name of an annotation kind in diagnostics. -/
def kindText (k : AnnotationKind) : Str := k.toString?.getD []

/-! ### Argument dispatch -/

/-- `ArgumentsDispatcher::State`, src/annotated_decl.cpp:144. -/
inductive DispatchState where
  | unmatched | matched | invalid
  deriving DecidableEq, Repr

/-- `ArgumentsDispatcher`, src/annotated_decl.cpp:140-250, together with the
attributes its callbacks modify and the diagnostics reported so far. -/
structure Dispatcher (σ : Type) where
  decl : Nat
  kind : AnnotationKind
  args : List LiteralValue
  state : DispatchState := .unmatched
  mismatch : Option LiteralValue := none
  attrs : σ
  diags : List Diag := []

/-- Result of a `processAnnotation` overload: its return value, the attributes,
what was reported. -/
structure Outcome (σ : Type) where
  handled : Bool
  attrs : σ
  diags : List Diag
  deriving Repr

/-- A callback modifying the attributes. -/
abbrev Callback (σ : Type) := σ → σ × List Diag

namespace Dispatcher
variable {σ : Type}

/-- Constructor, src/annotated_decl.cpp:158-161. -/
def start (decl : Nat) (a : Annotation) (attrs : σ) : Dispatcher σ :=
  { decl, kind := a.kind, args := a.arguments, attrs }

/-- `checkArgKinds`, src/annotated_decl.cpp:147-155. -/
def checkArgKinds (d : Dispatcher σ) (k : LiteralKind) : Bool × Dispatcher σ :=
  match d.args.find? (fun v => !v.isa k) with
  | some v => (false, { d with mismatch := some v })
  | none => (true, d)

/-- Run a callback. -/
def call (d : Dispatcher σ) (f : Callback σ) : Dispatcher σ :=
  { d with attrs := (f d.attrs).1, diags := d.diags ++ (f d.attrs).2 }

/-- `ensure`, src/annotated_decl.cpp:182-186; `condition` gives its value and
what it reports. -/
def ensure (d : Dispatcher σ) (condition : Bool × List Diag) : Dispatcher σ :=
  if d.state ≠ .invalid then
    if condition.1 then { d with diags := d.diags ++ condition.2 }
    else { d with state := .invalid, diags := d.diags ++ condition.2 }
  else d

/-- `nullary`, src/annotated_decl.cpp:189-195. -/
def nullary (d : Dispatcher σ) (f : Callback σ) : Dispatcher σ :=
  if d.state = .unmatched ∧ d.args = [] then { d.call f with state := .matched } else d

/-- `unary`, src/annotated_decl.cpp:198-206. -/
def unary (d : Dispatcher σ) (k : LiteralKind) (f : LiteralValue → Callback σ) : Dispatcher σ :=
  if d.state = .unmatched then
    match d.args with
    | [v] =>
      let r := d.checkArgKinds k
      if r.1 then { r.2.call (f v) with state := .matched } else r.2
    | _ => d
  else d

/-- `binary`, src/annotated_decl.cpp:209-218. -/
def binary (d : Dispatcher σ) (k : LiteralKind) (f : LiteralValue → LiteralValue → Callback σ) :
    Dispatcher σ :=
  if d.state = .unmatched then
    match d.args with
    | [v, w] =>
      let r := d.checkArgKinds k
      if r.1 then { r.2.call (f v w) with state := .matched } else r.2
    | _ => d
  else d

/-- `variadic` with one callback, src/annotated_decl.cpp:221-230. -/
def variadic (d : Dispatcher σ) (k : LiteralKind) (f : LiteralValue → Callback σ) : Dispatcher σ :=
  if d.state = .unmatched ∧ d.args ≠ [] then
    let r := d.checkArgKinds k
    if r.1 then { r.2.args.foldl (fun d v => d.call (f v)) r.2 with state := .matched } else r.2
  else d

/-- `variadic` with transformation, src/annotated_decl.cpp:236-249.  `transform`
yields a text and what it reports; `process` says whether it matched. -/
def variadicCollect (d : Dispatcher σ) (k : LiteralKind)
    (transform : LiteralValue → Str × List Diag)
    (process : List Str → σ → Bool × σ × List Diag) : Dispatcher σ :=
  if d.state = .unmatched then
    let r := d.checkArgKinds k
    if r.1 then
      let results := r.2.args.map fun v => (transform v).1
      let p := process results r.2.attrs
      { r.2 with
        attrs := p.2.1
        diags := r.2.diags ++ r.2.args.flatMap (fun v => (transform v).2) ++ p.2.2
        state := if p.1 then .matched else r.2.state }
    else r.2
  else d

/-- `onMatch`, src/annotated_decl.cpp:176-180 (the handler only reports). -/
def onMatch (d : Dispatcher σ) (handler : σ → List Diag) : Dispatcher σ :=
  if d.state = .matched then { d with diags := d.diags ++ handler d.attrs } else d

/-- `checkMatch`, src/annotated_decl.cpp:163-173, as the value returned by
`processAnnotation`. -/
def checkMatch (d : Dispatcher σ) : Outcome σ :=
  { handled := d.state = .matched
    attrs := d.attrs
    diags := d.diags ++
      (if d.state = .unmatched then
        match d.mismatch with
        | some v => [{ decl := d.decl, kind := .wrongArgumentType, args := [kindText d.kind, v.print] }]
        | none => [{ decl := d.decl, kind := .wrongNumberOfArguments, args := [kindText d.kind] }]
      else []) }

/-- `return false` without `checkMatch`. -/
def unchecked (d : Dispatcher σ) : Outcome σ :=
  { handled := false, attrs := d.attrs, diags := d.diags }

end Dispatcher

/-- Failed assertion: a literal value read as something it is not,
literal_value.cpp:127-140. -/
def assertionFailed (id : Nat) : List Diag := [{ decl := id, kind := .assertion }]

/-- Callback on `value.getString()`. -/
def onString {σ : Type} (id : Nat) (f : Str → Callback σ) : LiteralValue → Callback σ
  | .string s => f s
  | _ => fun a => (a, assertionFailed id)

/-- Callback on `value.getBoolean()`. -/
def onBoolean {σ : Type} (id : Nat) (f : Bool → Callback σ) : LiteralValue → Callback σ
  | .boolean b => f b
  | _ => fun a => (a, assertionFailed id)

/-- Callback that only modifies. -/
def modify {σ : Type} (f : σ → σ) : Callback σ := fun a => (f a, [])

/-- The `default: return false` of every overload. -/
def notHandled {σ : Type} (attrs : σ) : Outcome σ := { handled := false, attrs, diags := [] }

/-! ### `processAnnotation` overloads -/

/-- The callback shared by `expose_as` and `module`, src/annotated_decl.cpp:283-292
and 298-306. -/
def setSpelling (id : Nat) (k : AnnotationKind) : LiteralValue → Callback NamedDeclAttrs :=
  onString id fun text a =>
    if isValidIdentifier text then ({ a with spelling := text }, [])
    else (a, [{ decl := id, kind := .invalidSpelling, args := [kindText k, text] }])

/-- `processAnnotation(..., NamedDeclAttrs &)`, src/annotated_decl.cpp:258-314. -/
def processNamed (id : Nat) (d : DeclInfo) (a : Annotation) (attrs : NamedDeclAttrs) :
    Outcome NamedDeclAttrs :=
  let dispatch := Dispatcher.start id a attrs
  match a.kind with
  | .hidden => (dispatch.nullary (modify fun x => { x with visible := some false })).checkMatch
  | .visible =>
    dispatch.nullary (modify fun x => { x with visible := some true })
      |>.unary .default (fun _ => modify fun x => { x with visible := none })
      |>.unary .boolean (onBoolean id fun b => modify fun x => { x with visible := some b })
      |>.checkMatch
  | .exposeAs =>
    dispatch.unary .default (fun _ => modify fun x => { x with spelling := [] })
      |>.unary .string (setSpelling id .exposeAs)
      |>.checkMatch
  | .module =>
    dispatch.ensure (d.kind = .namespace, [])
      |>.unary .string (setSpelling id .module)
      |>.unchecked
  | _ => notHandled attrs

/-- `processAnnotation(..., NamespaceDeclAttrs &)`, src/annotated_decl.cpp:344-368. -/
def processNamespace (id : Nat) (a : Annotation) (attrs : NamespaceDeclAttrs) :
    Outcome NamespaceDeclAttrs :=
  let dispatch := Dispatcher.start id a attrs
  match a.kind with
  | .module =>
    dispatch.nullary (modify fun x => { x with module := true })
      |>.unary .string (fun _ => modify fun x => { x with module := true })
      |>.checkMatch
  | .onlyExposeIn =>
    (dispatch.variadic .string (onString id fun s => modify fun x =>
      { x with onlyExposeIn := x.onlyExposeIn ++ [s] })).checkMatch
  | _ => notHandled attrs

/-- `processAnnotation(..., EnumDeclAttrs &)`, src/annotated_decl.cpp:374-399. -/
def processEnum (id : Nat) (a : Annotation) (attrs : EnumDeclAttrs) : Outcome EnumDeclAttrs :=
  let dispatch := Dispatcher.start id a attrs
  match a.kind with
  | .arithmetic =>
    dispatch.nullary (modify fun x => { x with arithmetic := true })
      |>.unary .boolean (onBoolean id fun b => modify fun x => { x with arithmetic := b })
      |>.checkMatch
  | .exportValues =>
    dispatch.nullary (modify fun x => { x with exportValues := some true })
      |>.unary .boolean (onBoolean id fun b => modify fun x => { x with exportValues := some b })
      |>.checkMatch
  | _ => notHandled attrs

/-- `value.getString()` as used by the transforming callbacks. -/
def stringText (id : Nat) : LiteralValue → Str × List Diag
  | .string s => (s, [])
  | _ => ([], assertionFailed id)

/-- Bases selected by a `hide_base`/`inline_base` annotation: all, or those with
one of the names, src/annotated_decl.cpp:437-444 and 470-478. -/
def selectBases (env : DeclEnv) (names : List Str) (bases : List Nat) : List Nat :=
  bases.filter fun b => names.isEmpty || env.hasName names b

/-- The warning at src/annotated_decl.cpp:446-451 and 480-485. -/
def unknownBaseDiags (id : Nat) (k : AnnotationKind) (found : List Nat) : List Diag :=
  if found.isEmpty then [{ decl := id, kind := .unknownBaseType, args := [kindText k] }] else []

/-- `processAnnotation(..., RecordDeclAttrs &)`, src/annotated_decl.cpp:405-492. -/
def processRecord (env : DeclEnv) (id : Nat) (a : Annotation) (attrs : RecordDeclAttrs) :
    Outcome RecordDeclAttrs :=
  let dispatch := Dispatcher.start id a attrs
  match a.kind with
  | .dynamicAttr =>
    dispatch.nullary (modify fun x => { x with dynamicAttr := true })
      |>.unary .boolean (onBoolean id fun b => modify fun x => { x with dynamicAttr := b })
      |>.checkMatch
  | .hideBase =>
    (dispatch.variadicCollect .string (stringText id) fun names x =>
      let found := selectBases env names (env.info id).bases
      (true, { x with hideBase := found.foldl setInsert x.hideBase },
        unknownBaseDiags id .hideBase found)).checkMatch
  | .holderType =>
    (dispatch.unary .string (onString id fun s => modify fun x => { x with holderType := s })).checkMatch
  | .inlineBase =>
    (dispatch.variadicCollect .string (stringText id) fun names x =>
      let found := selectBases env names (env.info id).allBases
      (true, { x with inlineBase := found.foldl setInsert x.inlineBase },
        unknownBaseDiags id .inlineBase found)).checkMatch
  | _ => notHandled attrs

/-- `check_for_conflict`, src/annotated_decl.cpp:510-515. -/
def checkForConflict (id : Nat) (x : TypedefNameDeclAttrs) : List Diag :=
  if x.encourage ∧ x.exposeHere then
    [{ decl := id, kind := .conflictingAnnotations,
       args := [kindText .encourage, kindText .exposeHere] }]
  else []

/-- `processAnnotation(..., TypedefNameDeclAttrs &)`, src/annotated_decl.cpp:505-531. -/
def processTypedef (id : Nat) (a : Annotation) (attrs : TypedefNameDeclAttrs) :
    Outcome TypedefNameDeclAttrs :=
  let dispatch := Dispatcher.start id a attrs
  match a.kind with
  | .encourage =>
    ((dispatch.nullary (modify fun x => { x with encourage := true })).onMatch
      (checkForConflict id)).checkMatch
  | .exposeHere =>
    ((dispatch.nullary (modify fun x => { x with exposeHere := true })).onMatch
      (checkForConflict id)).checkMatch
  | _ => notHandled attrs

/-- `make_parameter_indices_lookup`, src/annotated_decl.cpp:589-607: position of
a name in the list of names. -/
def parameterNames (d : DeclInfo) (addReturn addThis : Bool) : List Str :=
  (if addReturn then [t%"return"] else []) ++ (if addThis then [t%"this"] else []) ++ d.params

/-- The returned lookup function, src/annotated_decl.cpp:599-606. -/
def lookupIndex (names : List Str) (name : Str) : Option Nat :=
  names.findIdx? (· = name)

/-- `report_invalid_argument`, src/annotated_decl.cpp:609-613. -/
def invalidArgument (id : Nat) (k : AnnotationKind) (arg : Str) : List Diag :=
  [{ decl := id, kind := .invalidArgumentSpecifier, args := [kindText k, arg] }]

/-- `processAnnotation(..., FunctionDeclAttrs &)`, src/annotated_decl.cpp:582-675. -/
def processFunction (id : Nat) (d : DeclInfo) (a : Annotation) (attrs : FunctionDeclAttrs) :
    Outcome FunctionDeclAttrs :=
  let dispatch := Dispatcher.start id a attrs
  match a.kind with
  | .returnValuePolicy =>
    (dispatch.unary .string
      (onString id fun s => modify fun x => { x with returnValuePolicy := s })).checkMatch
  | .keepAlive =>
    (dispatch.binary .string fun first second =>
      match first, second with
      | .string s, .string t => fun x =>
        let names := parameterNames d true d.kind.isMethod
        match lookupIndex names s, lookupIndex names t with
        | none, _ => (x, invalidArgument id .keepAlive s)
        | some _, none => (x, invalidArgument id .keepAlive t)
        | some i, some j => ({ x with keepAlive := x.keepAlive ++ [(i, j)] }, [])
      | _, _ => fun x => (x, assertionFailed id)).checkMatch
  | .noconvert =>
    (dispatch.variadic .string (onString id fun s x =>
      match lookupIndex (parameterNames d false false) s with
      | none => (x, invalidArgument id .noconvert s)
      | some i => ({ x with noconvert := setInsert x.noconvert i }, []))).checkMatch
  | .required =>
    (dispatch.variadic .string (onString id fun s x =>
      match lookupIndex (parameterNames d false false) s with
      | none => (x, invalidArgument id .required s)
      | some i => ({ x with required := setInsert x.required i }, []))).checkMatch
  | _ => notHandled attrs

/-- `report_invalid_signature`, src/annotated_decl.cpp:716-720. -/
def invalidSignature (id : Nat) (d : DeclInfo) (k : AnnotationKind) : List Diag :=
  [{ decl := id, kind := .incompatibleSignature, args := [friendlyName d, kindText k] }]

/-- `collect_identifier`, src/annotated_decl.cpp:722-731. -/
def collectIdentifier (id : Nat) (k : AnnotationKind) : LiteralValue → Str × List Diag
  | .string s =>
    if isValidIdentifier s then (s, [])
    else ([], [{ decl := id, kind := .invalidSpelling, args := [kindText k, s] }])
  | _ => ([], assertionFailed id)

/-- `processAnnotation(..., MethodDeclAttrs &)`, src/annotated_decl.cpp:709-777. -/
def processMethod (id : Nat) (d : DeclInfo) (a : Annotation) (attrs : MethodDeclAttrs) :
    Outcome MethodDeclAttrs :=
  let dispatch := Dispatcher.start id a attrs
  match a.kind with
  | .getterFor =>
    dispatch.ensure (if d.minRequired ≠ 0 ∨ d.returnsVoid = true
        then (false, invalidSignature id d .getterFor) else (true, []))
      |>.variadicCollect .string (collectIdentifier id .getterFor) (fun ids x =>
        if ids.isEmpty then (false, x, [])
        else (true, { x with getterFor := ids.foldl setInsert x.getterFor }, []))
      |>.checkMatch
  | .setterFor =>
    dispatch.ensure (if d.params.length < 1 ∨ d.minRequired > 1
        then (false, invalidSignature id d .setterFor) else (true, []))
      |>.variadicCollect .string (collectIdentifier id .setterFor) (fun ids x =>
        if ids.isEmpty then (false, x, [])
        else (true, { x with setterFor := ids.foldl setInsert x.setterFor }, []))
      |>.checkMatch
  | _ => notHandled attrs

/-- `processAnnotation(..., ConstructorDeclAttrs &)`, src/annotated_decl.cpp:783-813. -/
def processConstructor (id : Nat) (d : DeclInfo) (a : Annotation) (attrs : ConstructorDeclAttrs) :
    Outcome ConstructorDeclAttrs :=
  let dispatch := Dispatcher.start id a attrs
  match a.kind with
  | .implicitConversion =>
    dispatch.ensure (if d.params.length ≠ 1 ∨ d.converting = false
        then (false, [{ decl := id, kind := .invalidForDeclKind,
                        args := [t%"non-converting constructor", (a.print).getD []] }])
        else (true, []))
      |>.nullary (modify fun x => { x with implicitConversion := true })
      |>.unary .boolean (onBoolean id fun b => modify fun x => { x with implicitConversion := b })
      |>.checkMatch
  | _ => notHandled attrs

/-- `manual_bindings_expr`, src/annotated_decl.cpp:826-845. -/
def manualBindingsExpr (d : DeclInfo) : Option Nat :=
  if d.kind ≠ .var then none
  else match d.lambda with
  | none => none
  | some l =>
    if !l.hasExplicitParameters then none
    else if l.numParams ≠ 1 then none
    else if !l.paramIsLValueReference || l.paramIsUndeducedAuto then none
    else some l.id

/-- `processAnnotation(..., FieldOrVarDeclAttrs &)`, src/annotated_decl.cpp:819-885. -/
def processFieldOrVar (id : Nat) (d : DeclInfo) (a : Annotation) (attrs : FieldOrVarDeclAttrs) :
    Outcome FieldOrVarDeclAttrs :=
  let dispatch := Dispatcher.start id a attrs
  match a.kind with
  | .readonly =>
    dispatch.nullary (modify fun x => { x with readonly := true })
      |>.unary .boolean (onBoolean id fun b => modify fun x => { x with readonly := b })
      |>.checkMatch
  | .postamble =>
    dispatch.ensure
      (if (manualBindingsExpr d).isNone then (false, [])
       else if !d.inTranslationUnit then
        (false, [{ decl := id, kind := .onlyGlobalScope, args := [kindText .postamble] }])
       else (true, []))
      |>.nullary (modify fun x => { x with postamble := true })
      |>.checkMatch
  | .manual =>
    dispatch.ensure ((manualBindingsExpr d).isSome, [])
      |>.nullary (modify fun x => { x with manualBindings := manualBindingsExpr d })
      |>.checkMatch
  | _ => notHandled attrs

/-- `processAnnotation(..., OperatorDeclAttrs &)`, src/annotated_decl.cpp:685-689, and
`processAnnotation(..., ConversionFunctionDeclAttrs &)`, src/annotated_decl.cpp:695-699. -/
def processNothing (_a : Annotation) (attrs : Unit) : Outcome Unit := notHandled attrs

end Verif
