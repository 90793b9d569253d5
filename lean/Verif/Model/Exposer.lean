import Verif.Model.Operators
import Verif.Model.Params
import Verif.Model.Inlining
/-!
# Exposers (src/expose.cpp:266-418, 615-629, 844-1379)

What is written for one declaration context.  The output is a list of statements;
`Stmt.emit` is the text written for a statement.
-/
namespace Verif

/-- `getPointeeCXXRecordDecl` of the first parameter's type, as far as read by
`isOstreamOperator`, src/expose.cpp:621-628. -/
inductive Pointee where
  /-- the type is no pointer or reference to a class -/
  | none
  /-- a class without identifier -/
  | unnamed
  | named (isStdOstream : Bool)
  deriving DecidableEq, Repr

/-- What is read about a parameter: `param` as in `emitParameters`, `type` its type,
`originalType` the text of `getOriginalType` (without decay of arrays). -/
structure FnParam where
  param : Param
  type : CppType
  originalType : Str
  deriving DecidableEq, Repr

/-- What is read about a function. -/
structure FnInfo where
  params : List FnParam := []
  returnType : Str := []
  isStatic : Bool := false
  /-- the function type is `const` -/
  isConst : Bool := false
  isDeleted : Bool := false
  isMoveConstructor : Bool := false
  /-- `printQualifiedName` and template arguments -/
  pointerName : Str := []
  firstPointee : Pointee := .none
  /-- `getPrimaryTemplate` -/
  primary : Option Nat := .none

/-- A manual bindings lambda: the name of its parameter if it is used, and its
printed body. -/
structure ManualInfo where
  context : Option Str
  body : Str

/-- What is read from clang while the module is emitted. -/
structure EmitWorld extends World where
  fn : Nat → FnInfo
  /-- `printQualifiedName` of variables and fields -/
  qualifiedName : Nat → Str
  /-- `getFullyQualifiedName` of types -/
  typeName : Nat → Str
  /-- `const T &` and `T &` for the class: the types of `*this` -/
  selfType : Nat → Bool → CppType
  /-- `getBriefText` -/
  brief : Nat → Str
  /-- `getFullyQualifiedName` of the tag named by an alias (not necessarily defined) -/
  aliasTag : Nat → Option Str
  /-- the type of a variable or field is `const` -/
  isConstType : Nat → Bool
  manual : Nat → ManualInfo
  isAbstract : Nat → Bool
  isScoped : Nat → Bool
  hierarchy : Nat → Hierarchy
  /-- `specializations` of function templates -/
  specializations : Nat → Option (List Nat)
  /-- what name lookup finds in a context -/
  found : Nat → List Found
  /-- `getLocation().isValid()` -/
  hasLocation : Nat → Bool
  /-- what argument dependent lookup finds for one of `adlOperators` and a class -/
  associated : Nat → List Nat
  /-- the variables declared in the translation unit itself, in order -/
  unitVars : List Nat

/-- `emitSpelling`, src/expose.cpp:266-273: the name (which is then written as string
literal). -/
def emitSpelling (d : DeclInfo) (attrs : NamedDeclAttrs) (fallback : Str := []) : Str :=
  if !attrs.spelling.isEmpty then attrs.spelling
  else if !fallback.isEmpty then fallback else getSpelling d

/-- `getDocstring`, src/expose.cpp:283-290. -/
def getDocstring (w : EmitWorld) (id : Nat) : Str :=
  let result := w.brief id
  if result.isEmpty then
    match (w.fn id).primary with
    | some p => w.brief p
    | none => result
  else result

/-- `emitFunctionPointer`, src/expose.cpp:377-393.  `fn` is the function; it is not
part of the text. -/
structure FnPtr where
  fn : Nat
  types : List Str
  name : Str
  isConst : Bool
  deriving DecidableEq, Repr

/-- See `FnPtr`. -/
def emitFunctionPointer (w : EmitWorld) (id : Nat) : FnPtr :=
  { fn := id, types := (w.fn id).params.map (·.originalType), name := (w.fn id).pointerName
    isConst := (w.fn id).isConst }

/-- The text of a function pointer. -/
def FnPtr.emit (f : FnPtr) : Str :=
  t%"::pybind11::overload_cast<" ++ (t%", ").intercalate f.types ++ t%">(&::" ++ f.name ++
  (if f.isConst then t%", ::pybind11::const_" else []) ++ t%")"

/-- A statement in the body of an `expose_` function.  Declarations are only used to
identify what the statement is for, they are not part of the text. -/
inductive Stmt where
  /-- src/expose.cpp:1272-1284 -/
  | implicitlyConvertible (decl : Nat) (source target : Str)
  /-- src/expose.cpp:1286-1293 -/
  | init (decl : Nat) (types : List Str) (doc : Str) (args : List ArgOut) (policies : List PolicyOut)
  /-- src/expose.cpp:958-969 -/
  | function (decl : Nat) (isStatic : Bool) (name : Str) (pointer : FnPtr) (doc : Str)
      (args : List ArgOut) (policies : List PolicyOut)
  /-- src/expose.cpp:1175-1185 -/
  | operator (decl : Nat) (name : Str) (definition : OpLambda) (doc : Str)
  /-- src/expose.cpp:1316-1319 -/
  | stringFromLshift (decl : Nat) (name : Str) (record : Str)
  /-- src/expose.cpp:922-925 -/
  | typeAttr (decl : Nat) (name : Str) (target : Str)
  /-- src/expose.cpp:938-942 -/
  | valueAttr (decl : Nat) (name : Str) (qualified : Str)
  /-- `emitManualBindings`, src/expose.cpp:395-418 -/
  | manual (decl : Nat) (lambda : Nat)
  /-- src/expose.cpp:1094-1104 -/
  | property (name : Str) (getter : FnPtr) (setter : Option FnPtr)
  /-- src/expose.cpp:1368-1373 -/
  | field (decl : Nat) (readonly isStatic : Bool) (name : Str) (qualified : Str)
  /-- src/expose.cpp:1033-1040 -/
  | enumValue (decl : Nat) (name scope enumerator doc : Str)
  /-- src/expose.cpp:1022 -/
  | exportValues
  /-- src/expose.cpp:974 -/
  | useContext
  deriving DecidableEq, Repr

/-- Text of the arguments and policies of a function. -/
def emitArgs (args : List ArgOut) (policies : List PolicyOut) : Str :=
  args.flatMap ArgOut.text ++ policies.flatMap PolicyOut.text

/-- A doc string argument that is left out if empty. -/
def emitOptionalDoc (doc : Str) : Str :=
  if doc.isEmpty then [] else t%", " ++ emitStringLiteral doc

/-- Text of manual bindings, src/expose.cpp:408-417. -/
def ManualInfo.emit (m : ManualInfo) : Str :=
  match m.context with
  | some name => t%"[](auto &" ++ name ++ t%") " ++ m.body ++ t%"(context);\n"
  | none => m.body

/-- The text of a statement. -/
def Stmt.emit (w : EmitWorld) : Stmt → Str
  | .implicitlyConvertible _ source target =>
    t%"::pybind11::implicitly_convertible<" ++ source ++ t%", " ++ target ++ t%">();\n"
  | .init _ types doc args policies =>
    t%"context.def(::pybind11::init<" ++ (t%", ").intercalate types ++ t%">(), " ++
    emitStringLiteral doc ++ emitArgs args policies ++ t%");\n"
  | .function _ isStatic name pointer doc args policies =>
    (if isStatic then t%"context.def_static(" else t%"context.def(") ++ emitStringLiteral name ++
    t%", " ++ pointer.emit ++ t%", " ++ emitStringLiteral doc ++ emitArgs args policies ++ t%");\n"
  | .operator _ name definition doc =>
    t%"context.def(" ++ emitStringLiteral name ++ t%", " ++ definition.emit ++ t%", " ++
    emitStringLiteral doc ++ t%", ::pybind11::is_operator());\n"
  | .stringFromLshift _ name record =>
    t%"context.def(" ++ emitStringLiteral name ++ t%", ::genpybind::string_from_lshift<" ++ record ++
    t%">);\n"
  | .typeAttr _ name target =>
    t%"context.attr(" ++ emitStringLiteral name ++ t%") = ::genpybind::getObjectForType<" ++ target ++
    t%">();\n"
  | .valueAttr _ name qualified =>
    t%"context.attr(" ++ emitStringLiteral name ++ t%") = ::" ++ qualified ++ t%";\n"
  | .manual _ lambda => (w.manual lambda).emit
  | .property name getter setter =>
    (match setter with
      | some _ => t%"context.def_property("
      | none => t%"context.def_property_readonly(") ++ emitStringLiteral name ++ t%", " ++
    getter.emit ++ (match setter with
      | some s => t%", " ++ s.emit
      | none => []) ++ t%");\n"
  | .field _ readonly isStatic name qualified =>
    (if readonly then t%"context.def_readonly" else t%"context.def_readwrite") ++
    (if isStatic then t%"_static(" else t%"(") ++ emitStringLiteral name ++ t%", &::" ++ qualified ++
    t%");\n"
  | .enumValue _ name scope enumerator doc =>
    t%"context.value(" ++ emitStringLiteral name ++ t%", " ++ scope ++ t%"::" ++ enumerator ++
    emitOptionalDoc doc ++ t%");\n"
  | .exportValues => t%"context.export_values();\n"
  | .useContext => t%"(void)context;\n"

/-- What is written and reported. -/
structure Emitted where
  stmts : List Stmt := []
  diags : List Diag := []
  deriving DecidableEq, Repr

/-- Nothing is written. -/
def Emitted.none : Emitted := {}

/-- A failed assertion, or undefined behaviour. -/
def Emitted.fail (id : Nat) : Emitted := { diags := [{ decl := id, kind := .assertion }] }

/-- `DeclContextExposer::handleDeclImpl`, src/expose.cpp:897-971.  `a` are the
attributes of `id`. -/
def handleDeclGeneric (w : EmitWorld) (a : DeclAttrs) (id : Nat) : Emitted :=
  if a.constructor.isSome then .fail id
  else match a.typedefName with
  | some t =>
    if a.named.visible.isNone || t.exposeHere then .none
    else match w.aliasTag id with
      | none => .none
      | some target => { stmts := [.typeAttr id (emitSpelling (w.info id) a.named) target] }
  | none =>
  match a.fieldOrVar with
  | some v =>
    match v.manualBindings with
    | some lambda => if v.postamble then .none else { stmts := [.manual id lambda] }
    | none =>
      if (w.info id).kind = .field then .fail id
      else { stmts := [.valueAttr id (emitSpelling (w.info id) a.named) (w.qualifiedName id)] }
  | none =>
  if (match a.method with
      | some m => !m.getterFor.isEmpty || !m.setterFor.isEmpty
      | none => false) then .none
  else match a.function with
  | some f =>
    if (w.fn id).isDeleted then .none
    else
      let fallback := if (w.info id).operator = some .call then t%"__call__" else []
      let args := emitParameters f ((w.fn id).params.map (·.param))
      { stmts := [.function id ((w.info id).kind.isMethod && (w.fn id).isStatic)
          (emitSpelling (w.info id) a.named fallback) (emitFunctionPointer w id) (getDocstring w id)
          args.1 (emitPolicies f)]
        diags := args.2 }
  | none => .none

/-- `EnumExposer::handleDeclImpl`, src/expose.cpp:1030-1043. -/
def handleDeclEnum (w : EmitWorld) (enum : Nat) (a : DeclAttrs) (id : Nat) : Emitted :=
  if (w.info id).kind = .enumConstant then
    { stmts := [.enumValue id (emitSpelling (w.info id) a.named) (w.typeName enum) (w.info id).name
        (w.brief id)] }
  else .none

/-- `EnumExposer::finalizeDefinition`, src/expose.cpp:1018-1024. -/
def finalizeEnum (w : EmitWorld) (s : Storage) (enum : Nat) : Emitted :=
  match (s.entries enum).bind (·.enum) with
  | some attrs => if attrs.exportValues.getD (!w.isScoped enum) then { stmts := [.exportValues] } else .none
  | none => .none

/-- `RecordExposer::Property`, include/genpybind/expose.h:116-119. -/
structure Property where
  getter : Option Nat := none
  setter : Option Nat := none
  deriving DecidableEq, Repr

/-- `operator<` of `std::string`. -/
def strLt : Str → Str → Bool
  | [], [] => false
  | [], _ :: _ => true
  | _ :: _, [] => false
  | a :: l, b :: m => if a.toNat < b.toNat then true else if b.toNat < a.toNat then false else strLt l m

/-- `std::map<std::string, Property>`: the entries in order. -/
abbrev PropertyMap := List (Str × Property)

/-- `properties[name]`. -/
def PropertyMap.get (m : PropertyMap) (name : Str) : Property := (m.lookup name).getD {}

/-- `properties[name] = p`. -/
def PropertyMap.set (name : Str) (p : Property) : PropertyMap → PropertyMap
  | [] => [(name, p)]
  | (k, q) :: rest =>
    if k = name then (k, p) :: rest
    else if strLt name k then (name, p) :: (k, q) :: rest
    else (k, q) :: PropertyMap.set name p rest

/-- The error for a property that is already defined, src/expose.cpp:1339-1344 and
:1349-1354. -/
def alreadyDefined (id : Nat) (name : Str) (accessor : Str) : Option Nat → List Diag
  | some previous =>
    [{ decl := id, kind := .propertyAlreadyDefined, args := [name, accessor] },
     { decl := previous, kind := .notePreviousDefinition }]
  | none => []

/-- Body of the loop over `getter_for`, src/expose.cpp:1336-1345. -/
def addGetter (id : Nat) (st : PropertyMap × List Diag) (name : Str) : PropertyMap × List Diag :=
  let p := st.1.get name
  (st.1.set name { p with getter := some id }, st.2 ++ alreadyDefined id name t%"0" p.getter)

/-- Body of the loop over `setter_for`, src/expose.cpp:1346-1355. -/
def addSetter (id : Nat) (st : PropertyMap × List Diag) (name : Str) : PropertyMap × List Diag :=
  let p := st.1.get name
  (st.1.set name { p with setter := some id }, st.2 ++ alreadyDefined id name t%"1" p.setter)

/-- The names of properties are iterated in the order of a `SmallSet`; this only
matters for the order of diagnostics. -/
def addProperties (m : PropertyMap) (id : Nat) (attrs : MethodDeclAttrs) : PropertyMap × List Diag :=
  attrs.setterFor.foldl (addSetter id) (attrs.getterFor.foldl (addGetter id) (m, []))

/-- `emitProperties`, src/expose.cpp:1082-1106. -/
def emitProperties (w : EmitWorld) : PropertyMap → Emitted
  | [] => .none
  | (name, p) :: rest =>
    let r := emitProperties w rest
    match p.getter with
    | none =>
      match p.setter with
      | none => r
      | some setter =>
        { r with diags := { decl := setter, kind := .propertyHasNoGetter, args := [name] } :: r.diags }
    | some getter =>
      let stmt := Stmt.property name (emitFunctionPointer w getter) (p.setter.map (emitFunctionPointer w))
      { r with stmts := stmt :: r.stmts }

/-- `isOstreamOperator`, src/expose.cpp:615-629; `none` if a null pointer is
dereferenced at :623. -/
def isOstreamOperator (w : EmitWorld) (id : Nat) : Option Bool :=
  if (w.info id).kind.isMethod || (w.info id).operator ≠ some .lessLess then some false
  else match (w.fn id).firstPointee with
    | .none => some false
    | .unnamed => none
    | .named isStdOstream => some isStdOstream

/-- The type of `*this` for member functions, src/expose.cpp:1146-1151. -/
def selfParam (w : EmitWorld) (record id : Nat) : Option CppType :=
  if (w.info id).kind.isMethod then some (w.selfType record (w.fn id).isConst) else none

/-- `RecordExposer::handleDeclImpl`, src/expose.cpp:1260-1379. -/
def handleDeclRecord (w : EmitWorld) (record : Nat) (m : PropertyMap) (a : DeclAttrs) (id : Nat) :
    PropertyMap × Emitted :=
  match a.constructor with
  | some c =>
    if (w.fn id).isMoveConstructor || (w.fn id).isDeleted || w.isAbstract record then (m, .none)
    else
      let f := a.function.getD {}
      let args := emitParameters f ((w.fn id).params.map (·.param))
      let init := Stmt.init id ((w.fn id).params.map (·.originalType)) (getDocstring w id) args.1
        (emitPolicies f)
      if c.implicitConversion then
        match (w.fn id).params with
        | [] => (m, .fail id)
        | p :: _ =>
          (m, { stmts := [.implicitlyConvertible id p.type.text (w.typeName record), init]
                diags := args.2 })
      else (m, { stmts := [init], diags := args.2 })
  | none =>
  if supportsOperator (w.info id) then
    if (w.fn id).isDeleted then (m, .none)
    else match (w.info id).operator with
      | none => (m, .fail id)
      | some kind =>
        match isOstreamOperator w id with
        | none => (m, .fail id)
        | some true =>
          (m, if a.named.spelling.isEmpty then .none
              else { stmts := [.stringFromLshift id a.named.spelling (w.typeName record)] })
        | some false =>
          match emitOperator record kind (selfParam w record id) ((w.fn id).params.map (·.type))
              (w.fn id).returnType with
          | none => (m, .none)
          | some r => (m, { stmts := [.operator id r.1 r.2 (getDocstring w id)] })
  else
  let methodAttrs := a.method.getD {}
  if !methodAttrs.getterFor.isEmpty || !methodAttrs.setterFor.isEmpty then
    let r := addProperties m id methodAttrs
    (r.1, { diags := r.2 })
  else match a.fieldOrVar with
  | some v =>
    match v.manualBindings with
    | some lambda => if v.postamble then (m, .fail id) else (m, { stmts := [.manual id lambda] })
    | none =>
      (m, { stmts := [.field id (w.isConstType id || v.readonly) ((w.info id).kind = .var)
              (emitSpelling (w.info id) a.named) (w.qualifiedName id)] })
  | none => (m, handleDeclGeneric w a id)

/-- The exposer created for a context, src/expose.cpp:844-871. -/
inductive Exposer where
  | plain
  | namespace (id : Nat)
  | enum (id : Nat)
  | record (id : Nat) (policy : InliningPolicy)
  deriving DecidableEq, Repr

/-- `DeclContextExposer::create`, src/expose.cpp:844-871. -/
def Exposer.create (w : EmitWorld) (s : Storage) (id : Nat) : Exposer :=
  match (w.info id).kind with
  | .namespace => .namespace id
  | .enum => .enum id
  | .record => .record id (createFromAnnotations s (w.hierarchy id) id)
  | _ => .plain

/-- `inliningPolicy`, src/expose.cpp:873-875 and :1057-1059. -/
def Exposer.inliningPolicy : Exposer → Option InliningPolicy
  | .record _ p => some p
  | _ => none

/-- State of an exposer and what it has written so far. -/
structure Exposing where
  storage : Storage
  properties : PropertyMap := []
  emitted : Emitted := .none

/-- Add to the output. -/
def Exposing.emit (st : Exposing) (e : Emitted) : Exposing :=
  { st with emitted := { stmts := st.emitted.stmts ++ e.stmts, diags := st.emitted.diags ++ e.diags } }

/-- `handleDeclImpl` of the exposer. -/
def Exposer.handleDeclImpl (w : EmitWorld) (e : Exposer) (st : Exposing) (a : DeclAttrs) (id : Nat) :
    Exposing :=
  match e with
  | .plain => st.emit (handleDeclGeneric w a id)
  | .namespace _ => st.emit (handleDeclGeneric w a id)
  | .enum x => st.emit (handleDeclEnum w x a id)
  | .record x _ =>
    let r := handleDeclRecord w x st.properties a id
    Exposing.emit { st with properties := r.1 } r.2

/-- `DeclContextExposer::handleDecl`, src/expose.cpp:886-895. -/
def Exposer.handleDecl (w : EmitWorld) (e : Exposer) (defaultVisibility : Bool) (st : Exposing)
    (id : Nat) : Exposing :=
  match st.storage.entries id with
  | none => st
  | some a =>
    if a.named.visible.getD defaultVisibility then e.handleDeclImpl w st a id else st

/-- `handle_decl` in `emitModule`, src/expose.cpp:800-803. -/
def Exposer.propose (w : EmitWorld) (e : Exposer) (defaultVisibility : Bool) (st : Exposing)
    (id : Nat) : Exposing :=
  let r := st.storage.insert w.toDeclEnv id
  let st := { st with storage := r.1, emitted := { st.emitted with diags := st.emitted.diags ++ r.2 } }
  e.handleDecl w defaultVisibility st id

/-- `finalizeDefinition`, src/expose.cpp:973-975, :1018-1024, :1078-1080. -/
def Exposer.finalizeDefinition (w : EmitWorld) (e : Exposer) (st : Exposing) : Exposing :=
  match e with
  | .plain => st.emit { stmts := [.useContext] }
  | .namespace _ => st.emit { stmts := [.useContext] }
  | .enum x => st.emit (finalizeEnum w st.storage x)
  | .record _ _ => st.emit (emitProperties w st.properties)

/-- Specializations instead of function templates, src/expose.cpp:497-503, :822-834. -/
def expandTemplates (w : EmitWorld) (l : List Nat) : List Nat :=
  l.flatMap fun d => match w.specializations d with
    | some specializations => specializations
    | none => [d]

/-- `collectOperatorDeclsViaArgumentDependentLookup`, src/expose.cpp:420-501. -/
def collectOperators (w : EmitWorld) (record : Nat) : List Nat :=
  (expandTemplates w (w.associated record)).filter fun f =>
    (w.fn f).params.any fun p => p.type.record = some record

/-- The declarations proposed to an exposer, src/expose.cpp:805-834. -/
def proposedDecls (w : EmitWorld) (e : Exposer) (context : Nat) : List Nat :=
  let decls := sortDecls w.toWorld
    (collectVisibleDecls w.toWorld w.hasLocation e.inliningPolicy (w.found context))
  let operators := if (w.info context).kind = .record then collectOperators w context else []
  expandTemplates w (decls ++ operators)

/-- The body of an `expose_` function, src/expose.cpp:793-837. -/
def exposeContext (w : EmitWorld) (vis : Visibilities) (s : Storage) (e : Exposer) (context : Nat) :
    Exposing :=
  e.finalizeDefinition w
    ((proposedDecls w e context).foldl (e.propose w ((vis context).getD false)) { storage := s })

end Verif
