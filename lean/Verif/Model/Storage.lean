import Verif.Model.Attrs
import Verif.Model.Parser
/-!
# `AnnotationStorage` (src/annotated_decl.cpp:887-941, annotated_decl.h:199-252)
-/
namespace Verif

/-- The attributes of one declaration: the entries of the maps of
`AnnotationStorage` for this declaration.  `named` is always present if any of
them is, since `NamedDeclAttrs::supports` is always true. -/
structure DeclAttrs where
  named : NamedDeclAttrs := {}
  namespace_ : Option NamespaceDeclAttrs := none
  enum : Option EnumDeclAttrs := none
  record : Option RecordDeclAttrs := none
  typedefName : Option TypedefNameDeclAttrs := none
  fieldOrVar : Option FieldOrVarDeclAttrs := none
  operator : Option Unit := none
  conversion : Option Unit := none
  method : Option MethodDeclAttrs := none
  constructor : Option ConstructorDeclAttrs := none
  function : Option FunctionDeclAttrs := none
  deriving DecidableEq, Repr

/-- `AnnotationStorage`, annotated_decl.h:199-252.  `entries` are the maps;
`size` is the number of entries of the map for `NamedDeclAttrs`. -/
structure Storage where
  entries : Nat → Option DeclAttrs
  size : Nat

/-- An empty `AnnotationStorage`. -/
def Storage.empty : Storage := { entries := fun _ => none, size := 0 }

/-- `has`, annotated_decl.h:245-247. -/
def Storage.has (s : Storage) (id : Nat) : Bool := (s.entries id).isSome

/-- Assign the entry of a declaration. -/
def Storage.set (s : Storage) (id : Nat) (a : DeclAttrs) : Storage :=
  { entries := fun x => if x = id then some a else s.entries x
    size := if s.has id then s.size else s.size + 1 }

/-- `lookup<NamedDeclAttrs>`, annotated_decl.h:235-241. -/
def Storage.lookupNamed (s : Storage) (id : Nat) : NamedDeclAttrs :=
  match s.entries id with
  | none => {}
  | some a => a.named

/-- `update<NamedDeclAttrs>`, annotated_decl.h:229-233 (`operator[]` creates a
missing entry). -/
def Storage.updateNamed (s : Storage) (id : Nat) (f : NamedDeclAttrs → NamedDeclAttrs) : Storage :=
  match s.entries id with
  | none => s.set id { named := f {} }
  | some a => s.set id { a with named := f a.named }

/-- The default entries created by `map[decl]` for each supported attribute
type, src/annotated_decl.cpp:899-910. -/
def freshAttrs (d : DeclInfo) : DeclAttrs :=
  { named := {}
    namespace_ := if supportsNamespace d then some {} else none
    enum := if supportsEnum d then some {} else none
    record := if supportsRecord d then some {} else none
    typedefName := if supportsTypedef d then some {} else none
    fieldOrVar := if supportsFieldOrVar d then some {} else none
    operator := if supportsOperator d then some () else none
    conversion := if supportsConversion d then some () else none
    method := if supportsMethod d then some {} else none
    constructor := if supportsConstructor d then some {} else none
    function := if supportsFunction d then some {} else none }

/-- A handler: applies one overload of `processAnnotation` to its part of the
attributes. -/
abbrev Handler := Annotation → DeclAttrs → Outcome DeclAttrs

/-- Lift an overload to a handler for one (optional) component. -/
def liftHandler {σ : Type} (get : DeclAttrs → Option σ) (put : DeclAttrs → σ → DeclAttrs)
    (process : Annotation → σ → Outcome σ) : Handler := fun a attrs =>
  match get attrs with
  | none => notHandled attrs
  | some x =>
    let r := process a x
    { handled := r.handled, attrs := put attrs r.attrs, diags := r.diags }

/-- The vector `handlers`, src/annotated_decl.cpp:898-910: one handler per
supported attribute type, in the order of `AttrTypes`, annotated_decl.h:202-206.
(Handlers of unsupported types are present here but do nothing, as the component
is absent.) -/
def handlers (env : DeclEnv) (id : Nat) : List Handler :=
  let d := env.info id
  [ fun a x =>
      let r := processNamed id d a x.named
      { handled := r.handled, attrs := { x with named := r.attrs }, diags := r.diags },
    liftHandler (·.namespace_) (fun x y => { x with namespace_ := some y }) (processNamespace id),
    liftHandler (·.enum) (fun x y => { x with enum := some y }) (processEnum id),
    liftHandler (·.record) (fun x y => { x with record := some y }) (processRecord env id),
    liftHandler (·.typedefName) (fun x y => { x with typedefName := some y }) (processTypedef id),
    liftHandler (·.fieldOrVar) (fun x y => { x with fieldOrVar := some y })
      (processFieldOrVar id d),
    liftHandler (·.operator) (fun x y => { x with operator := some y }) processNothing,
    liftHandler (·.conversion) (fun x y => { x with conversion := some y }) processNothing,
    liftHandler (·.method) (fun x y => { x with method := some y }) (processMethod id d),
    liftHandler (·.constructor) (fun x y => { x with constructor := some y })
      (processConstructor id d),
    liftHandler (·.function) (fun x y => { x with function := some y }) (processFunction id d) ]

/-- `llvm::any_of(handlers, ...)`, src/annotated_decl.cpp:923-924: stops at the
first handler returning true. -/
def anyHandler : List Handler → Handler
  | [], _, attrs => notHandled attrs
  | h :: hs, a, attrs =>
    let r := h a attrs
    if r.handled then r
    else
      let r' := anyHandler hs a r.attrs
      { r' with diags := r.diags ++ r'.diags }

/-- `reportInvalidAnnotationError`, src/annotated_decl.cpp:129-134.  Evaluating
`friendlyName` calls `TypedefNameDeclAttrs::supports` (which may report) for
declarations that are not namespaces, enums or records. -/
def reportInvalidAnnotation (env : DeclEnv) (id : Nat) (a : Annotation) : List Diag :=
  supportsTypedefDiags id (env.info id) ++
  [{ decl := id, kind := .invalidForDeclKind,
     args := [friendlyName (env.info id), (a.print).getD []] }]

/-- Body of the loop over annotations, src/annotated_decl.cpp:921-928. -/
def applyAnnotation (env : DeclEnv) (id : Nat) (attrs : DeclAttrs) (a : Annotation) :
    DeclAttrs × List Diag :=
  let r := anyHandler (handlers env id) a attrs
  if !hasErrors r.diags && !r.handled then (r.attrs, r.diags ++ reportInvalidAnnotation env id a)
  else (r.attrs, r.diags)

/-- The loop over annotations, src/annotated_decl.cpp:921-929. -/
def applyAnnotations (env : DeclEnv) (id : Nat) (attrs : DeclAttrs) :
    List Annotation → DeclAttrs × List Diag
  | [] => (attrs, [])
  | a :: as =>
    let r := applyAnnotation env id attrs a
    let r' := applyAnnotations env id r.1 as
    (r'.1, r.2 ++ r'.2)

/-- `parseAnnotations(decl)`, src/annotated_decl.cpp:70-88: the attribute texts
are parsed in order into one list; errors are reported.  (`token` of the error
is the diagnostic argument.) -/
def parseAllTexts (id : Nat) (acc : List Annotation) : List Str → List Annotation × List Diag
  | [] => (acc, [])
  | text :: texts =>
    match consumeFront lozenge text with
    | none => parseAllTexts id acc texts
    | some rest =>
      match parseAnnotationsInto rest acc with
      | (none, acc') => parseAllTexts id acc' texts
      | (some e, acc') =>
        let r := parseAllTexts id acc' texts
        (r.1, { decl := id, kind := .parseError e.kind, args := [e.token] } :: r.2)

/-- `LookupContextCollector::shouldSkip`, include/genpybind/lookup_context_collector.h:62-77. -/
def shouldSkip (d : DeclInfo) : Bool :=
  (d.kind.isTag && (!d.complete || d.dependent)) ||
  (d.kind = .namespace && (d.isStd || t%"__".isPrefixOf d.name))

/-- `AnnotationStorage::insert`, src/annotated_decl.cpp:887-930. -/
def Storage.insert (env : DeclEnv) (s : Storage) (id : Nat) : Storage × List Diag :=
  let d := env.info id
  if shouldSkip d then
    (s, [{ decl := id, kind := .invalidAssumption,
           args := [t%"annotations are only parsed during initial pass"] }])
  else if s.has id then (s, [])
  else
    let attrs0 := freshAttrs d
    let attrs1 : DeclAttrs :=
      if d.kind ≠ .namespace ∧ hasAnnotations d (allowEmpty := false) = true
      then { attrs0 with named := { attrs0.named with visible := some true } } else attrs0
    let p := parseAllTexts id [] d.attrTexts
    let r := applyAnnotations env id attrs1 p.1
    (s.set id r.1, supportsTypedefDiags id d ++ p.2 ++ r.2)

/-- Equality of sets kept as lists. -/
def sameSet {α : Type} [DecidableEq α] (a b : List α) : Bool :=
  a.all (· ∈ b) && b.all (· ∈ a)

/-- `operator==` of `RecordDeclAttrs`, annotated_decl.h:97-98. -/
def RecordDeclAttrs.same (a b : RecordDeclAttrs) : Bool :=
  a.dynamicAttr = b.dynamicAttr && sameSet a.hideBase b.hideBase &&
    sameSet a.inlineBase b.inlineBase && a.holderType = b.holderType

/-- `operator==` of `MethodDeclAttrs`, annotated_decl.h:162-163. -/
def MethodDeclAttrs.same (a b : MethodDeclAttrs) : Bool :=
  sameSet a.getterFor b.getterFor && sameSet a.setterFor b.setterFor

/-- `operator==` of `FunctionDeclAttrs`, annotated_decl.h:189-190. -/
def FunctionDeclAttrs.same (a b : FunctionDeclAttrs) : Bool :=
  a.keepAlive = b.keepAlive && sameSet a.noconvert b.noconvert && sameSet a.required b.required &&
    a.returnValuePolicy = b.returnValuePolicy

/-- `operator==` of `std::optional`. -/
def optSame {α : Type} (same : α → α → Bool) : Option α → Option α → Bool
  | none, none => true
  | some a, some b => same a b
  | _, _ => false

/-- `AnnotationStorage::equal`, src/annotated_decl.cpp:932-941. -/
def Storage.equal (s : Storage) (l r : Nat) : Bool :=
  let a := s.entries l
  let b := s.entries r
  let c {α : Type} [DecidableEq α] (f : DeclAttrs → Option α) : Bool := a.bind f = b.bind f
  a.map (·.named) = b.map (·.named) &&
  c (·.namespace_) && c (·.enum) &&
  optSame RecordDeclAttrs.same (a.bind (·.record)) (b.bind (·.record)) &&
  c (·.typedefName) && c (·.fieldOrVar) && c (·.operator) && c (·.conversion) &&
  optSame MethodDeclAttrs.same (a.bind (·.method)) (b.bind (·.method)) &&
  c (·.constructor) &&
  optSame FunctionDeclAttrs.same (a.bind (·.function)) (b.bind (·.function))

end Verif
