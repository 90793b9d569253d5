import Verif.Model.Exposer
/-!
# `TranslationUnitExposer::emitModule` (src/expose.cpp:645-839)
-/
namespace Verif

/-- The parameter of an `expose_` function, written by `emitParameter`: the module
type, or the type of an enum or a class with its bases and holder type. -/
inductive ContextType where
  /-- src/expose.cpp:877-879 -/
  | module
  /-- src/expose.cpp:1026-1028 -/
  | enum (name : Str)
  /-- src/expose.cpp:1228-1258 -/
  | record (name : Str) (bases : List Str) (holder : Str)
  deriving DecidableEq, Repr

/-- The text of the type. -/
def ContextType.emit : ContextType → Str
  | .module => t%"::pybind11::module"
  | .enum name => t%"::pybind11::enum_<" ++ name ++ t%">"
  | .record name bases holder =>
    t%"::pybind11::class_<" ++ name ++ bases.flatMap (t%", " ++ ·) ++
    (if holder.isEmpty then [] else t%", " ++ holder) ++ t%">"

/-- `emitType` of enums and records; see `ContextType`. -/
def Exposer.contextType (w : EmitWorld) (s : Storage) (g : Graph) : Exposer → ContextType
  | .enum id => .enum (w.typeName id)
  | .record id policy =>
    .record (w.typeName id) ((emittedBases g policy (w.hierarchy id)).map w.typeName)
      ((getRecord s id).getD {}).holderType
  | _ => .module

/-- The expression written by `emitIntroducer`. -/
inductive Introducer where
  /-- the object of the parent itself, src/expose.cpp:881-884 -/
  | same (parent : Str)
  /-- src/expose.cpp:985-991 -/
  | submodule (parent : Str) (name : Str)
  /-- src/expose.cpp:1002-1016 and :1061-1076; `flag` is `arithmetic` or `dynamic_attr` -/
  | type (type : ContextType) (parent : Str) (name doc : Str) (flag : Option Str)
  deriving DecidableEq, Repr

/-- The text of the expression. -/
def Introducer.emit : Introducer → Str
  | .same parent => parent
  | .submodule parent name => parent ++ t%".def_submodule(" ++ emitStringLiteral name ++ t%")"
  | .type t parent name doc flag =>
    t.emit ++ t%"(" ++ parent ++ t%", " ++ emitStringLiteral name ++ emitOptionalDoc doc ++
    (match flag with
      | some f => t%", " ++ f
      | none => []) ++ t%")"

/-- The identifier of the parent used in an introducer. -/
def Introducer.parent : Introducer → Str
  | .same p => p
  | .submodule p _ => p
  | .type _ p _ _ _ => p

/-- `emitIntroducer`, src/expose.cpp:881-884, :985-991, :1002-1016, :1061-1076. -/
def Exposer.introducer (w : EmitWorld) (s : Storage) (g : Graph) (parent : Str) (e : Exposer) :
    Introducer :=
  match e with
  | .plain => .same parent
  | .namespace id =>
    match (s.entries id).bind (·.namespace_) with
    | some attrs =>
      if attrs.module then .submodule parent (emitSpelling (w.info id) (s.lookupNamed id))
      else .same parent
    | none => .same parent
  | .enum id =>
    .type (e.contextType w s g) parent (emitSpelling (w.info id) (s.lookupNamed id)) (w.brief id)
      (match (s.entries id).bind (·.enum) with
        | some attrs => if attrs.arithmetic then some t%"::pybind11::arithmetic()" else none
        | none => none)
  | .record id _ =>
    .type (e.contextType w s g) parent (emitSpelling (w.info id) (s.lookupNamed id)) (w.brief id)
      (match getRecord s id with
        | some attrs => if attrs.dynamicAttr then some t%"::pybind11::dynamic_attr()" else none
        | none => none)

/-- `WorklistItem`, src/expose.cpp:668-672. -/
structure WorklistItem where
  context : Nat
  exposer : Exposer
  identifier : Str
  deriving DecidableEq, Repr

/-- Local variables of `emitModule` while the worklist is set up,
src/expose.cpp:660-682. -/
structure Naming where
  /-- `context_identifiers`; the null pointer is `none` -/
  identifiers : Option Nat → Option Str := fun x => if x = none then some t%"root" else none
  /-- number of entries of `context_identifiers` -/
  entries : Nat := 1
  /-- `covered_namespaces` -/
  covered : Nat → Option Nat := fun _ => none
  /-- `used_identifiers` -/
  used : Discriminators := fun _ => 0
  worklist : List WorklistItem := []
  /-- a failed assertion -/
  failed : Bool := false

/-- `context_identifiers.try_emplace` followed by the assertion that there was no
entry before. -/
def Naming.store (n : Naming) (id : Nat) (identifier : Str) : Naming :=
  if (n.identifiers (some id)).isSome then { n with failed := true }
  else { n with
    identifiers := fun x => if x = some id then some identifier else n.identifiers x
    entries := n.entries + 1 }

/-- The name of a context, src/expose.cpp:702-712. -/
def contextLabel (w : EmitWorld) (id : Nat) : ContextLabel :=
  if (w.info id).kind.isTag then .type (w.typeName id)
  else if (w.info id).kind.isNamed then .named (w.qualifiedName id)
  else .translationUnit

/-- Body of the loop over contexts for a context that is not covered yet,
src/expose.cpp:702-721. -/
def Naming.add (w : EmitWorld) (s : Storage) (n : Naming) (id : Nat) : Naming :=
  let r := discriminate n.used ((contextLabel w id).baseName.getD [])
  let n := { n.store id r.1 with used := r.2 }
  { n with worklist := n.worklist ++
      [{ context := id, exposer := Exposer.create w s id, identifier := r.1 }] }

/-- Body of the loop over contexts, src/expose.cpp:683-722. -/
def Naming.step (w : EmitWorld) (s : Storage) (n : Naming) (id : Nat) : Naming :=
  if (w.info id).kind = .namespace then
    match n.covered (w.canonical id) with
    | some first =>
      match n.identifiers (some first) with
      | some identifier => n.store id identifier
      | none => { n with failed := true }
    | none =>
      Naming.add w s { n with covered := fun x => if x = w.canonical id then some id else n.covered x } id
  else n.add w s id

/-- The loop over contexts, src/expose.cpp:683-722. -/
def nameContexts (w : EmitWorld) (s : Storage) (sorted : List Nat) : Naming :=
  sorted.foldl (Naming.step w s) {}

/-- What is written to an output file. -/
inductive Line where
  /-- `void expose_...(...);` -/
  | declare (identifier : Str) (type : ContextType)
  | blank
  | moduleBegin (name : Str)
  /-- `auto ... = ...;` -/
  | introduce (identifier : Str) (introducer : Introducer)
  /-- `expose_...(...);` -/
  | call (identifier : Str)
  /-- manual bindings at the end of the module definition -/
  | postamble (decl : Nat) (lambda : Nat)
  | moduleEnd
  /-- `void expose_...(...) {` -/
  | defineBegin (identifier : Str) (type : ContextType)
  | stmt (s : Stmt)
  | defineEnd
  deriving DecidableEq, Repr

/-- The text of a line. -/
def Line.emit (w : EmitWorld) : Line → Str
  | .declare identifier type => t%"void expose_" ++ identifier ++ t%"(" ++ type.emit ++ t%"& context);\n"
  | .blank => t%"\n"
  | .moduleBegin name => t%"PYBIND11_MODULE(" ++ name ++ t%", root) {\n"
  | .introduce identifier i => t%"auto " ++ identifier ++ t%" = " ++ i.emit ++ t%";\n"
  | .call identifier => t%"expose_" ++ identifier ++ t%"(" ++ identifier ++ t%");\n"
  | .postamble _ lambda => t%"\n" ++ (w.manual lambda).emit
  | .moduleEnd => t%"}\n\n"
  | .defineBegin identifier type =>
    t%"void expose_" ++ identifier ++ t%"(" ++ type.emit ++ t%"& context) {\n"
  | .stmt s => s.emit w
  | .defineEnd => t%"}\n\n"

/-- `parents.lookup(...)`: null if there is no entry. -/
def parentContext (parents : EnclosingScopes) (id : Nat) : Option Nat := (parents id).getD none

/-- The loop over variables for 'postamble' bindings, src/expose.cpp:763-777. -/
def emitPostamble (s : Storage) (vars : List Nat) : List Line :=
  vars.filterMap fun v =>
    let attrs := ((s.entries v).bind (·.fieldOrVar)).getD {}
    if !attrs.postamble then none
    else match attrs.manualBindings with
      | none => none
      | some lambda => some (.postamble v lambda)

/-- The module definition, src/expose.cpp:725-779, written to the first stream. -/
def emitMain (w : EmitWorld) (s : Storage) (g : Graph) (parents : EnclosingScopes) (moduleName : Str)
    (n : Naming) : List Line :=
  (n.worklist.map fun item => .declare item.identifier (item.exposer.contextType w s g)) ++
  [.blank, .moduleBegin moduleName] ++
  (n.worklist.map fun item => .introduce item.identifier
    (item.exposer.introducer w s g ((n.identifiers (parentContext parents item.context)).getD []))) ++
  [.blank] ++
  (n.worklist.map fun item => .call item.identifier) ++
  emitPostamble s w.unitVars ++ [.moduleEnd]

/-- State of the loop that writes definitions, src/expose.cpp:782-838. -/
structure Defining where
  storage : Storage
  diags : List Diag := []
  /-- the stream and what is written to it -/
  writes : List (Nat × Line) := []

/-- Body of the loop that writes definitions, src/expose.cpp:783-838: item number
`index` of `count`, with `streams` streams. -/
def defineItem (w : EmitWorld) (g : Graph) (vis : Visibilities) (streams count : Nat)
    (d : Defining) (index : Nat) (item : WorklistItem) : Defining :=
  let stream := index * streams / count
  let type := item.exposer.contextType w d.storage g
  let r := exposeContext w vis d.storage item.exposer item.context
  { storage := r.storage
    diags := d.diags ++ r.emitted.diags
    writes := d.writes ++
      ((if stream ≠ 0 then [Line.declare item.identifier type] else []) ++
       Line.defineBegin item.identifier type :: r.emitted.stmts.map Line.stmt ++
       [Line.defineEnd]).map (stream, ·) }

/-- The loop that writes definitions, src/expose.cpp:782-838. -/
def defineItems (w : EmitWorld) (g : Graph) (vis : Visibilities) (streams count : Nat) :
    Defining → Nat → List WorklistItem → Defining
  | d, _, [] => d
  | d, index, item :: items =>
    defineItems w g vis streams count (defineItem w g vis streams count d index item) (index + 1) items

/-- Result of `emitModule`. -/
structure ModuleOutput where
  storage : Storage
  diags : List Diag := []
  /-- the stream and what is written to it, in order -/
  writes : List (Nat × Line) := []

/-- What is written to a stream. -/
def ModuleOutput.stream (o : ModuleOutput) (k : Nat) : List Line :=
  (o.writes.filter (·.1 = k)).map (·.2)

/-- The text written to a stream. -/
def ModuleOutput.text (w : EmitWorld) (o : ModuleOutput) (k : Nat) : Str :=
  (o.stream k).flatMap (Line.emit w)

/-- The bases read when sorting. -/
def EmitWorld.bases (w : EmitWorld) : Bases :=
  fun x => (w.hierarchy x).direct.map fun b => (b.access, b.id)

/-- `TranslationUnitExposer::emitModule`, src/expose.cpp:645-839.  `nodes` is the
order in which the nodes of the graph are iterated, `pick` the priority queue. -/
def emitModule (w : EmitWorld) (s : Storage) (g : Graph) (vis : Visibilities) (pick : Pick)
    (nodes : List Nat) (streams : Nat) (moduleName : Str) : ModuleOutput :=
  let parents := findEnclosingScopes w.toWorld s g
  let sorted := declContextsSortedByDependencies w.toWorld w.bases pick nodes g parents
  match sorted.2 with
  | some cycle => { storage := s, diags := [{ decl := cycle, kind := .exposeHereCycle }] }
  | none =>
    let n := nameContexts w s sorted.1
    let d := defineItems w g vis streams n.worklist.length
      { storage := s, writes := (emitMain w s g parents moduleName n).map (0, ·) } 0 n.worklist
    { storage := d.storage, diags := d.diags, writes := d.writes }

end Verif
