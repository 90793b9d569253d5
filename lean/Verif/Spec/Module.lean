import Verif.Model.Module
import Verif.Spec.Exposer
import Verif.Spec.TopoSort
/-!
# Notions about the module definition
-/
namespace Verif.Spec

/-- Both declarations open the same context: a namespace can be opened repeatedly. -/
def sameContext (w : EmitWorld) (x y : Nat) : Bool :=
  x = y || ((w.info x).kind = .namespace && (w.info y).kind = .namespace && w.canonical x = w.canonical y)

/-- The first declaration of the context. -/
def representative (w : EmitWorld) (order : List Nat) (x : Nat) : Option Nat :=
  order.find? (sameContext w x)

/-- The contexts, each represented by the first of its declarations. -/
def contextsOf (w : EmitWorld) (order : List Nat) : List Nat :=
  order.filter fun x => representative w order x = some x

/-- The C++ identifiers used for the contexts: see C09. -/
def identifiersOf (w : EmitWorld) (order : List Nat) : List Str :=
  discriminateAll (fun _ => 0) ((contextsOf w order).map fun x => ((contextLabel w x).baseName.getD []))

/-- The identifier of a context. -/
def identifierOf (w : EmitWorld) (order : List Nat) (x : Nat) : Str :=
  match representative w order x with
  | some r => (((contextsOf w order).zip (identifiersOf w order)).lookup r).getD []
  | none => []

/-- The parameter type of the function for a context. -/
def contextTypeOf (w : EmitWorld) (s : Storage) (g : Graph) (x : Nat) : ContextType :=
  (Exposer.create w s x).contextType w s g

/-- The definition of the function for a context, written to file number `k`; it is
repeated that the function exists unless this is the main file. -/
def definitionOf (w : EmitWorld) (s : Storage) (g : Graph) (vis : Visibilities) (k x : Nat)
    (identifier : Str) : List Line :=
  (if k ≠ 0 then [.declare identifier (contextTypeOf w s g x)] else []) ++
  [.defineBegin identifier (contextTypeOf w s g x)] ++
  (exposeContext w vis s (Exposer.create w s x) x).emitted.stmts.map .stmt ++ [.defineEnd]

/-- What is assumed about the input of `emitModule`: the graph results from pruning, no
class is its own base, `pick` behaves like a priority queue, and `nodes` lists the nodes
of the graph. -/
structure EmitInput (w : EmitWorld) (g : Graph) (pick : Pick) (nodes : List Nat) : Prop where
  graph : ExposedGraph w.toWorld g
  bases : ∀ x a, (a, x) ∉ w.bases x
  picks : PicksTop w.loc pick
  perm : nodes.Perm g.nodes

/-- The identifier of the object `x` is created in. -/
def parentIdentifier (w : EmitWorld) (s : Storage) (g : Graph) (order : List Nat) (x : Nat) : Str :=
  match findEnclosingScopes w.toWorld s g x with
  | some (some q) => identifierOf w order q
  | _ => t%"root"

/-- The module definition. -/
def mainOf (w : EmitWorld) (s : Storage) (g : Graph) (name : Str) (order : List Nat) : List Line :=
  let l := (contextsOf w order).zip (identifiersOf w order)
  (l.map fun p => .declare p.2 (contextTypeOf w s g p.1)) ++ [.blank, .moduleBegin name] ++
  (l.map fun p => .introduce p.2 ((Exposer.create w s p.1).introducer w s g
    (parentIdentifier w s g order p.1))) ++ [.blank] ++
  (l.map fun p => .call p.2) ++
  ((w.unitVars.filterMap fun v => (postambleLambda s v).map (Line.postamble v)) ++ [.moduleEnd])

/-! ### Use of names in the generated code -/

/-- In the code functions are declared before they are called or defined, with the
same type, and variables are only used after their introduction. -/
def WellScoped : List (Str × ContextType) → List Str → List Line → Prop
  | _, _, [] => True
  | fs, vs, .declare f t :: l => WellScoped ((f, t) :: fs) vs l
  | fs, _, .moduleBegin _ :: l => WellScoped fs [t%"root"] l
  | fs, vs, .introduce x i :: l => i.parent ∈ vs ∧ WellScoped fs (x :: vs) l
  | fs, vs, .call f :: l => (∃ t, (f, t) ∈ fs) ∧ f ∈ vs ∧ WellScoped fs vs l
  | fs, _, .moduleEnd :: l => WellScoped fs [] l
  | fs, vs, .defineBegin f t :: l => (f, t) ∈ fs ∧ WellScoped fs vs l
  | fs, vs, _ :: l => WellScoped fs vs l

/-- The function called by a line. -/
def calledOf : Line → Option Str
  | .call f => some f
  | _ => none

/-- The variable introduced by a line. -/
def introducedOf : Line → Option Str
  | .introduce x _ => some x
  | _ => none

/-- The function whose definition begins. -/
def definedOf : Line → Option (Str × ContextType)
  | .defineBegin f t => some (f, t)
  | _ => none

/-- The manual binding in a line of the module definition. -/
def postambleOf : Line → Option (Nat × Nat)
  | .postamble d l => some (d, l)
  | _ => none

/-! ### Python objects

An object is given by its path: the names of the modules and classes that lead to it
from the module itself. -/

/-- Value of an introducer (pybind11): the object of the parent itself, or a new one
in it.  Creating a submodule that exists already gives the existing one. -/
def Introducer.object (parent : List Str) : Introducer → List Str
  | .same _ => parent
  | .submodule _ name => parent ++ [name]
  | .type _ _ name _ _ => parent ++ [name]

/-- Run the introducers of a module definition.  Using an unknown variable or
introducing one twice is an error of the C++ compiler. -/
def runIntroducers : List (Str × List Str) → List Line → Option (List (Str × List Str))
  | env, [] => some env
  | env, .introduce x i :: l =>
    match env.lookup i.parent, env.lookup x with
    | some parent, none => runIntroducers ((x, Introducer.object parent i) :: env) l
    | _, _ => none
  | env, _ :: l => runIntroducers env l

/-- A context with an object of its own: classes, enums, and namespaces annotated with
`module`. -/
def hasObject (w : EmitWorld) (s : Storage) (x : Nat) : Bool :=
  match (w.info x).kind with
  | .record => true
  | .enum => true
  | .namespace =>
    match s.entries x with
    | some a => match a.namespace_ with
      | some ns => ns.module
      | none => false
    | none => false
  | _ => false

/-- The name of the object. -/
def exposedName (w : EmitWorld) (s : Storage) (x : Nat) : Str :=
  let given := match s.entries x with
    | some a => a.named.spelling
    | none => []
  if given ≠ [] then given else getSpelling (w.info x)

/-- The object members of context `x` belong to: the module for the translation unit,
the object of the context if it has one, and otherwise that of the context around it. -/
inductive PlacedAt (w : EmitWorld) (s : Storage) (g : Graph) : Nat → List Str → Prop where
  | root : PlacedAt w s g g.root []
  | inside {p x : Nat} {path : List Str} : Edge g p x → PlacedAt w s g p path →
      hasObject w s x = false → PlacedAt w s g x path
  | own {p x : Nat} {path : List Str} : Edge g p x → PlacedAt w s g p path →
      hasObject w s x = true → PlacedAt w s g x (path ++ [exposedName w s x])

/-- Declarations of the same namespace have the same annotations (as far as objects
are concerned) and are in declarations of the same context. -/
structure Agree (w : EmitWorld) (s : Storage) (g : Graph) : Prop where
  object : ∀ x ∈ g.nodes, ∀ y ∈ g.nodes, sameContext w x y = true → hasObject w s x = hasObject w s y
  name : ∀ x ∈ g.nodes, ∀ y ∈ g.nodes, sameContext w x y = true → exposedName w s x = exposedName w s y
  parent : ∀ p x q y, Edge g p x → Edge g q y → sameContext w x y = true → sameContext w p q = true

/-- The object the variable of a context refers to.  A namespace that is opened repeatedly
has one variable only, and what counts are the scopes around and the annotations of its
first declaration in `order`. -/
inductive Refers (w : EmitWorld) (s : Storage) (g : Graph) (order : List Nat) : Nat → List Str → Prop where
  | root : Refers w s g order g.root []
  | again {x r : Nat} {path : List Str} : representative w order x = some r → r ≠ x →
      Refers w s g order r path → Refers w s g order x path
  | inside {q x : Nat} {path : List Str} : representative w order x = some x →
      EnclosingScope s g q x → Refers w s g order q path → hasObject w s x = false →
      Refers w s g order x path
  | own {q x : Nat} {path : List Str} : representative w order x = some x →
      EnclosingScope s g q x → Refers w s g order q path → hasObject w s x = true →
      Refers w s g order x (path ++ [exposedName w s x])

end Verif.Spec
