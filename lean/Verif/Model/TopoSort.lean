import Verif.Model.Processing
/-!
# Sorting of declaration contexts by dependencies

src/decl_context_graph_processing.cpp:378-495.
-/
namespace Verif

/-- A `std::priority_queue`: `pick step elements` is what `top` returns when called
for the given time and the queue contains the given elements (in the order in
which they have been pushed).  See `Spec.PicksTop` for what is known about it. -/
abbrev Pick := Nat → List Nat → Nat

/-- Local variables of `lexicographicalTopologicalSort`. -/
structure Sorting where
  /-- `num_predecessors` -/
  numPredecessors : Nat → Int := fun _ => 0
  /-- `successors`, as a list of entries -/
  successors : List (Nat × List Nat) := []
  ready : List Nat := []
  result : List Nat := []

/-- `successors[other].push_back(node)`. -/
def addSuccessor (other node : Nat) : List (Nat × List Nat) → List (Nat × List Nat)
  | [] => [(other, [node])]
  | (k, l) :: rest =>
    if k = other then (k, l ++ [node]) :: rest else (k, l) :: addSuccessor other node rest

/-- `add_predecessor`, :401-404. -/
def addPredecessor (node : Nat) (s : Sorting) (other : Nat) : Sorting :=
  { s with
    successors := addSuccessor other node s.successors
    numPredecessors := fun x => if x = node then s.numPredecessors x + 1 else s.numPredecessors x }

/-- Body of the first loop, :400-408. -/
def countPredecessors (preds : Nat → List Nat) (s : Sorting) (node : Nat) : Sorting :=
  let s := (preds node).foldl (addPredecessor node) s
  if s.numPredecessors node = 0 then { s with ready := s.ready ++ [node] } else s

/-- Body of the inner loop, :419-422. -/
def release (s : Sorting) (other : Nat) : Sorting :=
  let n := s.numPredecessors other - 1
  let s := { s with numPredecessors := fun x => if x = other then n else s.numPredecessors x }
  if n = 0 then { s with ready := s.ready ++ [other] } else s

/-- One iteration of the second loop, :413-427. -/
def sortStep (node : Nat) (s : Sorting) : Sorting :=
  let s := { s with ready := s.ready.erase node }
  let s := match s.successors.lookup node with
    | some l =>
      let s := l.foldl release s
      { s with successors := s.successors.filter (·.1 ≠ node) }
    | none => s
  { s with result := s.result ++ [node] }

/-- The second loop, :413-427, for at most the given number of iterations (it
terminates before, see `sortLoop_ready`). -/
def sortLoop (pick : Pick) : Nat → Sorting → Sorting
  | 0, s => s
  | n + 1, s =>
    if s.ready.isEmpty then s else sortLoop pick n (sortStep (pick s.result.length s.ready) s)

/-- `lexicographicalTopologicalSort`, :390-441, where `nodes` is the order in which
the nodes of the graph are iterated. -/
def lexicographicalTopologicalSort (pick : Pick) (nodes : List Nat) (preds : Nat → List Nat) :
    List Nat :=
  let s := nodes.foldl (countPredecessors preds) {}
  let s := sortLoop pick (nodes.length + 1) s
  if s.successors.isEmpty then s.result
  else s.result ++ [pick s.result.length (s.ready ++ s.successors.map (·.1))]

/-- Direct bases as read by `find_predecessors`: the access specifier and the
definition of the base class. -/
abbrev Bases := Nat → List (Access × Nat)

/-- `find_predecessors`, :448-471.  `graph.getNode(parent)` is assumed to exist. -/
def findPredecessors (w : World) (bases : Bases) (g : Graph) (parents : EnclosingScopes)
    (id : Nat) : List Nat :=
  (match parents id with
    | some (some p) => [p]
    | _ => []) ++
  (if (w.info id).kind = .record then
    (bases id).filterMap fun b => if b.1 = .public ∧ g.hasNode b.2 then some b.2 else none
  else [])

/-- `declContextsSortedByDependencies`, :443-495: the sorted contexts, and the value of
`*cycle` if it is set. -/
def declContextsSortedByDependencies (w : World) (bases : Bases) (pick : Pick) (nodes : List Nat)
    (g : Graph) (parents : EnclosingScopes) : List Nat × Option Nat :=
  let sorted := lexicographicalTopologicalSort pick nodes (findPredecessors w bases g parents)
  if sorted.length ≠ g.nodes.length then ([], sorted.getLast?) else (sorted, none)

end Verif
