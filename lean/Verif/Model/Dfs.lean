import Verif.Model.Graph
/-!
# Depth-first iteration of a graph

`llvm::df_iterator` (llvm/ADT/DepthFirstIterator.h) and `llvm::po_iterator`
(llvm/ADT/PostOrderIterator.h) are the same machine: a set of visited nodes and a
stack of pairs of a node and its children not looked at yet.  A child is entered
if it has not been visited before; a node is completed when it runs out of
children.  `df_iterator` runs the body of its loop on entering a node, and calls
`completed` of a user-supplied set; `po_iterator` runs the body on completion.
-/
namespace Verif

/-- What the loop over an iterator does. -/
structure Walker (σ : Type) where
  /-- body of a loop over `df_iterator`; the first argument is the previous node on
  the path, `getParentNode`, src/decl_context_graph_processing.cpp:33-44 -/
  enter : Option Nat → Nat → σ → σ := fun _ _ s => s
  /-- whether the body calls `skipChildren` -/
  skip : Nat → Bool := fun _ => false
  /-- called when all children have been handled -/
  completed : Nat → σ → σ := fun _ s => s

/-- Number of nodes that can still be entered. -/
def Graph.unvisited (g : Graph) (visited : List Nat) : Nat :=
  (g.nodes.filter (· ∉ visited)).length

/-- Number of steps until the stack is empty if nothing is entered. -/
def stackSize : List (Nat × List Nat) → Nat
  | [] => 0
  | (_, cs) :: st => cs.length + 1 + stackSize st

theorem unvisited_lt (g : Graph) (visited : List Nat) (c : Nat) (h : c ∈ g.nodes)
    (hv : c ∉ visited) : g.unvisited (c :: visited) < g.unvisited visited := by
  unfold Graph.unvisited
  rw [← List.countP_eq_length_filter, ← List.countP_eq_length_filter]
  generalize g.nodes = l at *
  have mono : ∀ l : List Nat, l.countP (fun x => decide (x ∉ c :: visited)) ≤
      l.countP (fun x => decide (x ∉ visited)) := by
    intro l
    refine List.countP_mono_left fun x _ hx => ?_
    simp only [List.mem_cons, not_or, decide_eq_true_eq] at hx ⊢
    exact hx.2
  induction l with
  | nil => simp at h
  | cons a l ih =>
    rw [List.countP_cons, List.countP_cons]
    by_cases ha : a = c
    · subst ha
      have := mono l
      simp only [List.mem_cons] at this
      simp only [List.mem_cons, true_or, not_true_eq_false, decide_false, Bool.false_eq_true,
        if_false, hv, not_false_eq_true, decide_true, if_true]
      omega
    · have hl : c ∈ l := by
        rcases List.mem_cons.1 h with h | h
        · exact absurd h.symm ha
        · exact h
      have := ih hl
      simp only [List.mem_cons] at this
      simp only [List.mem_cons, ha, false_or]
      omega

/-- The remaining iteration.  (All children of a node are nodes of the graph; a
child that is not is not entered, which makes the iteration total.) -/
def dfsLoop {σ : Type} (g : Graph) (k : Walker σ) (visited : List Nat)
    (stack : List (Nat × List Nat)) (s : σ) : List Nat × σ :=
  match stack with
  | [] => (visited, s)
  | (n, []) :: st => dfsLoop g k visited st (k.completed n s)
  | (n, c :: cs) :: st =>
    if c ∈ visited then dfsLoop g k visited ((n, cs) :: st) s
    else if c ∈ g.nodes then
      if k.skip c then dfsLoop g k (c :: visited) ((n, cs) :: st) (k.enter (some n) c s)
      else
        dfsLoop g k (c :: visited) ((c, g.children c) :: (n, cs) :: st) (k.enter (some n) c s)
    else dfsLoop g k visited ((n, cs) :: st) s
termination_by (g.unvisited visited, stackSize stack)
decreasing_by
  · apply Prod.Lex.right; simp [stackSize]
  · apply Prod.Lex.right; simp [stackSize]
  · apply Prod.Lex.left; exact unvisited_lt g visited c (by assumption) (by assumption)
  · apply Prod.Lex.left; exact unvisited_lt g visited c (by assumption) (by assumption)
  · apply Prod.Lex.right; simp [stackSize]

/-- A loop over the nodes of the graph, starting with its root. -/
def dfs {σ : Type} (g : Graph) (k : Walker σ) (s : σ) : σ :=
  if k.skip g.root then k.enter none g.root s
  else (dfsLoop g k [g.root] [(g.root, g.children g.root)] (k.enter none g.root s)).2

end Verif
