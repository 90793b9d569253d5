import Verif.Model.Processing
/-!
# Output for debugging (src/inspect_graph.cpp, src/tool.cpp:138-157)

`--dump-graph` and `--inspect-graph`; for the options see Model/Debug.lean.
`clang::TextTreeStructure` is modelled by its contract: a line for every node, in pre-order,
starting with one column for each node above it, and a mark for the last child.
`llvm::ViewGraph` is modelled by its contract, too: an entry for every node of the graph, with label,
description, attributes and the nodes edges lead to; the text of the file and the program it is
passed to are left out.
-/
namespace Verif

/-- A line for a node.  `description` is `none` if the visibility of the node is looked up
without success, in which case the past-the-end iterator is dereferenced. -/
structure DumpLine where
  node : Nat
  /-- for every node above, from the top, whether it is the last child -/
  columns : List Bool
  isLast : Bool
  label : Str
  description : Option Bool
  deriving DecidableEq, Repr

/-- `GraphPrinter::getNodeLabel`, src/inspect_graph.cpp:48-67; `kindName` and `display` are
`getDeclKindName` and `getNameForDisplay`. -/
def nodeLabel (w : World) (kindName display : Nat → Str) (s : Storage) (x : Nat) : Str :=
  let d := w.info x
  kindName x ++
  if d.kind.isNamed then
    t%" '" ++ display x ++ t%"'" ++
    match s.entries x with
    | some attrs =>
      let spelling := if attrs.named.spelling.isEmpty then getSpelling d else attrs.named.spelling
      if spelling = d.name then [] else t%" as '" ++ spelling ++ t%"'"
    | none => []
  else []

/-- `GraphPrinter::printNode` for the children of a node, src/inspect_graph.cpp:69-86; the root
itself is not printed.  `none` if it takes more than the given number of steps. -/
def dumpChildren (g : Graph) (vis : Visibilities) (label : Nat → Str) :
    Nat → List Bool → List Nat → Option (List DumpLine)
  | 0, _, _ => none
  | _ + 1, _, [] => some []
  | n + 1, columns, c :: cs =>
    let isLast := cs.isEmpty
    match dumpChildren g vis label n (columns ++ [isLast]) (g.children c),
        dumpChildren g vis label n columns cs with
    | some below, some rest =>
      some ({ node := c, columns, isLast, label := label c, description := vis c } :: below ++ rest)
    | _, _ => none

/-- `GraphPrinter::print`, src/inspect_graph.cpp:95. -/
def dumpGraph (g : Graph) (vis : Visibilities) (label : Nat → Str) (steps : Nat) :
    Option (List DumpLine) :=
  dumpChildren g vis label steps [] (g.children g.root)

/-- The text of a line (`TextTreeStructure::AddChild`). -/
def DumpLine.text (l : DumpLine) (visible : Bool) : Str :=
  l.columns.flatMap (fun isLast => if isLast then t%"  " else t%"| ") ++
  (if l.isLast then t%"`-" else t%"|-") ++ l.label ++ t%": " ++
  (if visible then t%"visible" else t%"hidden")

/-- `graphTitle`, `printGraph` and `inspectGraph`, src/tool.cpp:138-157: the printed text.
`none` if it is undefined. -/
def dumpText (g : Graph) (title : Str) (lines : List DumpLine) : Option Str :=
  match lines.mapM (fun l => l.description.map fun b => '\n' :: l.text b) with
  | some ls => some (title ++ ls.flatten ++ t%"\n" ++
      (if g.nodes.length = 1 then t%"<no children>\n" else []))
  | none => none

/-- An entry of the graph shown by `--inspect-graph`. -/
structure DotNode where
  node : Nat
  label : Str
  description : Str
  attributes : Str
  edges : List Nat
  deriving DecidableEq, Repr

/-- `DOTGraphTraits::getNodeLabel`, src/inspect_graph.cpp:128-144. -/
def dotLabel (w : World) (kindName display : Nat → Str) (g : Graph) (x : Nat) : Str :=
  if x = g.root then t%"*"
  else if (w.info x).kind = .translationUnit then t%"TU"
  else if (display x).isEmpty then t%"<" ++ kindName x ++ t%">" else display x

/-- `DOTGraphTraits::getNodeDescription`, src/inspect_graph.cpp:146-153. -/
def dotDescription (w : World) (s : Storage) (x : Nat) : Str :=
  match getNamed w s x with
  | some attrs => attrs.spelling
  | none => []

/-- `DOTGraphTraits::getNodeAttributes`, src/inspect_graph.cpp:155-178. -/
def dotAttributes (w : World) (s : Storage) (x : Nat) : Str :=
  t%"style=\"" ++
  (match getNamed w s x with
    | some attrs =>
      match attrs.visible with
      | none => t%"dotted"
      | some false => t%"dashed"
      | some true => []
    | none => []) ++
  (if (w.info x).kind = .translationUnit then t%",filled,bold\",shape=diamond,fillcolor=Seashell2"
   else if (w.info x).kind = .namespace then t%",filled,bold\",fillcolor=Seashell1"
   else t%"\"")

/-- `viewGraph`, src/inspect_graph.cpp:182-187; `nodes` is the order in which the nodes are iterated. -/
def viewGraph (w : World) (kindName display : Nat → Str) (s : Storage) (g : Graph) (nodes : List Nat) :
    List DotNode :=
  nodes.map fun x => {
    node := x
    label := dotLabel w kindName display g x
    description := dotDescription w s x
    attributes := dotAttributes w s x
    edges := g.children x }

end Verif
