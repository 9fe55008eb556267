import Verif.Model.Nodes
import Verif.Model.ImportInfo
/-!
# Model of the queries, the report and the HTML and Graphviz exports

`_modulegraph.py` 94-139, `_htmlbuilder.py`, `_dotbuilder.py` and `__main__.py` 20-110.  These
functions see the graph through the iterators of `objectgraph.ObjectGraph`, whose source is not
part of the repository: `Iter` holds what the iterators yield, the contract is `Spec.IterOf`.
Output is the text written to the file.
-/
namespace Verif

/-- What the iterators of the graph yield. -/
structure Iter where
  /-- `graph.iter_graph()` -/
  iterGraph : List Node
  /-- `graph.nodes()` -/
  nodes : List Node
  /-- `graph.roots()` -/
  roots : List Node
  /-- `graph.outgoing(node)` -/
  outgoing : Str → List (List DepInfo × Node)
  /-- `graph.incoming(node)` -/
  incoming : Str → List (List DepInfo × Node)

/-- `type(node).__name__`. -/
def Node.className (n : Node) : Str :=
  match n.kind with
  | .script => c!"Script"
  | .module .source => c!"SourceModule"
  | .module .frozen => c!"FrozenModule"
  | .module .bytecode => c!"BytecodeModule"
  | .module .extension => c!"ExtensionModule"
  | .module .builtin => c!"BuiltinModule"
  | .module .invalid => c!"InvalidModule"
  | .namespacePkg _ => c!"NamespacePackage"
  | .package true .. => c!"FrozenPackage"
  | .package false .. => c!"Package"
  | .excluded => c!"ExcludedModule"
  | .missing => c!"MissingModule"
  | .invalidRel => c!"InvalidRelativeImport"
  | .virtual _ => c!"VirtualNode"
  | .alias _ => c!"AliasNode"
  | .dist _ => c!"PyPIDistribution"

/-- `node.name`. -/
def Node.name (n : Node) : Str := match n.kind with | .dist d => d.name | _ => n.ident

/-- Comparison of strings by code points. -/
def strLe (a b : Str) : Bool := decide (a ≤ b)

/-- Insert before the first element that is not smaller. -/
def insertBy {α : Type} (key : α → Str) (x : α) : List α → List α
  | [] => [x]
  | y :: l => if strLe (key x) (key y) then x :: y :: l else y :: insertBy key x l

/-- `sorted(l, key=key)`. -/
def sortBy {α : Type} (key : α → Str) : List α → List α
  | [] => []
  | x :: l => insertBy key x (sortBy key l)

/-- `sorted(nodes, key=operator.attrgetter("identifier"))`. -/
def sortNodes (l : List Node) : List Node := sortBy Node.ident l

/-- `sep.join(parts)`. -/
def joinStr (sep : Str) : List Str → Str
  | [] => []
  | [p] => p
  | p :: q :: r => p ++ sep ++ joinStr sep (q :: r)

/-! ## Queries and report -/

/-- `_modulegraph.py` 109-117, the loop of `distributions`. -/
def distributionsLoop : List Node → List Str → List Dist
  | [], _ => []
  | node :: rest, seen =>
    if !node.isBaseNode then distributionsLoop rest seen
    else
      match node.distribution with
      | some d =>
        if seen.contains d.identifier then distributionsLoop rest seen
        else d :: distributionsLoop rest (d.identifier :: seen)
      | none => distributionsLoop rest seen

/-- `_modulegraph.py` 94-117, `distributions`. -/
def distributions (g : Iter) (reachable : Bool) : List Dist :=
  distributionsLoop (if reachable then g.iterGraph else g.nodes) []

/-- `"%-<n>s" % s`. -/
def padRight (n : Nat) (s : Str) : Str := s ++ List.replicate (n - s.length) ' '

/-- `"%-15s %-25s %s\n" % (a, b, c)`. -/
def reportFormat (a b c : Str) : Str := padRight 15 a ++ ' ' :: padRight 25 b ++ ' ' :: c ++ ['\n']

/-- `_modulegraph.py` 122-139, `report`. -/
def report (g : Iter) : Str :=
  ['\n'] ++ reportFormat c!"Class" c!"Name" c!"File" ++ reportFormat c!"-----" c!"----" c!"----" ++
  (sortNodes g.iterGraph).flatMap fun m =>
    if !m.isBaseNode then []
    else reportFormat m.className m.ident (m.filename.getD [])

/-! ## HTML -/

/-- `_htmlbuilder.py` 16-32 (after `textwrap.dedent`). -/
def htmlPrefix : Str := c!"<HTML>\n  <HEAD>\n   <TITLE>Modulegraph report</TITLE>\n  </HEAD>\n  <BODY>\n   <H1>Modulegraph report</H1>\n"
def htmlSuffix : Str := c!"  </BODY>\n</HTML>\n"

/-- `_htmlbuilder.py` 63, 74: a link to a node. -/
def htmlLink (n : Node) : Str :=
  c!"<a href=\"#" ++ n.ident ++ c!"\">" ++ n.name ++ c!"</a>"

/-- `_htmlbuilder.py` 54-79: the section for a node. -/
def htmlSection (g : Iter) (reachable : List Str) (node : Node) : Str :=
  c!"<a name=\"" ++ node.ident ++ c!"\"><h2>" ++ node.className ++ c!" " ++ node.name ++ c!"</h2></a>\n" ++
  (let outgoing := g.outgoing node.ident
   if outgoing.isEmpty then []
   else c!"<p>Depends on:\n" ++ joinStr c!", " (outgoing.map fun e => htmlLink e.2) ++ c!"\n") ++
  (let incoming := g.incoming node.ident
   if incoming.isEmpty then []
   else c!"<p>Used by:\n" ++
    joinStr c!", " ((incoming.filter fun e => reachable.contains e.2.ident).map fun e => htmlLink e.2)
      ++ c!"\n")

/-- `_htmlbuilder.py` 35-81, `export_to_html`. -/
def exportHtml (g : Iter) : Str :=
  let reachable := g.iterGraph.map Node.ident
  htmlPrefix ++
  ((sortNodes g.iterGraph).flatMap fun node =>
    if !node.isBaseNode then [] else htmlSection g reachable node) ++
  htmlSuffix

/-! ## Graphviz -/

/-- `_dotbuilder.py` 18-31, `format_attributes`; a dictionary is a list with distinct keys. -/
def formatAttributes (value : List (Str × Str)) : Str :=
  if value.isEmpty then []
  else
    let parts := (sortBy Prod.fst value).map fun p => p.1 ++ '=' :: p.2
    c!" [" ++ joinStr c!", " parts ++ c!"]"

/-- `__main__.py` 24-32. -/
def nodeAttr (className : Str) : List (Str × Str) :=
  if className = c!"Script" then [(c!"shape", c!"note")]
  else if className = c!"Package" then [(c!"shape", c!"folder")]
  else if className = c!"SourceModule" then [(c!"shape", c!"rectangle")]
  else if className = c!"BytecodeModule" then [(c!"shape", c!"rectangle")]
  else if className = c!"ExtensionModule" then [(c!"shape", c!"parallelogram")]
  else if className = c!"BuiltinModule" then [(c!"shape", c!"hexagon")]
  else if className = c!"MissingModule" then [(c!"shape", c!"rectangle"), (c!"color", c!"red")]
  else []

/-- `__main__.py` 35-53, `format_node`.  `node in mg.roots()` compares dataclasses; equal nodes
have equal names, so it is a test for the identifier. -/
def formatNode (g : Iter) (node : Node) : List (Str × Str) :=
  (if (g.roots.map Node.ident).contains node.ident then
    [(c!"penwidth", c!"2"), (c!"root", c!"true")] else []) ++ nodeAttr node.className

/-- `__main__.py` 56-79, `format_edge`. -/
def formatEdge (source target : Node) (edge : List DepInfo) : List (Str × Str) :=
  (if edge.all fun e => e.isOptional then [(c!"style", c!"dashed")] else []) ++
  (if startsWith (target.ident ++ ['.']) source.ident then
    [(c!"weight", c!"10"), (c!"arrowhead", c!"none")] else [])

/-- `__main__.py` 97-107: one step of `group_nodes`; the dictionary in insertion order. -/
def addToGroup (clusters : List (Str × List Node)) (name : Str) (node : Node) :
    List (Str × List Node) :=
  match clusters with
  | [] => [(name, [node])]
  | (k, l) :: rest =>
    if k = name then (k, l ++ [node]) :: rest else (k, l) :: addToGroup rest name node

/-- `__main__.py` 82-109, `group_nodes` (every shape is `tab`). -/
def groupNodes (g : Iter) : List (Str × List Node) :=
  g.iterGraph.foldl (fun clusters node =>
    if !node.isBaseNode then clusters
    else
      match node.distribution with
      | none => clusters
      | some d => addToGroup clusters d.name node) []

/-- A node in quotes. -/
def quoted (n : Node) : Str := '"' :: n.ident ++ ['"']

/-- `_dotbuilder.py` 55-58 with `format_node`. -/
def dotNode (g : Iter) (n : Node) : Str :=
  c!"    " ++ quoted n ++ formatAttributes (formatNode g n) ++ ['\n']

/-- `_dotbuilder.py` 60-63 with `format_edge`. -/
def dotEdge (source : Node) (e : List DepInfo × Node) : Str :=
  c!"    " ++ quoted source ++ c!" -> " ++ quoted e.2 ++ formatAttributes (formatEdge source e.2 e.1)
    ++ ['\n']

/-- `_dotbuilder.py` 65-74. -/
def dotCluster (idx : Nat) (c : Str × List Node) : Str :=
  c!"subgraph cluster_" ++ (toString idx).toList ++ c!" {\n   label = \"" ++ c.1 ++
  c!"\"\n   shape = tab\n   style=filled; color=lightgray\n" ++
  (c.2.flatMap fun n => c!"   " ++ quoted n ++ ['\n']) ++ c!"}\n\n"

/-- `_dotbuilder.py` 34-75, `export_to_dot` with the callbacks of the command line. -/
def exportDot (g : Iter) : Str :=
  c!"digraph modulegraph {\n" ++
  (g.iterGraph.flatMap fun source =>
    dotNode g source ++ (g.outgoing source.ident).flatMap (dotEdge source)) ++
  ((groupNodes g).zipIdx.flatMap fun c => dotCluster c.2 c.1) ++
  c!"}\n"

end Verif
