import Verif.Spec.GraphSpec
import Verif.Model.Export
/-!
# Specification: reachable nodes, and what the iterators of a graph yield
-/
namespace Verif.Spec
open Verif

/-- The node can be reached from a root. -/
inductive Reach (g : View) : Str → Prop where
  | root {r} : r ∈ g.roots → Reach g r
  | step {a b d} : Reach g a → (a, b, d) ∈ g.edges → Reach g b

/-- The contract of `ObjectGraph`: every iterator yields each thing once, in any order. -/
structure IterOf (g : View) (it : Iter) : Prop where
  iter_once : (it.iterGraph.map Node.ident).Nodup
  iter_mem : ∀ n, n ∈ it.iterGraph ↔ n ∈ g.nodes ∧ Reach g n.ident
  nodes_mem : ∀ n, n ∈ it.nodes ↔ n ∈ g.nodes
  roots_mem : ∀ n, n ∈ it.roots ↔ n ∈ g.nodes ∧ n.ident ∈ g.roots
  out_once : ∀ a, ((it.outgoing a).map fun e => e.2.ident).Nodup
  out_mem : ∀ a t, (∃ ds, (ds, t) ∈ it.outgoing a) ↔ t ∈ g.nodes ∧ ∃ d, (a, t.ident, d) ∈ g.edges
  out_attrs : ∀ a ds t, (ds, t) ∈ it.outgoing a → ∀ d, d ∈ ds ↔ (a, t.ident, d) ∈ g.edges
  in_once : ∀ a, ((it.incoming a).map fun e => e.2.ident).Nodup
  in_mem : ∀ a t, (∃ ds, (ds, t) ∈ it.incoming a) ↔ t ∈ g.nodes ∧ ∃ d, (t.ident, a, d) ∈ g.edges

/-- The same for the iterators of all graphs that a `ModuleGraph` can hold. -/
def ObjectGraphOk {W : Type} (iter : St W → Iter) : Prop :=
  ∀ s, UniqueIds (view s) → NoDangling (view s) → IterOf (view s) (iter s)

/-- Not a distribution. -/
def IsModuleNode (n : Node) : Prop := ∀ d, n.kind ≠ .dist d

/-- The reachable nodes that are not distributions, in the order of their identifiers. -/
structure Listing (g : View) (l : List Node) : Prop where
  sorted : l.Pairwise fun a b => a.ident < b.ident
  mem : ∀ n, n ∈ l ↔ n ∈ g.nodes ∧ Reach g n.ident ∧ IsModuleNode n

/-- A line of the report: three columns, the first two at least 15 and 25 characters wide, with
spaces between them. -/
def Columns (a b c line : Str) : Prop :=
  ∃ i j, line = a ++ List.replicate i ' ' ++ [' '] ++ b ++ List.replicate j ' ' ++ [' '] ++ c ++ ['\n'] ∧
    a.length + i = max 15 a.length ∧ b.length + j = max 25 b.length

/-- The nodes that `a` has an edge to, each once. -/
structure Targets (g : View) (a : Str) (l : List Node) : Prop where
  once : (l.map Node.ident).Nodup
  mem : ∀ t, t ∈ l ↔ t ∈ g.nodes ∧ ∃ d, (a, t.ident, d) ∈ g.edges

/-- The reachable nodes that have an edge to `b`, each once. -/
structure Users (g : View) (b : Str) (l : List Node) : Prop where
  once : (l.map Node.ident).Nodup
  mem : ∀ t, t ∈ l ↔ t ∈ g.nodes ∧ Reach g t.ident ∧ ∃ d, (t.ident, b, d) ∈ g.edges

/-- The class of a node, as it is called in the documentation. -/
def classOf : Kind → Str
  | .script => c!"Script"
  | .module .source => c!"SourceModule"
  | .module .bytecode => c!"BytecodeModule"
  | .module .extension => c!"ExtensionModule"
  | .module .builtin => c!"BuiltinModule"
  | .module .frozen => c!"FrozenModule"
  | .module .invalid => c!"InvalidModule"
  | .package frozen .. => if frozen then c!"FrozenPackage" else c!"Package"
  | .namespacePkg _ => c!"NamespacePackage"
  | .missing => c!"MissingModule"
  | .excluded => c!"ExcludedModule"
  | .invalidRel => c!"InvalidRelativeImport"
  | .virtual _ => c!"VirtualNode"
  | .alias _ => c!"AliasNode"
  | .dist _ => c!"PyPIDistribution"

/-- How a node is called: a distribution has a name besides its identifier, others do not. -/
def titleOf (n : Node) : Str :=
  match n.kind with
  | .dist d => d.name
  | _ => n.ident

/-- Links with commas between them. -/
def links : List Node → Str
  | [] => []
  | [n] => c!"<a href=\"#" ++ n.ident ++ c!"\">" ++ titleOf n ++ c!"</a>"
  | n :: m :: l => c!"<a href=\"#" ++ n.ident ++ c!"\">" ++ titleOf n ++ c!"</a>, " ++ links (m :: l)

/-- The section of a node: a heading with an anchor, links to all that it depends on (if any), and
links to all reachable nodes that depend on it (if any node depends on it). -/
def HtmlSection (g : View) (n : Node) (text : Str) : Prop :=
  ∃ T U dep used, Targets g n.ident T ∧ Users g n.ident U ∧
    text = c!"<a name=\"" ++ n.ident ++ c!"\"><h2>" ++ classOf n.kind ++ c!" " ++ titleOf n ++
      c!"</h2></a>\n" ++ dep ++ used ∧
    (T = [] ∧ dep = [] ∨ T ≠ [] ∧ dep = c!"<p>Depends on:\n" ++ links T ++ c!"\n") ∧
    (U = [] ∧ used = [] ∨ used = c!"<p>Used by:\n" ++ links U ++ c!"\n")

/-- An edge statement: dashed when all imports are optional; edges to the package of the source have
a weight and no arrow. -/
def DotEdge (g : View) (a b : Node) (text : Str) : Prop :=
  ∃ dashed parent : Bool, (dashed = true ↔ ∀ d, (a.ident, b.ident, d) ∈ g.edges → d.isOptional = true) ∧
    (parent = true ↔ ∃ r, a.ident = b.ident ++ '.' :: r) ∧
    text = c!"    \"" ++ a.ident ++ c!"\" -> \"" ++ b.ident ++ c!"\"" ++
      (match dashed, parent with
      | false, false => []
      | true, false => c!" [style=dashed]"
      | false, true => c!" [arrowhead=none, weight=10]"
      | true, true => c!" [arrowhead=none, style=dashed, weight=10]") ++ c!"\n"

/-- The shape of a node. -/
def shapeOf : Kind → Option Str
  | .script => some c!"note"
  | .package false .. => some c!"folder"
  | .module .source | .module .bytecode | .missing => some c!"rectangle"
  | .module .extension => some c!"parallelogram"
  | .module .builtin => some c!"hexagon"
  | _ => none

/-- A node statement: its identifier in quotes and attributes: red for missing modules, marks for
roots, and the shape. -/
def DotNode (g : View) (n : Node) (text : Str) : Prop :=
  ∃ root missing : Bool, (root = true ↔ n.ident ∈ g.roots) ∧ (missing = true ↔ n.kind = .missing) ∧
    let parts := (if missing then [c!"color=red"] else []) ++
      (if root then [c!"penwidth=2", c!"root=true"] else []) ++ ((shapeOf n.kind).map (c!"shape=" ++ ·)).toList
    text = c!"    \"" ++ n.ident ++ c!"\"" ++
      (if parts = [] then [] else c!" [" ++ [',', ' '].intercalate parts ++ c!"]") ++ c!"\n"

/-- The text of a cluster with number `i`. -/
def clusterText (i : Nat) (name : Str) (l : List Node) : Str :=
  c!"subgraph cluster_" ++ (toString i).toList ++ c!" {\n   label = \"" ++ name ++ c!"\"\n" ++
  c!"   shape = tab\n" ++ c!"   style=filled; color=lightgray\n" ++
  (l.flatMap fun n => c!"   \"" ++ n.ident ++ c!"\"\n") ++ c!"}\n\n"

/-- Clusters: one for each distribution name, with all reachable nodes of that distribution. -/
structure Clusters (g : View) (cs : List (Str × List Node)) : Prop where
  names : (cs.map Prod.fst).Nodup
  once : ∀ c ∈ cs, c.2.Nodup
  nonempty : ∀ c ∈ cs, c.2 ≠ []
  mem : ∀ n name, (∃ l, (name, l) ∈ cs ∧ n ∈ l) ↔ n ∈ g.nodes ∧ Reach g n.ident ∧ IsModuleNode n ∧
    ∃ d, n.distribution = some d ∧ d.name = name

end Verif.Spec
