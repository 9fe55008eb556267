import Verif.Model.Graph
/-!
# What it means for a graph to be well formed

These definitions only use the observable parts of the graph: the nodes with their identifiers,
the edges and the roots.
-/
namespace Verif.Spec
variable {W : Type}

/-- What a client can see of a graph. -/
structure View where
  nodes : List Node
  edges : List (Str × Str × DepInfo)
  roots : List Str

/-- What can be seen in a state. -/
def view (s : St W) : View := ⟨s.nodes, s.edges, s.roots⟩

/-- No two nodes have the same identifier. -/
def UniqueIds (g : View) : Prop :=
  ∀ i j (hi : i < g.nodes.length) (hj : j < g.nodes.length),
    g.nodes[i].ident = g.nodes[j].ident → i = j

/-- Some node has this identifier. -/
def HasNode (g : View) (id : Str) : Prop := ∃ n ∈ g.nodes, n.ident = id

/-- Every edge joins two nodes of the graph, every root is a node of the graph. -/
def NoDangling (g : View) : Prop :=
  (∀ a b d, (a, b, d) ∈ g.edges → HasNode g a ∧ HasNode g b) ∧ ∀ r ∈ g.roots, HasNode g r

/-- Everything in `g` is still in `g'`; in particular a node keeps its class and all its other
attributes (the set of global names written, which is stored separately, can grow). -/
structure Grows (g g' : View) : Prop where
  nodes : ∀ n ∈ g.nodes, n ∈ g'.nodes
  edges : ∀ e ∈ g.edges, e ∈ g'.edges
  roots : ∀ r ∈ g.roots, r ∈ g'.roots

/-- The graphs that hooks or the client have seen, in the order of looking. -/
def seenViews (log : List Event) : List View :=
  log.filterMap fun e => match e with
    | .looked n e r => some ⟨n, e, r⟩
    | _ => none

end Verif.Spec
