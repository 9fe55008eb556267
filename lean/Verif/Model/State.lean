import Verif.Model.Nodes
import Verif.Model.Implies
/-!
# State of a `ModuleGraph` and the monad of its methods

`ModuleGraph` (`_modulegraph.py` 47) extends `objectgraph.ObjectGraph`, which is not in the
repository; the operations used by the library are modelled by their documented contract
(`addNode`, `addEdge`, `addRoot`, `findNode`, `outgoing` below).
-/
namespace Verif

/-- Entries of `_work_stack` (`_modulegraph.py` 66): a function with its arguments.
`pp`: `(self._post_processing, (self, node))`; `imp`: `(self._process_import, (node, info))`;
`nl`: `(self._process_namelist, (importing, imported, info))`; `pkg`: `(self.import_package,
(node, name))`. -/
inductive Item where
  | pp (node : Node)
  | imp (node : Node) (info : ImportInfo)
  | nl (importing imported : Node) (info : ImportInfo)
  | pkg (node : Node) (name : Str)
deriving DecidableEq

/-- Post-processing hooks: the built-in one, or the user's hook number `n`. -/
inductive PostHook where
  | mypyc
  | user (n : Nat)
deriving DecidableEq

/-- Missing hooks: the built-in one, or the user's hook number `n`. -/
inductive MissHook where
  | swig
  | user (n : Nat)
deriving DecidableEq

/-- Ghost events.  No modelled decision reads the log; it only lets properties talk about the
history of a run.  `scheduled n infos`: `_process_import_list` was called; `started it`: a work
item was taken from the stack; `imported n i t`: `_process_import` for statement `i` of node `n`
completed, with target node `t`; `called h n`: a post-processing hook was called for node `n`;
`asked h name i`: a missing hook was called for `name`, and told that `i` imports it;
`failed`: an API call (by the client or a hook) ended with an exception;
`looked`: a hook or the client looked at the graph and saw these nodes, edges and roots. -/
inductive Event where
  | scheduled (node : Str) (infos : List ImportInfo)
  | started (it : Item)
  | imported (node : Str) (info : ImportInfo) (target : Str)
  | called (hook : PostHook) (node : Str)
  | asked (hook : MissHook) (name : Str) (importing : Option Node)
  | failed
  | looked (nodes : List Node) (edges : List (Str × Str × DepInfo)) (roots : List Str)
deriving DecidableEq

/-- State of a module graph together with the outside world `W`.

* `nodes`, `edges`, `roots`: the `ObjectGraph`; edges carry a set of attributes per pair of
  nodes, kept as a list of triples without duplicates.
* `gw`: the current `globals_written` set of the node with the given identifier.
* `lazy`: `_global_lazy_nodes`; `seen`: `_post_processing_seen`; `stack`: `_work_stack`, the last
  element is the top.
* `postHooks`, `missHooks`: the callback lists, in calling order.
* ghost: `hidden` are the work items set aside by the active `_saved_stack` blocks; `log`. -/
structure St (W : Type) where
  nodes : List Node := []
  edges : List (Str × Str × DepInfo) := []
  roots : List Str := []
  gw : Str → List Str := fun _ => []
  lazy : Str → Option Implies := fun _ => none
  seen : List Str := []
  stack : List Item := []
  postHooks : List PostHook := []
  missHooks : List MissHook := []
  world : W
  hidden : List Item := []
  log : List Event := []

/-- Methods of `ModuleGraph`: state transformers with exceptions.  An exception does not undo
state changes. -/
def M (W α : Type) := St W → Except Exc α × St W

/-- Operations of the outside world (import system, file system, ...). -/
abbrev Ext (W α : Type) := W → Except Exc α × W

namespace M
variable {W α β : Type}

def pure (a : α) : M W α := fun s => (.ok a, s)

def bind (m : M W α) (f : α → M W β) : M W β := fun s =>
  match m s with
  | (.ok a, s') => f a s'
  | (.error e, s') => (.error e, s')

instance : Monad (M W) where
  pure := M.pure
  bind := M.bind

/-- `raise e` -/
def throw (e : Exc) : M W α := fun s => (.error e, s)

/-- Run `m` and keep its outcome as a value.  Running out of the model's recursion depth
(`fuel`) is not an outcome of the Python code and is passed on. -/
def attempt (m : M W α) : M W (Except Exc α) := fun s =>
  match m s with
  | (.error .fuel, s') => (.error .fuel, s')
  | (r, s') => (.ok r, s')

/-- Continue with a stored outcome. -/
def ofExcept (r : Except Exc α) : M W α := fun s => (r, s)

/-- Read the state. -/
def get : M W (St W) := fun s => (.ok s, s)

/-- Change the state. -/
def modify (f : St W → St W) : M W Unit := fun s => (.ok (), f s)

/-- Use an operation of the outside world. -/
def ext (x : Ext W α) : M W α := fun s => ((x s.world).1, { s with world := (x s.world).2 })

/-- `assert b` -/
def assert (b : Bool) : M W Unit := if b then pure () else throw .assertion

/-- `for x in l: f x` -/
def forEach : List α → (α → M W Unit) → M W Unit
  | [], _ => pure ()
  | x :: xs, f => bind (f x) fun _ => forEach xs f

end M

namespace St
variable {W : Type}

/-- `ObjectGraph.find_node(identifier)`. -/
def find (s : St W) (id : Str) : Option Node := s.nodes.find? (fun n => n.ident == id)

/-- `ObjectGraph.__contains__` for identifiers. -/
def has (s : St W) (id : Str) : Bool := s.nodes.any (fun n => n.ident == id)

/-- The attributes of the edge between two nodes. -/
def attrs (s : St W) (src dst : Str) : List DepInfo :=
  (s.edges.filter (fun e => e.1 == src && e.2.1 == dst)).map (fun e => e.2.2)

/-- The successors of a node, each once, in insertion order. -/
def succs (s : St W) (src : Str) : List Str :=
  ((s.edges.filter (fun e => e.1 == src)).map (fun e => e.2.1)).eraseDups

/-- `node.globals_written` (`_nodes.py` 73, 111, 206-208, 249-252): empty for namespace packages. -/
def globalsWritten (s : St W) (n : Node) : List Str :=
  if n.isNamespacePkg then [] else s.gw n.ident

/-- A new node. -/
def addNode (s : St W) (n : Node) : St W :=
  { s with nodes := s.nodes ++ [n]
           gw := fun k => if k = n.ident then n.globalsWritten else s.gw k }

/-- A new edge attribute (no effect when present). -/
def addEdge (s : St W) (src dst : Str) (d : DepInfo) : St W :=
  if (src, dst, d) ∈ s.edges then s else { s with edges := s.edges ++ [(src, dst, d)] }

/-- A new root (no effect when present). -/
def addRoot (s : St W) (id : Str) : St W :=
  if id ∈ s.roots then s else { s with roots := s.roots ++ [id] }

/-- `_modulegraph.py` 726-748, `_process_import_list`: all of it happens without calling other
code (the iterable of imports is computed by pure code). -/
def schedule (s : St W) (n : Node) (infos : List ImportInfo) : St W :=
  let s1 := if n.ident ∈ s.seen then s
    else { s with seen := n.ident :: s.seen, stack := s.stack ++ [.pp n] }
  { s1 with stack := s1.stack ++ infos.map (Item.imp n),
            log := s1.log ++ [.scheduled n.ident infos] }

/-- `node.globals_written.update(names)`. -/
def addGlobals (s : St W) (id : Str) (names : List Str) : St W :=
  { s with gw := fun k => if k = id then s.gw k ++ names.filter (fun x => !(s.gw k).contains x)
                          else s.gw k }

/-- Append a ghost event. -/
def event (s : St W) (e : Event) : St W := { s with log := s.log ++ [e] }

end St

/-! Primitive graph operations as methods. -/
namespace M
variable {W : Type}

/-- `ObjectGraph.add_node`: `ValueError` when the identifier is already in the graph. -/
def addNode (n : Node) : M W Unit := fun s =>
  if s.has n.ident then (.error (.valueError false), s) else (.ok (), s.addNode n)

/-- `ObjectGraph.add_edge`: `KeyError` when an end point is not in the graph. -/
def addEdge (src dst : Str) (d : DepInfo) : M W Unit := fun s =>
  if s.has src && s.has dst then (.ok (), s.addEdge src dst d) else (.error .keyError, s)

/-- `ObjectGraph.add_root`: `KeyError` when the node is not in the graph. -/
def addRoot (id : Str) : M W Unit := fun s =>
  if s.has id then (.ok (), s.addRoot id) else (.error .keyError, s)

/-- `_modulegraph.py` 726-748. -/
def schedule (n : Node) (infos : List ImportInfo) : M W Unit := modify fun s => s.schedule n infos

/-- `ObjectGraph.find_node`. -/
def findNode (id : Str) : M W (Option Node) := fun s => (.ok (s.find id), s)

/-- `_modulegraph.py` 750-773, `_find_module`. -/
def findModule (id : Str) : M W (Option Node) := fun s =>
  match s.find id with
  | some n => if n.isBaseNode then (.ok (some n), s) else (.error .assertion, s)
  | none => (.ok none, s)

/-- `_modulegraph.py` 464-471, `_saved_stack`, around the block `m`. -/
def savedStack {α : Type} (m : M W α) : M W α := fun s =>
  let r := m { s with stack := [], hidden := s.hidden ++ s.stack }
  (r.1, { r.2 with stack := s.stack ++ r.2.stack, hidden := s.hidden })

end M
end Verif
