import Verif.Model.NodeForSpec
import Verif.Spec.BytecodeSpec
import Verif.Spec.ExcSpec
/-! # Specification: where the exceptions of the methods come from

`P` are the exceptions that the outside world and the user's code raise.  The graph raises `KeyError` when it is
asked to link, or to make a root of, a node that it does not have. -/
namespace Verif.Spec
open Verif
variable {W : Type}

/-- Raised by the world or the user, or one of the two that the library raises itself: a failed `assert`, and
`ValueError` (for bad names, or a name that is taken).  `fuel` is the mark of the model for too deep a
recursion. -/
def Allowed (P : Exc → Prop) (e : Exc) : Prop := P e ∨ e = .assertion ∨ e = .valueError false ∨ e = .fuel

/-- An operation of the outside world raises `P` only. -/
def Raises (P : Exc → Prop) {α : Type} (x : Ext W α) : Prop := ∀ w e, (x w).1 = .error e → P e

/-- The outside world raises `P` only (and any `Exception` when an odd entry is removed from `sys.modules`,
which is handled), and lists the successors of a node in some order, adding none. -/
structure WorldRaises (P : Exc → Prop) (env : Env W) : Prop where
  findSpec : ∀ x, Raises P (env.findSpec x)
  findSpecRel : ∀ x y, Raises P (env.findSpecRel x y)
  popModule : ∀ x, Raises (fun e => ¬ IsException e → P e) (env.popModule x)
  delModule : ∀ x, Raises P (env.delModule x)
  isPackage : ∀ x, Raises P (env.isPackage x)
  nodeForSpec : ∀ x, Raises P (env.nodeForSpec x)
  loadScript : ∀ x, Raises P (env.loadScript x)
  parseSource : ∀ x, Raises P (env.parseSource x)
  distributionNamed : ∀ x, Raises P (env.distributionNamed x)
  globPy : ∀ x, Raises P (env.globPy x)
  subdirs : ∀ x, Raises P (env.subdirs x)
  isFile : ∀ x, Raises P (env.isFile x)
  readBytes : ∀ x, Raises P (env.readBytes x)
  compileAst : ∀ x, Raises P (env.compileAst x)
  order : ∀ w l x, x ∈ env.outOrder w l → x ∈ l

/-- The arguments of a call that stand for nodes of the graph are among the known ones; names to exclude are not
given as a single string, unless `TypeError` is expected. -/
def UsesKnown (P : Exc → Prop) (known : List Str) : ApiOp → Prop
  | .importModule m _ | .importPackage m _ => m.ident ∈ known
  | .addEdge a b _ => a ∈ known ∧ b ∈ known
  | .addRoot a => a ∈ known
  | .processImportList m _ => m.ident ∈ known
  | .addExcludesStr _ => P .typeError
  | _ => True

/-- The nodes a caller knows from the result of a call: the one returned, or the one it had added. -/
def learnt : ApiOp → Except Exc (Option Node) → List Str
  | _, .error _ => []
  | .addNode n, .ok _ => [n.ident]
  | _, .ok r => r.toList.map Node.ident

/-- Code that passes to the graph (and returns) only nodes it was given, got from a call or saw in the graph,
and raises `P` only.  It may pass on the exceptions that calls may raise. -/
def Careful (P : Exc → Prop) : List Str → Hook W → Prop
  | known, .ret r => ∀ n, r = some n → n.ident ∈ known
  | _, .raise e => Allowed P e
  | known, .look k => ∀ s, Careful P (known ++ s.nodes.map Node.ident) (k s)
  | known, .setWorld _ k => Careful P known k
  | known, .call op k => UsesKnown P known op ∧
      ∀ r, (∀ e, r = .error e → Allowed P e) → Careful P (known ++ learnt op r) (k r)

/-- The user's hooks are careful, when they are given the node that is processed, or the one that imports the
missing module. -/
structure HooksCareful (P : Exc → Prop) (env : Env W) : Prop where
  post : ∀ k n, Careful P [n.ident] (env.userPost k n)
  missing : ∀ k i x, Careful P (i.toList.map Node.ident) (env.userMissing k i x)

/-- The loaders raise `P` only, apart from the exceptions that are handled, and give code made by the compiler. -/
structure LoadersRaise (P : Exc → Prop) (L : Loaders W) : Prop where
  findSpec : ∀ x, Raises P (L.findSpec x)
  getSource : ∀ x, Raises (fun e => e ≠ .syntaxError → P e) (L.getSource x)
  parse : ∀ x y, Raises (fun e => e ≠ .syntaxError → P e) (L.parse x y)
  getCode : ∀ x, Raises (fun e => e ≠ .syntaxError → P e) (L.getCode x)
  isPackage : ∀ x, Raises P (L.isPackage x)
  distributionForFile : ∀ x, Raises P (L.distributionForFile x)
  containsDatafiles : ∀ x, Raises P (L.containsDatafiles x)
  importPath : ∀ x, Raises (fun e => ¬ ImportFails e → P e) (L.importPath x)
  delModule : ∀ x, Raises P (L.delModule x)
  invalidate : Raises P L.invalidate
  compiled : ∀ x w c, (L.getCode x w).1 = .ok (some c) → ∀ d ∈ codes c, Compiled L.new d

/-- `KeyError` or `IndexError`, the subclasses of `LookupError`. -/
def LookupFails (e : Exc) : Prop := e = .keyError ∨ e = .indexError

end Verif.Spec
