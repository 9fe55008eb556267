import Verif.Model.Graph
import Verif.Spec.SearchSpec
/-! # Restrictions on the outside world -/
namespace Verif.Spec
open Verif

/-- `b` is the text in front of the last dot of `a` (or, for names with only leading dots, all of
these). -/
def InPackage (a b : Str) : Prop :=
  ∃ x, '.' ∉ x ∧ (a = b ++ '.' :: x ∨ (b ≠ [] ∧ (∀ c ∈ b, c = '.') ∧ a = b ++ x))

end Verif.Spec

namespace Verif
variable {W : Type}

/-- A node that stands for a module that was found: a `Module`, `Package` or `NamespacePackage`. -/
def Node.isLoaded (n : Node) : Bool := n.isModule || n.isPackage || n.isNamespacePkg

/-- `node_for_spec` makes such nodes, or `MissingModule`s.  This is what the code does
(`C36_makes_modules`). -/
def Env.MakesModules (env : Env W) : Prop :=
  ∀ spec w n imports, (env.nodeForSpec spec w).1 = .ok (n, imports) →
    n.isLoaded = true ∨ n.isMissing = true

/-- `node_for_spec` never makes a `MissingModule` (see `C36_loads_modules` for when this is so). -/
def Env.LoadsModules (env : Env W) : Prop :=
  ∀ spec w n imports, (env.nodeForSpec spec w).1 = .ok (n, imports) → n.isLoaded = true

theorem Env.LoadsModules.makes {env : Env W} (h : env.LoadsModules) : env.MakesModules :=
  fun spec w n imports hr => .inl (h spec w n imports hr)

/-- The node made for the spec that was found for `name` is called `name` (not the case for
modules that are found under another name, such as `os.path`). -/
def Env.KeepsNames (env : Env W) : Prop :=
  ∀ name spec w w' n imports, Spec.Locates env name w spec →
    (env.nodeForSpec spec w').1 = .ok (n, imports) → n.ident = name

/-- The module `x` is found under no other name. -/
def Env.OnlyAs (env : Env W) (x : Str) : Prop :=
  ∀ name spec w w' n imports, Spec.Locates env name w spec →
    (env.nodeForSpec spec w').1 = .ok (n, imports) → n.ident = x → name = x

theorem Env.KeepsNames.only {env : Env W} (h : env.KeepsNames) (x : Str) : env.OnlyAs x :=
  fun name spec w w' n imports h1 h2 hx => (h name spec w w' n imports h1 h2).symm.trans hx

/-- Hook code that only looks, changes the outside world, or raises; it returns `None`. -/
inductive Hook.Passive : Hook W → Prop where
  | ret : Hook.Passive (.ret none)
  | raise (e) : Hook.Passive (.raise e)
  | look {k} : (∀ s, Hook.Passive (k s)) → Hook.Passive (.look k)
  | setWorld {w k} : Hook.Passive k → Hook.Passive (.setWorld w k)

/-- The name was tried as name of a `from` import: it is a name in the package that some processed
statement `from ... import` names, possibly by an alias. -/
def Tried (nodes : List Node) (log : List Event) (name : Str) : Prop :=
  ∃ importing imported src info nm, Event.started (.nl importing imported info) ∈ log ∧
    info.starImport = false ∧ nm ∈ info.importNames ∧
    (src = imported ∨ (imported.kind = .alias src.ident ∧ src ∈ nodes)) ∧
    (src.isPackage = true ∨ src.isNamespacePkg = true) ∧ name = src.ident ++ '.' :: nm.name

/-- A node of the kind the SWIG hook supplies: an extension module called `_name`. -/
def SwigNode (n : Node) : Prop := n.isExtension = true ∧ ∃ r, n.ident = '_' :: r ∧ '.' ∉ r

/-- Nodes that stand for a module name. -/
def Node.namesModule (n : Node) : Bool := n.isBaseNode && !n.isScript && !n.isInvalidRel

/-- Operations that do not put nodes in the graph by hand. -/
def ApiOp.NoAddNode : ApiOp → Prop
  | .addNode _ => False
  | _ => True

/-- Operations that do not put nodes in the graph or schedule their imports by hand. -/
def ApiOp.NoRaw : ApiOp → Prop
  | .addNode _ | .processImportList _ _ => False
  | _ => True

/-- The operation does not configure `x` in another way than `i`: nothing overrules an exclude, and
else `x` is not excluded and not implied differently. -/
def ApiOp.KeepsConf (x : Str) (i : Implies) : ApiOp → Prop
  | .addExcludes names => i = .excluded ∨ x ∉ names
  | .addImplies l => i = .excluded ∨ ∀ j, (x, j) ∈ l → j = i
  | _ => True

/-- The operation does not configure `x`, and puts no node in the graph by hand. -/
def ApiOp.Ignores (x : Str) : ApiOp → Prop
  | .addExcludes names => x ∉ names
  | .addImplies l => ∀ j, (x, j) ∉ l
  | .addNode _ => False
  | _ => True

/-- The node of an import of `x` when the package of `x` is missing or excluded. -/
def PkgBlocked (nodes : List Node) (x : Str) (m : Node) : Prop :=
  (m.isMissing = true ∧ ∃ q ∈ nodes, q.isMissing = true ∧ Spec.InPackage x q.ident) ∨
  (m.isExcluded = true ∧ ∃ q ∈ nodes, q.isExcluded = true ∧ Spec.InPackage x q.ident)

end Verif
