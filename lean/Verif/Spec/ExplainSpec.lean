import Verif.Model.Graph
import Verif.Spec.Names
import Verif.Spec.EnvSpec
import Verif.Spec.SixSpec
/-!
# What an import statement refers to, and what justifies an edge

Names are described by their components; the functions of the model that resolve names are not
used here.
-/
namespace Verif.Spec
open Verif

/-- The number of components a relative import drops from the name of the importing module. -/
def dropped (m : Node) (i : ImportInfo) : Nat :=
  if m.isPackage || m.isNamespacePkg then i.importLevel - 1 else i.importLevel

/-- The import statement `i` in the module `m` refers to the module called `t`. -/
inductive Refers (m : Node) (i : ImportInfo) : Str → Prop where
  | absolute : i.importLevel = 0 → Refers m i i.importModule.name
  | relative (kept rest : List Str) : 0 < i.importLevel → m.ident = dotted (kept ++ rest) →
      (∀ c ∈ kept ++ rest, Comp c) → kept ≠ [] → rest.length = dropped m i →
      Refers m i (dotted (kept ++ if i.importModule.name = [] then [] else [i.importModule.name]))

/-- The import statement points outside of the top-level package. -/
def PointsOutside (m : Node) (i : ImportInfo) : Prop :=
  0 < i.importLevel ∧ ∃ comps, comps ≠ [] ∧ m.ident = dotted comps ∧ (∀ c ∈ comps, Comp c) ∧
    comps.length ≤ dropped m i

/-- The statement was found in a scan of the node called `a`. -/
def Found (log : List Event) (a : Str) (i : ImportInfo) : Prop :=
  ∃ infos, Event.scheduled a infos ∈ log ∧ i ∈ infos

/-- The module that is meant by a node: itself, or the target of an alias. -/
def Stands (nodes : List Node) (a b : Str) : Prop :=
  a = b ∨ ∃ n ∈ nodes, n.ident = a ∧ n.kind = .alias b

/-- What justifies an edge from `a` to `b` with attributes `d`.  `conf a b`: the client or the
table for the standard library says that `a` implies `b`. -/
inductive Explained (conf : Str → Str → Prop) (nodes : List Node)
    (edges : List (Str × Str × DepInfo)) (log : List Event) : Str → Str → DepInfo → Prop where
  /-- an import statement -/
  | statement {m i t} : m ∈ nodes → Found log m.ident i → Refers m i t →
      Explained conf nodes edges log m.ident t ⟨i.isOptional, i.isGlobal, false, i.importModule.asname⟩
  /-- a relative import that points outside of the package -/
  | invalid {m i n} : m ∈ nodes → Found log m.ident i → PointsOutside m i → n ∈ nodes →
      n.isInvalidRel = true → n.ident = List.replicate i.importLevel '.' ++ i.importModule.name →
      Explained conf nodes edges log m.ident n.ident ⟨i.isOptional, i.isGlobal, false, none⟩
  /-- a name imported from a package -/
  | fromName {m i t p nm} : m ∈ nodes → Found log m.ident i → Refers m i t → Stands nodes t p →
      nm ∈ i.importNames →
      Explained conf nodes edges log m.ident (p ++ '.' :: nm.name) ⟨i.isOptional, i.isGlobal, true, nm.asname⟩
  /-- the package of such a name -/
  | fromPackage {m i t p nm} : m ∈ nodes → Found log m.ident i → Refers m i t → Stands nodes t p →
      nm ∈ i.importNames → Explained conf nodes edges log (p ++ '.' :: nm.name) p defaultDep
  /-- a name imported from a module that itself got it by an import -/
  | reexport {m i t p nm b d} : m ∈ nodes → Found log m.ident i → Refers m i t →
      Stands nodes t p → nm ∈ i.importNames → (p, b, d) ∈ edges →
      (d.importedAs = some nm.name ∨ b = nm.name) →
      Explained conf nodes edges log m.ident b ⟨i.isOptional, i.isGlobal, true, nm.asname⟩
  /-- a name imported from `six.moves` -/
  | sixMoves {m i t p nm b fr init sp hd ns} : m ∈ nodes → Found log m.ident i → Refers m i t →
      Stands nodes t p.ident → p ∈ nodes → p.kind = .package fr init sp hd ns →
      init.name = c!"@@SIX_MOVES@@" → nm ∈ i.importNames → SixName nm.name b →
      Explained conf nodes edges log m.ident b defaultDep
  /-- the package of a module -/
  | package {a b} : InPackage a b → Explained conf nodes edges log a b defaultDep
  /-- an alias or virtual module -/
  | alias {n t} : n ∈ nodes → (n.kind = .alias t ∨ n.kind = .virtual t) →
      Explained conf nodes edges log n.ident t defaultDep
  /-- an implied dependency -/
  | implied {a b} : conf a b → Explained conf nodes edges log a b defaultDep
  /-- a package that was made with `pkgutil` or `pkg_resources` -/
  | explicitNamespace {n fr init sp hd} {ns : NsType} : n ∈ nodes →
      n.kind = .package fr init sp hd (some ns) →
      Explained conf nodes edges log n.ident
        (match ns with | .pkgutil => c!"pkgutil" | .pkgResources => c!"pkg_resources") defaultDep
  /-- a distribution and its importable names -/
  | distribution {n d b} : n ∈ nodes → n.kind = .dist d → b ∈ d.importNames →
      Explained conf nodes edges log n.ident b defaultDep
  /-- the helper module of code compiled with mypyc -/
  | mypyc {n d b} : n ∈ nodes → n.distribution = some d → b ∈ d.importNames →
      endsWith c!"__mypyc" b = true → Explained conf nodes edges log n.ident b defaultDep

end Verif.Spec

namespace Verif
variable {W : Type}

/-- The iteration order only reorders. -/
def Env.OrderOk (env : Env W) : Prop := ∀ w l x, x ∈ env.outOrder w l → x ∈ l

/-- Operations that describe what is to be in the graph, in contrast to those that build parts of
it by hand: no `import_module`, `import_package`, `add_node`, `add_edge`, `_process_import_list`. -/
def ApiOp.Declares : ApiOp → Prop
  | .importModule _ _ | .importPackage _ _ | .addNode _ | .addEdge _ _ _
  | .processImportList _ _ => False
  | _ => True

end Verif
