import Verif.Spec.ReachSpec
import Verif.Spec.FromSpec
/-!
# Specification: nodes that nothing refers to
-/
/-- Operations that link what they add: all but `add_node`, `import_module`, `import_package` and
`_process_import_list`, which can be used for nodes that are not in the graph. -/
def Verif.ApiOp.Links : ApiOp → Prop
  | .addNode _ | .importModule _ _ | .importPackage _ _ | .processImportList _ _ => False
  | _ => True

namespace Verif.Spec
open Verif

/-- One can get from `a` to the node along edges. -/
inductive Path (edges : List (Str × Str × DepInfo)) (a : Str) : Str → Prop where
  | refl : Path edges a a
  | step {b c d} : Path edges a b → (b, c, d) ∈ edges → Path edges a c

/-- The missing module was only tried: some module says `from p import x`, where the package `p` has a
global variable `x` of its own or is `six.moves`, so that `p.x` need not be a module. -/
def OnlyTried (g : View) (globals : Str → List Str) (log : List Event) (id : Str) : Prop :=
  ∃ y ∈ g.nodes, y.ident = id ∧ y.isMissing = true ∧
  ∃ p ∈ g.nodes, p.isPackage = true ∧ ∃ a b i, Event.started (.nl a b i) ∈ log ∧
    ∃ nm ∈ i.importNames, id = p.ident ++ '.' :: nm.name ∧ (nm.name ∈ globals p.ident ∨ IsSixMoves p)

end Verif.Spec
