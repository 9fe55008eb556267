import Verif.Spec.CommandSpec
import Verif.Spec.DotSpec
/-!
# What the picture of a project has to show
-/
namespace Verif.Spec
open Verif Dot

/-- The file is a picture of the project: its nodes are the scripts, the modules that are reached and the names with
too many dots, its edges are the imports, and so on. -/
structure Project.Picture (P : Project) (conf : Str → Option Implies) (mods scripts : List Str) (D : File) : Prop where
  nodes : ∀ x, D.Node x ↔ P.Reached conf mods scripts (.module x) ∨ x ∈ scripts ∨ P.Outside conf mods scripts x
  root : ∀ x, D.Node x → (D.NodeAttr x c!"root" c!"true" ↔ x ∈ mods ∨ x ∈ scripts)
  script : ∀ x ∈ scripts, ∀ s, D.NodeAttr x c!"shape" s ↔ s = c!"note"
  shape : ∀ x n, P.Reached conf mods scripts (.module x) → P.NodeOf conf x n →
    ∀ s, D.NodeAttr x c!"shape" s ↔ shapeOf n.kind = some s
  missing : ∀ x n, P.Reached conf mods scripts (.module x) → P.NodeOf conf x n →
    (D.NodeAttr x c!"color" c!"red" ↔ n.isMissing = true)
  /-- names with too many dots have no shape and no colour -/
  outside : ∀ x, P.Outside conf mods scripts x → ∀ s, ¬ D.NodeAttr x c!"shape" s ∧ ¬ D.NodeAttr x c!"color" s
  edges : ∀ a b, (∃ as, (a, b, as) ∈ D.edges) ↔ ∃ d, P.Edge conf mods scripts a b d
  once : (D.edges.map fun e => (e.1, e.2.1)).Nodup
  dashed : ∀ a b as, (a, b, as) ∈ D.edges →
    ((c!"style", c!"dashed") ∈ as ↔ ∀ d, P.Edge conf mods scripts a b d → d.isOptional = true)
  clusters : ∀ label x, D.Cluster label x ↔ P.Reached conf mods scripts (.module x) ∧ ∃ n, P.NodeOf conf x n ∧
    ∃ d, n.distribution = some d ∧ d.name = label

end Verif.Spec
