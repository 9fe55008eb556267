import Verif.Spec.InstalledSpec
import Verif.Spec.PictureSpec
import Verif.Spec.PageSpec
/-!
# What pictures and pages of projects with distributions have to show
-/
namespace Verif.Spec
open Verif Dot

namespace Project
variable (P : Project) (conf : Str → Option Implies) (mods scripts : List Str) (dists : List Dist)

/-- The module is asked for, comes with a distribution, or is imported by others. -/
def Brought (x : Str) : Prop := P.Reached conf (mods ++ distModules dists) scripts (.module x)

/-- Scripts, modules and names with too many dots. -/
def Imported (x : Str) : Prop :=
  P.Brought conf mods scripts dists x ∨ x ∈ scripts ∨ P.Outside conf (mods ++ distModules dists) scripts x

/-- `x` imports `y`, or is a distribution that has the module `y`. -/
inductive Arrow (x y : Str) : DepInfo → Prop where
  | edge {e} : P.Edge conf (mods ++ distModules dists) scripts x y e → Arrow x y e
  | dist {d} : d ∈ dists → x = d.identifier → y ∈ d.importNames → Arrow x y defaultDep

/-- The file is a picture of the project: its nodes are the distributions, the scripts, the modules and the names with
too many dots, its edges are the imports and lead from distributions to their modules. -/
structure PictureWith (D : File) : Prop where
  nodes : ∀ x, D.Node x ↔ P.Imported conf mods scripts dists x ∨ ∃ d ∈ dists, x = d.identifier
  root : ∀ x, D.Node x →
    (D.NodeAttr x c!"root" c!"true" ↔ x ∈ mods ∨ x ∈ scripts ∨ ∃ d ∈ dists, x = d.identifier)
  script : ∀ x ∈ scripts, ∀ s, D.NodeAttr x c!"shape" s ↔ s = c!"note"
  shape : ∀ x n, P.Brought conf mods scripts dists x → P.NodeOf conf x n →
    ∀ s, D.NodeAttr x c!"shape" s ↔ shapeOf n.kind = some s
  missing : ∀ x n, P.Brought conf mods scripts dists x → P.NodeOf conf x n →
    (D.NodeAttr x c!"color" c!"red" ↔ n.isMissing = true)
  /-- names with too many dots and distributions have no shape and no colour -/
  outside : ∀ x, P.Outside conf (mods ++ distModules dists) scripts x ∨ (∃ d ∈ dists, x = d.identifier) →
    ∀ s, ¬ D.NodeAttr x c!"shape" s ∧ ¬ D.NodeAttr x c!"color" s
  edges : ∀ a b, (∃ as, (a, b, as) ∈ D.edges) ↔ ∃ e, P.Arrow conf mods scripts dists a b e
  once : (D.edges.map fun e => (e.1, e.2.1)).Nodup
  dashed : ∀ a b as, (a, b, as) ∈ D.edges →
    ((c!"style", c!"dashed") ∈ as ↔ ∀ e, P.Arrow conf mods scripts dists a b e → e.isOptional = true)
  clusters : ∀ label x, D.Cluster label x ↔ P.Brought conf mods scripts dists x ∧ ∃ n, P.NodeOf conf x n ∧
    ∃ d, n.distribution = some d ∧ d.name = label

/-- The page describes the project: a section for each script, module and name with too many dots, in order, with its
kind, links to what it imports, and links to what imports it and to the distributions it comes with.  There are no
sections for distributions, so that links to these lead nowhere. -/
structure PageWith (page : List Html.Section) : Prop where
  sorted : page.Pairwise fun a b => a.anchor < b.anchor
  sections : ∀ x, (∃ s ∈ page, s.anchor = x) ↔ P.Imported conf mods scripts dists x
  script : ∀ s ∈ page, s.anchor ∈ scripts → s.heading = c!"Script " ++ s.anchor
  heading : ∀ s ∈ page, P.Brought conf mods scripts dists s.anchor → ∀ n, P.NodeOf conf s.anchor n →
    s.heading = classOf n.kind ++ ' ' :: s.anchor
  outside : ∀ s ∈ page, P.Outside conf (mods ++ distModules dists) scripts s.anchor →
    s.heading = c!"InvalidRelativeImport " ++ s.anchor
  depends : ∀ s ∈ page, ∀ k, s.Links c!"Depends on:" k ↔
    ∃ x, k = ⟨some x, x⟩ ∧ ∃ e, P.Edge conf (mods ++ distModules dists) scripts s.anchor x e
  used : ∀ s ∈ page, ∀ k, s.Links c!"Used by:" k ↔
    (∃ x, k = ⟨some x, x⟩ ∧ ∃ e, P.Edge conf (mods ++ distModules dists) scripts x s.anchor e) ∨
    ∃ d ∈ dists, s.anchor ∈ d.importNames ∧ k = ⟨some d.identifier, d.name⟩
  /-- links that do not lead to a section of the page are for distributions -/
  closed : ∀ s ∈ page, ∀ p ∈ s.paras, ∀ k ∈ p.links, (∃ t ∈ page, k.target = some t.anchor) ∨
    ∃ d ∈ dists, k = ⟨some d.identifier, d.name⟩ ∧ ∀ t ∈ page, k.target ≠ some t.anchor
  once : ∀ s ∈ page, s.paras.length ≤ 2 ∧ (∀ p ∈ s.paras, p.links.Nodup) ∧
    ∀ p ∈ s.paras, ∀ q ∈ s.paras, (c!"Used by:" <+: p.text ↔ c!"Used by:" <+: q.text) → p = q

end Project
end Verif.Spec
