import Verif.Spec.CommandSpec
import Verif.Spec.HtmlSpec
/-!
# What the page for a project has to show
-/
namespace Verif.Spec
open Verif

/-- The page describes the project: a section for each script, each module that is reached and each name with too many dots, in
order, with its kind, links to what it imports, and links to what imports it. -/
structure Project.Page (P : Project) (conf : Str → Option Implies) (mods scripts : List Str)
    (page : List Html.Section) : Prop where
  sorted : page.Pairwise fun a b => a.anchor < b.anchor
  sections : ∀ x, (∃ s ∈ page, s.anchor = x) ↔
    P.Reached conf mods scripts (.module x) ∨ x ∈ scripts ∨ P.Outside conf mods scripts x
  script : ∀ s ∈ page, s.anchor ∈ scripts → s.heading = c!"Script " ++ s.anchor
  heading : ∀ s ∈ page, P.Reached conf mods scripts (.module s.anchor) → ∀ n, P.NodeOf conf s.anchor n →
    s.heading = classOf n.kind ++ ' ' :: s.anchor
  outside : ∀ s ∈ page, P.Outside conf mods scripts s.anchor → s.heading = c!"InvalidRelativeImport " ++ s.anchor
  depends : ∀ s ∈ page, ∀ k, s.Links c!"Depends on:" k ↔
    ∃ x, k = ⟨some x, x⟩ ∧ ∃ d, P.Edge conf mods scripts s.anchor x d
  used : ∀ s ∈ page, ∀ k, s.Links c!"Used by:" k ↔
    ∃ x, k = ⟨some x, x⟩ ∧ ∃ d, P.Edge conf mods scripts x s.anchor d
  /-- all links lead to sections of the page -/
  closed : ∀ s ∈ page, ∀ p ∈ s.paras, ∀ k ∈ p.links, ∃ t ∈ page, k.target = some t.anchor
  once : ∀ s ∈ page, s.paras.length ≤ 2 ∧ (∀ p ∈ s.paras, p.links.Nodup) ∧
    ∀ p ∈ s.paras, ∀ q ∈ s.paras, (c!"Used by:" <+: p.text ↔ c!"Used by:" <+: q.text) → p = q

end Verif.Spec
