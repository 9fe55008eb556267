import Verif.Proofs.Installed
import Verif.Props.InWorlds
/-!
# C66: the graph of a project

From the syntax trees of modules and scripts to the graph, with all parts of the model together: the
scan of syntax trees, `node_for_spec`, reading scripts, resolving names, the graph builder.
-/
namespace Verif.Props
open Verif Spec Proj
variable {W : Type}

/-- The client adds the modules and scripts, in any order, no script twice. -/
structure Adding (mods scripts : List Str) (ops : List ApiOp) : Prop where
  module : ∀ x, x ∈ mods ↔ .addModule x ∈ ops
  script : ∀ x, x ∈ scripts ↔ .addScript x ∈ ops
  only : ∀ o ∈ ops, (∃ x, o = .addModule x) ∨ ∃ x, o = .addScript x
  once : ScriptsOnce ops

/-- C66: a client configures excludes, aliases and implied modules, and adds modules, scripts, distributions and
what pieces of source code ask for, of a clear finite project that is there in worlds with `I`.  The calls come to an
end, none raises, the project is still there, and the graph has exactly the nodes and edges that the import statements in
the syntax trees, the packages of modules, the distributions and what is configured call for. -/
theorem C66_installed (P : Project) (table implies : List (Str × Implies)) (excludes mods scripts : List Str)
    (dists : List Dist)
    (hC : P.Clear (configured excludes (table ++ implies)) (mods ++ distModules dists) scripts)
    (hF : P.Fits (configured excludes (table ++ implies)) (mods ++ distModules dists) scripts dists)
    (dom : List Str) (hdom : ∀ x, P.item x ≠ none → x ∈ dom)
    (I : W → Prop) (env : Env W) (L : Loaders W) (T : Texts W) (hS : P.Shows I env L T) (hl : L.order.Ok)
    (ht : T.order.Ok) (k : Nat) (hO : env.OrderExact)
    (ops : List ApiOp) (ha : P.AddsAll mods scripts dists ops) (w : W) (hw : I w) (builtin : Bool) :
    ∃ N, ∀ n, N ≤ n →
      let r := runClient ((env.withLoaders L (k + 1)).withTexts T) n
        (configureThen excludes implies (doAll ops)) (initState w table builtin)
      r.1 = .ok none ∧ Event.failed ∉ r.2.log ∧ I r.2.world ∧
      P.GraphWith (configured excludes (table ++ implies)) mods scripts dists r.2.nodes r.2.edges r.2.roots := by
  have hmn : ∀ {x}, P.item x = none →
      (setupD P (records P L) T.order (configured excludes (table ++ implies)) mods scripts dists).mods x = none :=
    fun h => modsD.trans (mods_none.mpr h)
  obtain ⟨N, h⟩ := C63_in_worlds (setupD P (records P L) T.order (configured excludes (table ++ implies)) mods scripts dists)
    (tameD hC hF (scan hl hS) ht) (safeD hC (scan hl hS) ht) I
    ((env.withLoaders L (k + 1)).withTexts T) (shownD hC hl ht hS k) hO ops
    (askedD ht ha) ha.once w hw table builtin excludes implies rfl (hmn hC.noEmpty) dom
    (fun x p h => hdom x fun hi => by
      have h' := hmn hi
      rw [h] at h'
      cases h')
    (.inr fun _ _ => rfl)
  refine ⟨N, fun n hn => ?_⟩
  obtain ⟨h1, h2, h6, h3, h4, h5⟩ := h n hn
  exact ⟨h1, h2, h6, fun m => (h3 m).trans (hasNodeD hC (scan hl hS) ht), fun a b d => (h4 a b d).trans (hasEdgeD hC hF (scan hl hS) ht),
    fun x => (h5 x).trans ⟨fun h => h.elim id fun ⟨_, _, _, h⟩ => (by cases h), .inl⟩⟩

/-- C66 for modules and scripts. -/
theorem C66_project (P : Project) (table implies : List (Str × Implies)) (excludes mods scripts : List Str)
    (hC : P.Clear (configured excludes (table ++ implies)) mods scripts)
    (dom : List Str) (hdom : ∀ x, P.item x ≠ none → x ∈ dom)
    (I : W → Prop) (env : Env W) (L : Loaders W) (T : Texts W) (hS : P.Shows I env L T) (hl : L.order.Ok)
    (ht : T.order.Ok) (k : Nat) (hO : env.OrderExact)
    (ops : List ApiOp) (ha : Adding mods scripts ops) (w : W) (hw : I w) (builtin : Bool) :
    ∃ N, ∀ n, N ≤ n →
      let conf := configured excludes (table ++ implies)
      let r := runClient ((env.withLoaders L (k + 1)).withTexts T) n
        (configureThen excludes implies (doAll ops)) (initState w table builtin)
      r.1 = .ok none ∧ Event.failed ∉ r.2.log ∧ I r.2.world ∧
      (∀ m, m ∈ r.2.nodes ↔
        (∃ x, (P.Reached conf mods scripts (.module x) ∨ P.Tried conf mods scripts x) ∧ P.NodeOf conf x m) ∨
        (∃ path ∈ scripts, m = { ident := path, kind := .script, filename := some (P.resolve path) }) ∨
        ∃ y, P.Outside conf mods scripts y ∧ m = { ident := y, kind := .invalidRel }) ∧
      (∀ a b d, (a, b, d) ∈ r.2.edges ↔ P.Edge conf mods scripts a b d) ∧
      ∀ x, x ∈ r.2.roots ↔ x ∈ mods ∨ x ∈ scripts := by
  have hmn : ∀ {x}, P.item x = none →
      (setup P (records P L) T.order (configured excludes (table ++ implies)) mods scripts).mods x = none :=
    fun h => mods_none.mpr h
  have hno : ∀ o ∈ ops, (∀ src, o ≠ .addDependenciesForSource src) ∧ (∀ d, o ≠ .addDistribution d) ∧
      ∀ x, o ≠ .addDistributionNamed x := by
    intro o ho
    rcases ha.only o ho with ⟨x, rfl⟩ | ⟨x, rfl⟩ <;> simp
  obtain ⟨N, h⟩ := C63_in_worlds (setup P (records P L) T.order (configured excludes (table ++ implies)) mods scripts)
    (tame hC (scan hl hS) ht) (safe hC (scan hl hS) ht) I
    ((env.withLoaders L (k + 1)).withTexts T) (shown hC hl ht hS k) hO ops
    ⟨fun x => ⟨fun h => .inl ((ha.module x).mp h), fun h => h.elim (ha.module x).mpr fun ⟨src, _, h1, _⟩ =>
        absurd rfl ((hno _ h1).1 src)⟩, ha.script,
      fun d => ⟨False.elim, fun h => h.elim (fun h => (hno _ h).2.1 d rfl) fun ⟨x, h, _⟩ => (hno _ h).2.2 x rfl⟩,
      fun o ho => by rcases ha.only o ho with ⟨x, rfl⟩ | ⟨x, rfl⟩ <;> trivial⟩
    ha.once w hw table builtin excludes implies rfl (hmn hC.noEmpty) dom
    (fun x p h => hdom x fun hi => by
      have h' := hmn hi
      rw [h] at h'
      cases h')
    (.inr fun _ _ => rfl)
  refine ⟨N, fun n hn => ?_⟩
  obtain ⟨h1, h2, h6, h3, h4, h5⟩ := h n hn
  exact ⟨h1, h2, h6, fun m => (h3 m).trans (has_node hC (scan hl hS) ht), fun a b d => (h4 a b d).trans (has_edge hC (scan hl hS) ht),
    fun x => (h5 x).trans ⟨fun h => h.elim
      (Or.imp id fun h => h.elim id fun ⟨_, h, _⟩ => h.elim) fun ⟨_, _, _, h⟩ => (by cases h),
      fun h => .inl (h.imp id .inl)⟩⟩

theorem edgeSays_exists (way : List Via) (b : Bool) (a : Option Str) : ∃ d, EdgeSays way b a d := by
  refine ⟨⟨decide (.inDef ∈ way ∨ .inIf ∈ way ∨ .inTry ∈ way), decide (.inDef ∉ way), b, a⟩, ?_, ?_, rfl, rfl⟩ <;> simp

end Verif.Props
