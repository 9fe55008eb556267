import Verif.Props.Project
import Verif.Spec.RelaySpec
/-!
# C73: modules that are imported from modules that import them

`from compat import json`, where `compat` only has `import json`: the graph has an edge to `json`
(`_modulegraph.py` 963-978).  And an edge for a name in a `from` list leads to a submodule of a package,
or to a module that is passed on.
-/
namespace Verif.Props
open Verif Spec Proj

variable {W : Type}

theorem edge_of_passes {P : Project} {conf : Str → Option Implies} {mods scripts : List Str} {u nm b}
    (hu : P.Reached conf mods scripts (.module u)) (h : P.Passes conf u nm b) :
    (∃ tree, P.HasText conf u false tree) ∧ nm ∈ P.globals u ∧
    ∃ d, P.Edge conf mods scripts u b d ∧ Setup.Called nm b d := by
  induction h with
  | imports h1 h2 h3 h4 =>
    obtain ⟨d, hd⟩ := edgeSays_exists _ _ _
    refine ⟨⟨_, h1⟩, h2, d, .imports (.text hu h1) h3 hd, ?_⟩
    rw [Setup.Called, hd.asname]
    exact h4
  | «from» h1 h2 h3 h4 h5 h6 _ h7 ih =>
    have hr := source_reached (.text hu h1) h3 h4
    obtain ⟨⟨tree, k1⟩, k2, d, k3, k4⟩ := ih hr
    obtain ⟨d', hd⟩ := edgeSays_exists _ _ _
    refine ⟨⟨_, h1⟩, h2, d', .passedOn (.text hu h1) h3 h4 k1 h5 h6 k2 k3 k4 hd, ?_⟩
    rw [Setup.Called, hd.asname]
    exact h7

/-- **C73.** -/
theorem C73_passed_on (P : Project) (table implies : List (Str × Implies)) (excludes mods scripts : List Str)
    (hC : P.Clear (configured excludes (table ++ implies)) mods scripts)
    (dom : List Str) (hdom : ∀ x, P.item x ≠ none → x ∈ dom)
    (I : W → Prop) (env : Env W) (L : Loaders W) (T : Texts W) (hS : P.Shows I env L T) (hl : L.order.Ok)
    (ht : T.order.Ok) (k : Nat) (hO : env.OrderExact)
    (ops : List ApiOp) (ha : Adding mods scripts ops) (w : W) (hw : I w) (builtin : Bool) :
    ∃ N, ∀ n, N ≤ n →
      let conf := configured excludes (table ++ implies)
      let r := runClient ((env.withLoaders L (k + 1)).withTexts T) n
        (configureThen excludes implies (doAll ops)) (initState w table builtin)
      (∀ x pkg tree way t names u nm a b d, P.Reached conf mods scripts (.text x pkg tree) →
        HasFrom x pkg tree way t names → P.Source conf t u → (nm, a) ∈ names → nm ≠ c!"*" →
        P.Passes conf u nm b → EdgeSays way true a d → (x, b, d) ∈ r.2.edges) ∧
      (∀ x b d, (x, b, d) ∈ r.2.edges → d.inFromlist = true →
        ∃ pkg tree way t names u nm a, P.Reached conf mods scripts (.text x pkg tree) ∧
          HasFrom x pkg tree way t names ∧ P.Source conf t u ∧ (nm, a) ∈ names ∧ EdgeSays way true a d ∧
          ((P.Pkg conf u ∧ b = u ++ '.' :: nm) ∨
            (¬ P.Pkg conf u ∧ nm ∈ P.globals u ∧ ∃ d', (u, b, d') ∈ r.2.edges ∧ (d'.importedAs = some nm ∨ b = nm)))) := by
  obtain ⟨N, h⟩ := C66_project P table implies excludes mods scripts hC dom hdom I env L T hS hl ht k hO ops ha w hw builtin
  refine ⟨N, fun n hn => ?_⟩
  obtain ⟨_, _, _, _, he, _⟩ := h n hn
  refine ⟨?_, ?_⟩
  · intro x pkg tree way t names u nm a b d h1 h2 h3 h4 h5 h6 h7
    obtain ⟨⟨tree', k1⟩, k2, d', k3, k4⟩ := edge_of_passes (source_reached h1 h2 h3) h6
    exact (he _ _ _).mpr (.passedOn h1 h2 h3 k1 h4 h5 k2 k3 k4 h7)
  · intro x b d h1 h2
    cases (he _ _ _).mp h1 with
    | imports k1 k2 k3 => rw [k3.fromlist] at h2; cases h2
    | froms k1 k2 k3 => rw [k3.fromlist] at h2; cases h2
    | outside k1 k2 k3 => rw [k3.fromlist] at h2; cases h2
    | names k1 k2 k3 k4 k5 k6 k7 k8 => exact ⟨_, _, _, _, _, _, _, _, k1, k2, k3, k5, k8, .inl ⟨k4, rfl⟩⟩
    | package => cases h2
    | along => cases h2
    | implied => cases h2
    | passedOn k1 k2 k3 k4 k5 k6 k7 k8 k9 k10 =>
      refine ⟨_, _, _, _, _, _, _, _, k1, k2, k3, k5, k10, .inr ⟨?_, k7, _, (he _ _ _).mpr k8, k9⟩⟩
      rintro ⟨m, hm, hp⟩
      rw [of_unique hm k4.2] at hp
      have := node_text k4.1
      simp only [Bool.or_eq_false_iff] at this
      rw [this.1, this.2] at hp
      simp at hp

end Verif.Props
