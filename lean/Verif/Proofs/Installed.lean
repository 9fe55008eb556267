import Verif.Spec.InstalledSpec
import Verif.Proofs.Flatten
import Verif.Proofs.ProjectWorld
/-!
# The setup of a project with distributions
-/
namespace Verif.Proj
open Verif M Spec
variable {W : Type}

/-- The records of a piece of source code ask for the modules that its statements ask for. -/
theorem inSource_iff {ord : SetOrder} (ho : ord.Ok) {tree : Ast} {x : Str} :
    InSource (extractAstInfo ord tree) x ↔ SnippetAsks tree x := by
  constructor
  · rintro ⟨i, hi, hx⟩
    obtain ⟨way, y, e, h1, h2, hd⟩ := Props.scan_sound ho hi
    cases y <;> simp only [entries, List.not_mem_nil, List.mem_map, List.mem_singleton] at h2
    · obtain ⟨nm, h4, rfl⟩ := h2
      rcases hx with rfl | ⟨n, hn, _⟩
      · rw [hd.module]
        exact .imports ⟨_, h1, h4⟩
      · obtain ⟨_, l, h, _⟩ := hd.names_sound n hn
        cases h
    · rename_i name names level
      have hm : i.importModule.name = name.getD [] := by rw [hd.module, h2]
      rcases hx with rfl | ⟨n, hn, rfl⟩
      · rw [hm]
        exact .froms h1
      · obtain ⟨hne, l, h, hl⟩ := hd.names_sound n hn
        rw [h2] at h
        cases h
        rw [hm]
        exact .names h1 hl hne
  · intro h
    cases h with
    | imports h =>
      obtain ⟨names, h1, h2⟩ := h
      obtain ⟨i, hi, hd⟩ := Props.scan_complete ho h1 (List.mem_map.mpr ⟨_, h2, rfl⟩)
      exact ⟨i, hi, .inl hd.module.symm⟩
    | froms h1 =>
      obtain ⟨i, hi, hd⟩ := Props.scan_complete ho h1 (List.mem_singleton.mpr rfl)
      exact ⟨i, hi, .inl hd.module.symm⟩
    | @names way name names level nm a h1 h2 h3 =>
      obtain ⟨i, hi, hd⟩ := Props.scan_complete ho h1 (List.mem_singleton.mpr rfl)
      obtain ⟨n, hn, rfl⟩ := hd.names_complete names rfl nm a h2 h3
      exact ⟨i, hi, .inr ⟨n, hn, by rw [show i.importModule.name = name.getD [] from hd.module]⟩⟩

/-- A project with distributions as a setup. -/
def setupD (P : Project) (recs : Str → List ImportInfo) (ord' : SetOrder) (conf : Str → Option Implies) (mods scripts : List Str)
    (dists : List Dist) : Setup :=
  { setup P recs ord' conf mods scripts with asksDist := fun d => d ∈ dists }

variable {P : Project} {recs : Str → List ImportInfo} {ord' : SetOrder} {conf : Str → Option Implies} {mods scripts : List Str}
  {dists : List Dist}

theorem modsD {x} : (setupD P recs ord' conf mods scripts dists).mods x = (setup P recs ord' conf mods scripts).mods x :=
  rfl

theorem setup_flat : (setupD P recs ord' conf mods scripts dists).flat =
    setup P recs ord' conf (mods ++ distModules dists) scripts := by
  unfold setupD Setup.flat setup
  congr 1
  funext x
  simp [distModules]

section
variable (hC : P.Clear conf (mods ++ distModules dists) scripts)
  (hF : P.Fits conf (mods ++ distModules dists) scripts dists) (ho : Scan P recs) (ho' : ord'.Ok)
include hC hF ho ho'

omit hC ho ho' in
theorem draws_slash {x y} (hx : '/' ∉ x) (h : P.Draws conf x y) : '/' ∉ y := by
  induction h with
  | self => exact hx
  | package _ h ih =>
    obtain ⟨l, _, rfl | ⟨_, _, rfl⟩⟩ := h <;> exact fun hm => ih (by simp [hm])
  | alias _ h ih => exact hF.config _ _ (h.elim .inl fun h => .inr (.inl h))
  | implied _ h ih => exact hF.config _ _ (.inr (.inr h))
  | @extended _ ns _ _ ih => cases ns <;> decide

omit hF in
theorem needsD_iff {x} : (setupD P recs ord' conf mods scripts dists).NeedsModule x ↔
    P.Reached conf (mods ++ distModules dists) scripts (.module x) ∨
      P.Tried conf (mods ++ distModules dists) scripts x := by
  rw [← Setup.flat_needsModule, setup_flat]
  exact needs_iff hC ho ho'

omit hF in
theorem needsD_slash {x} (h : (setupD P recs ord' conf mods scripts dists).NeedsModule x) : '/' ∉ x :=
  proper_slash (rt_proper hC ((needsD_iff hC ho ho').mp h))

theorem distD_name (d : Dist) (hd : d ∈ dists) :
    ¬ (setupD P recs ord' conf mods scripts dists).NeedsModule d.identifier :=
  fun h => needsD_slash hC ho ho' h (hF.place d hd).1

theorem tameD : (setupD P recs ord' conf mods scripts dists).Tame := by
  have hs := setup_flat (P := P) (recs := recs) (ord' := ord') (conf := conf) (mods := mods) (scripts := scripts)
    (dists := dists)
  refine Setup.Tame.of_flat (hs ▸ tame hC ho ho') ?_ ?_ ?_ ?_
  · intro d hd
    exact ⟨distD_name hC hF ho ho' d hd, (hF.place d hd).2⟩
  · exact fun d d' h1 h2 h3 => hF.same d h1 d' h2 h3
  · intro d x hd hx h
    have := draws (hs ▸ Setup.flat_draws.mpr h)
    exact draws_slash hF (needsD_slash hC ho ho' hx) this (hF.place d hd).1
  · intro m i c nm h hm hns b e he hc d a a' y h1 h2 h3 h4 h5 hl
    replace h := Setup.flat_fromImport.mpr h
    replace hm := Setup.flat_mayDefine.mpr hm
    replace h4 := Setup.flat_draws.mpr h4
    replace h5 := Setup.flat_draws.mpr h5
    rw [hs] at h hm he h4 h5 hl
    obtain ⟨x, pkg, tree, way, t, names, r1, r2, r, s1, s2, hnm, hne⟩ := import_from hC ho ho' h
    have ht : Proper c.ident := reached_proper hC (source_reached r1 r.has s1)
    refine hF.passedOn _ _ _ _ _ _ c.ident nm.name nm.asname r1 r.has s1 hnm hne
      ((may_define hC ho ho' hm).2 ht) b e ((has_edge hC ho ho').mp he) hc d h1 a h2 a' h3 (draws h4) y (draws h5) ?_
    rw [← r2.1]
    exact leads hC ho ho' hl

omit hF in
theorem safeD : (setupD P recs ord' conf mods scripts dists).Safe := by
  refine Setup.Safe.of_flat ?_
  rw [setup_flat]
  exact safe hC ho ho'

omit hF in
theorem hasNodeD {n} : (setupD P recs ord' conf mods scripts dists).HasNode n ↔
    (∃ x, (P.Reached conf (mods ++ distModules dists) scripts (.module x) ∨
      P.Tried conf (mods ++ distModules dists) scripts x) ∧ P.NodeOf conf x n) ∨
    (∃ path ∈ scripts, n = Setup.scriptNode path (P.resolve path)) ∨
    (∃ y, P.Outside conf (mods ++ distModules dists) scripts y ∧ n = { ident := y, kind := .invalidRel }) ∨
    ∃ d ∈ dists, n = Setup.distributionNode d := by
  rw [Setup.flat_hasNode, setup_flat, has_node hC ho ho', or_assoc, or_assoc]
  exact Iff.rfl

theorem hasEdgeD {a b e} : (setupD P recs ord' conf mods scripts dists).HasEdge a b e ↔
    P.Edge conf (mods ++ distModules dists) scripts a b e ∨
      ∃ d ∈ dists, a = d.identifier ∧ b ∈ d.importNames ∧ e = defaultDep := by
  rw [Setup.flat_hasEdge (distD_name hC hF ho ho'), setup_flat, has_edge hC ho ho']
  exact Iff.rfl

end

variable {I : W → Prop} {env : Env W} {L : Loaders W} {T : Texts W}

theorem shownD (hC : P.Clear conf (mods ++ distModules dists) scripts) (hl : L.order.Ok) (ht : T.order.Ok)
    (hS : P.Shows I env L T) (k : Nat) :
    (setupD P (records P L) T.order conf mods scripts dists).ShownIn I (world env L T k) := by
  have h := shown hC hl ht hS k
  rw [← setup_flat] at h
  refine ⟨h.found, fun x hx => h.absent x (Setup.flat_needsModule.mpr hx), h.script,
    fun name d hd _ => hS.installed name d hd, h.source, fun n hn => .no (fun file helper hm => ?_) rfl⟩
  rcases hn with hn | ⟨x, infos, hx⟩
  · have := Setup.flat_hasMypyc ⟨n, file, helper, hn, hm⟩
    rw [setup_flat] at this
    exact no_mypyc hC (scan hl hS) ht this
  · exact not_mypyc hC (scan hl hS) ht (.inr ⟨x, infos, hx⟩) _ _ hm

theorem askedD (ht : ord'.Ok) {ops : List ApiOp} (ha : P.AddsAll mods scripts dists ops) :
    (setupD P recs ord' conf mods scripts dists).AskedBy ops where
  module x := by
    refine (ha.module x).trans (or_congr Iff.rfl ?_)
    constructor
    · rintro ⟨src, tree, h1, h2, h3⟩
      exact ⟨src, _, h1, by show (P.snippet src).map _ = _; rw [h2]; rfl, (inSource_iff ht).mpr h3⟩
    · rintro ⟨src, infos, h1, h2, h3⟩
      obtain ⟨tree, h4, rfl⟩ := Option.map_eq_some_iff.mp (show (P.snippet src).map _ = _ from h2)
      exact ⟨src, tree, h1, h4, (inSource_iff ht).mp h3⟩
  script := ha.script
  dist := ha.dist
  only o h := by
    have := ha.only o h
    cases o with
    | addDistributionNamed name => exact Option.ne_none_iff_exists'.mp this
    | addDependenciesForSource src =>
      obtain ⟨tree, h1⟩ := Option.ne_none_iff_exists'.mp this
      exact ⟨extractAstInfo ord' tree, by show (P.snippet src).map _ = _; rw [h1]; rfl⟩
    | _ => exact this

end Verif.Proj
