import Verif.Props.Page
import Verif.Props.CommandExample
/-!
# C71: an example
-/
namespace Verif.Props
open Verif Spec Proj

theorem shop_plain_html : ∀ x ∈ Shop.names, '"' ∉ x ∧ '<' ∉ x ∧ '&' ∉ x := by decide +kernel

/-- `-t script -p /src -e e -o /out /s` -/
def pageArgv : List Arg :=
  [.path c!"/src", .exclude c!"e", .nodeType .script, .output c!"/out", .names [c!"/s"]]

/-- The hypotheses of `C71_command` are met. -/
example (iter : St Desk → Iter) (hi : ObjectGraphOk iter) : ∃ N, ∀ n, N ≤ n → ∃ w' doc page,
    main Desk.output Desk.path (((projectEnv Shop.project
          (fun w : Desk => decide (Desk.path.path w = [c!"/src", c!"/lib"])) desk).withLoaders
        (projectLoaders Shop.project exOrd Shop.trees Shop.codes) 1).withTexts (projectTexts Shop.project exOrd)) n
      (Shop.table ++ Shop.implies) [c!"os", c!"re"] iter pageArgv desk = (.returned, w') ∧
    w'.disk.file c!"/out" = some doc ∧ Html.read doc = some page ∧
    (∃ s ∈ page, s.anchor = c!"c" ∧ s.heading = c!"AliasNode c" ∧ s.Links c!"Depends on:" ⟨some c!"d", c!"d"⟩ ∧
      s.Links c!"Used by:" ⟨some c!"/s", c!"/s"⟩) ∧
    ∀ s ∈ page, s.anchor ≠ c!"re" := by
  have hc := Clear.fewer Shop.clear (mods := []) (scripts := [c!"/s"]) (by simp) (by simp [Shop.scripts])
  have hb : ∀ {x}, Shop.project.Reached Shop.conf [] [c!"/s"] (.module x) → x ∈ Shop.names := fun h =>
    Shop.bound (Reached.more (by simp) (by simp [Shop.scripts]) h)
  have hb' := fun {x pkg tree} (h : Shop.project.Reached Shop.conf [] [c!"/s"] (.text x pkg tree)) =>
    Shop.bound (Reached.more (by simp) (by simp [Shop.scripts]) h)
  obtain ⟨N, h⟩ := C71_command Shop.project (Shop.table ++ Shop.implies) [c!"os", c!"re"] pageArgv [c!"e"] [] [c!"/s"]
    (by simp [ExcludedBy, pageArgv]) (.scripts rfl (by simp) (by simp) rfl) (by simp [formats, pageArgv])
    (by simp [formats, pageArgv]) hc
    [c!"a", c!"a.b", c!"d", c!"e", c!"e.x", c!"n", c!"n.x", c!"sys"]
    (by
      intro x h
      simp only [Shop.project] at h
      repeat' split at h
      all_goals simp_all)
    (by
      rintro x (h | h | ⟨_, _, _, _, _, h1, h2⟩)
      · exact shop_plain_html x (hb h)
      · cases List.mem_singleton.mp h
        exact ⟨by decide, by decide, by decide⟩
      · rw [(Shop.out_bound (hb' h1) h2).2.1]
        exact ⟨by decide, by decide, by decide⟩)
    Desk.path desk_path_ok desk (fun w => w.disk.out = []) rfl (fun _ _ _ h => h) (fun _ h => h)
    (projectEnv Shop.project (fun w : Desk => decide (Desk.path.path w = [c!"/src", c!"/lib"])) desk)
    (projectLoaders Shop.project exOrd Shop.trees Shop.codes) (projectTexts Shop.project exOrd)
    (project_shows Shop.compiled fun w h => by
      rw [h.2]
      decide +kernel)
    exOrd_ok exOrd_ok 0 (fun _ _ _ => Iff.rfl) Desk.output Desk.files desk_ok desk_writable iter hi
  refine ⟨N, fun n hn => ?_⟩
  obtain ⟨w1, w', doc, page, h1, _, _, h5, h6, h7⟩ := h n hn
  have hs : Shop.project.Reached Shop.conf [] [c!"/s"] (.text c!"/s" false Shop.treeS) := .script (by simp) rfl
  have his : HasImport Shop.treeS [.plain] c!"c" none :=
    ⟨_, .plain (.tail _ (.head _)) (.here _), by simp⟩
  have hr := Project.Reached.imports hs his
  have he : Shop.project.Edge Shop.conf [] [c!"/s"] c!"c" c!"d" defaultDep :=
    .along hr (.inl ⟨_, Shop.node_c.mpr rfl, .inl rfl⟩)
  obtain ⟨d, hd⟩ := edgeSays_exists [.plain] false none
  have hu : Shop.project.Edge Shop.conf [] [c!"/s"] c!"/s" c!"c" d := .imports hs his hd
  obtain ⟨s, hsp, ha⟩ := (h7.sections c!"c").mpr (.inl hr)
  refine ⟨w', doc, page, h1, h5.1, h6, ⟨s, hsp, ha, ?_, ?_, ?_⟩, fun t ht e => ?_⟩
  · have := h7.heading s hsp (by rw [ha]; exact hr) _ (by rw [ha]; exact Shop.node_c.mpr rfl)
    rw [this, ha]
    rfl
  · exact (h7.depends s hsp _).mpr ⟨_, rfl, _, by rw [ha]; exact he⟩
  · exact (h7.used s hsp _).mpr ⟨_, rfl, _, by rw [ha]; exact hu⟩
  · rcases (h7.sections _).mp ⟨t, ht, e⟩ with h | h | ⟨_, _, _, _, _, h1, h2⟩
    · exact absurd (hb h) (by decide)
    · exact absurd h (by decide)
    · cases (Shop.out_bound (hb' h1) h2).2.1

end Verif.Props
