import Verif.Props.Picture
import Verif.Props.CommandExample
/-!
# C69: an example
-/
namespace Verif.Props
open Verif Spec Proj Dot

theorem shop_plain : ∀ x ∈ Shop.names, '"' ∉ x ∧ '\n' ∉ x ∧ x.getLast? ≠ some '\\' := by decide +kernel

/-- The hypotheses of `C69_command` are met. -/
example (iter : St Desk → Iter) (hi : ObjectGraphOk iter) : ∃ N, ∀ n, N ≤ n → ∃ w' doc D,
    main Desk.output Desk.path (((projectEnv Shop.project
          (fun w : Desk => decide (Desk.path.path w = [c!"/src", c!"/lib"])) desk).withLoaders
        (projectLoaders Shop.project exOrd Shop.trees Shop.codes) 1).withTexts (projectTexts Shop.project exOrd)) n
      (Shop.table ++ Shop.implies) [c!"os", c!"re"] iter deskArgv desk = (.returned, w') ∧
    w'.disk.file c!"/out" = some doc ∧ Dot.read doc = some D ∧
    (∃ as, (c!"c", c!"d", as) ∈ D.edges ∧ (c!"style", c!"dashed") ∉ as) ∧
    D.NodeAttr c!"/s" c!"root" c!"true" ∧ ¬ D.NodeAttr c!"c" c!"root" c!"true" ∧ ¬ D.Node c!"re" := by
  have hc := Clear.fewer Shop.clear (mods := []) (scripts := [c!"/s"]) (by simp) (by simp [Shop.scripts])
  have hb : ∀ {x}, Shop.project.Reached Shop.conf [] [c!"/s"] (.module x) → x ∈ Shop.names := fun h =>
    Shop.bound (Reached.more (by simp) (by simp [Shop.scripts]) h)
  have hb' := fun {x pkg tree} (h : Shop.project.Reached Shop.conf [] [c!"/s"] (.text x pkg tree)) =>
    Shop.bound (Reached.more (by simp) (by simp [Shop.scripts]) h)
  obtain ⟨N, h⟩ := C69_command Shop.project (Shop.table ++ Shop.implies) [c!"os", c!"re"] deskArgv [c!"e"] [] [c!"/s"]
    (by simp [ExcludedBy, deskArgv]) (.scripts rfl (by simp) (by simp) rfl) (by simp [formats, deskArgv]) rfl hc
    [c!"a", c!"a.b", c!"d", c!"e", c!"e.x", c!"n", c!"n.x", c!"sys"]
    (by
      intro x h
      simp only [Shop.project] at h
      repeat' split at h
      all_goals simp_all)
    (by
      rintro x (h | h | ⟨_, _, _, _, _, h1, h2⟩)
      · exact shop_plain x (hb h)
      · cases List.mem_singleton.mp h
        exact ⟨by decide, by decide, by decide⟩
      · rw [(Shop.out_bound (hb' h1) h2).2.1]
        exact ⟨by decide, by decide, by decide⟩)
    (fun _ _ h => nomatch h)
    Desk.path desk_path_ok desk (fun w => w.disk.out = []) rfl (fun _ _ _ h => h) (fun _ h => h)
    (projectEnv Shop.project (fun w : Desk => decide (Desk.path.path w = [c!"/src", c!"/lib"])) desk)
    (projectLoaders Shop.project exOrd Shop.trees Shop.codes) (projectTexts Shop.project exOrd)
    (project_shows Shop.compiled fun w h => by
      rw [h.2]
      decide +kernel)
    exOrd_ok exOrd_ok 0 (fun _ _ _ => Iff.rfl) Desk.output Desk.files desk_ok desk_writable iter hi
  refine ⟨N, fun n hn => ?_⟩
  obtain ⟨w1, w', doc, D, h1, _, _, h5, h6, h7⟩ := h n hn
  have hs : Shop.project.Reached Shop.conf [] [c!"/s"] (.text c!"/s" false Shop.treeS) := .script (by simp) rfl
  have his : HasImport Shop.treeS [.plain] c!"c" none :=
    ⟨_, .plain (.tail _ (.head _)) (.here _), by simp⟩
  have he : Shop.project.Edge Shop.conf [] [c!"/s"] c!"c" c!"d" defaultDep :=
    .along (.imports hs his) (.inl ⟨_, Shop.node_c.mpr rfl, .inl rfl⟩)
  obtain ⟨as, has⟩ := (h7.edges _ _).mpr ⟨_, he⟩
  refine ⟨w', doc, D, h1, h5.1, h6, ⟨as, has, fun hd => ?_⟩, ?_, fun hr => ?_, fun hr => ?_⟩
  · exact absurd ((h7.dashed _ _ _ has).mp hd _ he) (by decide)
  · exact (h7.root _ ((h7.nodes _).mpr (.inr (.inl (by simp))))).mpr (.inr (by simp))
  · rcases (h7.root _ ((h7.nodes _).mpr (.inl (.imports hs his)))).mp hr with h | h
    · exact absurd h (by decide)
    · exact absurd h (by decide)
  · rcases (h7.nodes _).mp hr with h | h | ⟨_, _, _, _, _, h1, h2⟩
    · exact absurd (hb h) (by decide)
    · exact absurd h (by decide)
    · cases (Shop.out_bound (hb' h1) h2).2.1

end Verif.Props
