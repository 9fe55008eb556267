import Verif.Props.DistPicture
import Verif.Props.PictureExample
import Verif.Props.PageExample
/-!
# C80: examples
-/
namespace Verif.Props
open Verif Spec Proj

theorem shop_imported {x} (h : Shop.project.Imported Shop.conf [] [] [Shop.shop] x) :
    x ∈ Shop.names ∨ x = c!"..far" := by
  have hm : ∀ y ∈ [] ++ distModules [Shop.shop], y ∈ Shop.mods := by decide
  rcases h with h | h | ⟨_, _, _, _, _, h1, h2⟩
  · exact .inl (Shop.bound (Reached.more hm (by simp) h))
  · cases h
  · exact .inr (Shop.out_bound (Shop.bound (Reached.more hm (by simp) h1)) h2).2.1

/-- `-p /src -x e -d -f dot -o /out Shop` -/
def deskDistsDot : List Arg :=
  [.path c!"/src", .exclude c!"e", .nodeType .distribution, .format c!"dot", .output c!"/out", .names [c!"Shop"]]

/-- The hypotheses of `C80_command_dot` are met. -/
example (iter : St Desk → Iter) (hi : ObjectGraphOk iter) : ∃ N, ∀ n, N ≤ n → ∃ w' doc D,
    main Desk.output Desk.path (((projectEnv Shop.project
          (fun w : Desk => decide (Desk.path.path w = [c!"/src", c!"/lib"])) desk).withLoaders
        (projectLoaders Shop.project exOrd Shop.trees Shop.codes) 1).withTexts (projectTexts Shop.project exOrd)) n
      (Shop.table ++ Shop.implies) [c!"os", c!"re"] iter deskDistsDot desk = (.returned, w') ∧
    w'.disk.file c!"/out" = some doc ∧ Dot.read doc = some D ∧
    (∃ as, (c!"/shop.dist-info", c!"a.b", as) ∈ D.edges ∧ (c!"style", c!"dashed") ∉ as) ∧
    D.NodeAttr c!"/shop.dist-info" c!"root" c!"true" ∧ ¬ D.NodeAttr c!"a" c!"root" c!"true" := by
  have hc := Clear.fewer Shop.clear (mods := distModules [Shop.shop]) (scripts := []) (by decide) (by simp)
  have hF := Fits.fewer Shop.fits (mods := distModules [Shop.shop]) (scripts := []) (by decide) (by simp)
  obtain ⟨N, h⟩ := C80_command_dot Shop.project (Shop.table ++ Shop.implies) [c!"os", c!"re"] deskDistsDot [c!"e"]
    [c!"Shop"] [Shop.shop] (by simp [ExcludedBy, deskDistsDot]) rfl (by simp) rfl (by simp [Shop.project])
    (by simp [formats, deskDistsDot]) hc hF
    [c!"a", c!"a.b", c!"d", c!"e", c!"e.x", c!"n", c!"n.x", c!"sys"]
    (by
      intro x h
      simp only [Shop.project] at h
      repeat' split at h
      all_goals simp_all)
    Desk.path desk_path_ok desk (fun w => w.disk.out = []) rfl (fun _ _ _ h => h) (fun _ h => h)
    (projectEnv Shop.project (fun w : Desk => decide (Desk.path.path w = [c!"/src", c!"/lib"])) desk)
    (projectLoaders Shop.project exOrd Shop.trees Shop.codes) (projectTexts Shop.project exOrd)
    (project_shows Shop.compiled fun w h => by
      rw [h.2]
      decide +kernel)
    exOrd_ok exOrd_ok 0 (fun _ _ _ => Iff.rfl) Desk.output Desk.files desk_ok desk_writable iter hi rfl
    (by
      rintro x (h | ⟨d, hd, rfl⟩)
      · rcases shop_imported h with h | rfl
        · exact shop_plain x h
        · exact ⟨by decide, by decide, by decide⟩
      · cases List.mem_singleton.mp hd
        exact ⟨by decide, by decide, by decide⟩)
    (fun _ _ h => nomatch h)
  refine ⟨N, fun n hn => ?_⟩
  obtain ⟨w1, w', doc, D, h1, _, _, h5, h6, h7⟩ := h n hn
  have ha : Shop.project.Arrow Shop.conf [] [] [Shop.shop] c!"/shop.dist-info" c!"a.b" defaultDep :=
    .dist (List.mem_singleton.mpr rfl) rfl (by decide)
  obtain ⟨as, has⟩ := (h7.edges _ _).mpr ⟨_, ha⟩
  refine ⟨w', doc, D, h1, h5.1, h6, ⟨as, has, fun hd => ?_⟩, ?_, fun hr => ?_⟩
  · exact absurd ((h7.dashed _ _ _ has).mp hd _ ha) (by decide)
  · exact (h7.root _ ((h7.nodes _).mpr (.inr ⟨_, List.mem_singleton.mpr rfl, rfl⟩))).mpr
      (.inr (.inr ⟨_, List.mem_singleton.mpr rfl, rfl⟩))
  · rcases (h7.root _ ((h7.nodes _).mpr (.inl (.inl (.asked (by decide)))))).mp hr with h | h | ⟨d, hd, h⟩
    · cases h
    · cases h
    · cases List.mem_singleton.mp hd
      cases h

/-- The hypotheses of `C80_command_html` are met.  The link to the distribution leads nowhere. -/
example (iter : St Desk → Iter) (hi : ObjectGraphOk iter) : ∃ N, ∀ n, N ≤ n → ∃ w' doc page,
    main Desk.output Desk.path (((projectEnv Shop.project
          (fun w : Desk => decide (Desk.path.path w = [c!"/src", c!"/lib"])) desk).withLoaders
        (projectLoaders Shop.project exOrd Shop.trees Shop.codes) 1).withTexts (projectTexts Shop.project exOrd)) n
      (Shop.table ++ Shop.implies) [c!"os", c!"re"] iter deskDists desk = (.returned, w') ∧
    w'.disk.file c!"/out" = some doc ∧ Html.read doc = some page ∧
    (∃ s ∈ page, s.anchor = c!"a.b" ∧ s.Links c!"Used by:" ⟨some c!"/shop.dist-info", c!"Shop"⟩) ∧
    ∀ t ∈ page, t.anchor ≠ c!"/shop.dist-info" := by
  have hc := Clear.fewer Shop.clear (mods := distModules [Shop.shop]) (scripts := []) (by decide) (by simp)
  have hF := Fits.fewer Shop.fits (mods := distModules [Shop.shop]) (scripts := []) (by decide) (by simp)
  obtain ⟨N, h⟩ := C80_command_html Shop.project (Shop.table ++ Shop.implies) [c!"os", c!"re"] deskDists [c!"e"]
    [c!"Shop"] [Shop.shop] (by simp [ExcludedBy, deskDists]) rfl (by simp) rfl (by simp [Shop.project])
    (by simp [formats, deskDists]) hc hF
    [c!"a", c!"a.b", c!"d", c!"e", c!"e.x", c!"n", c!"n.x", c!"sys"]
    (by
      intro x h
      simp only [Shop.project] at h
      repeat' split at h
      all_goals simp_all)
    Desk.path desk_path_ok desk (fun w => w.disk.out = []) rfl (fun _ _ _ h => h) (fun _ h => h)
    (projectEnv Shop.project (fun w : Desk => decide (Desk.path.path w = [c!"/src", c!"/lib"])) desk)
    (projectLoaders Shop.project exOrd Shop.trees Shop.codes) (projectTexts Shop.project exOrd)
    (project_shows Shop.compiled fun w h => by
      rw [h.2]
      decide +kernel)
    exOrd_ok exOrd_ok 0 (fun _ _ _ => Iff.rfl) Desk.output Desk.files desk_ok desk_writable iter hi
    (by simp [formats, deskDists])
    (by
      intro x h
      rcases shop_imported h with h | rfl
      · exact shop_plain_html x h
      · exact ⟨by decide, by decide, by decide⟩)
    (by
      intro d hd
      cases List.mem_singleton.mp hd
      exact ⟨⟨by decide, by decide, by decide⟩, by decide, by decide, by decide⟩)
  refine ⟨N, fun n hn => ?_⟩
  obtain ⟨w1, w', doc, page, h1, _, _, h5, h6, h7⟩ := h n hn
  obtain ⟨s, hs, ha⟩ := (h7.sections c!"a.b").mpr (.inl (.asked (by decide)))
  refine ⟨w', doc, page, h1, h5.1, h6, ⟨s, hs, ha, ?_⟩, fun t ht e => ?_⟩
  · exact (h7.used s hs _).mpr (.inr ⟨Shop.shop, List.mem_singleton.mpr rfl, by rw [ha]; decide, rfl⟩)
  · rcases shop_imported ((h7.sections _).mp ⟨t, ht, e⟩) with h | h
    · exact absurd h (by decide)
    · exact absurd h (by decide)

end Verif.Props
