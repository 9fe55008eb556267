import Verif.Spec.DistPictureSpec
import Verif.Props.Page
/-!
# C80: the picture of and the page for installed distributions
-/
namespace Verif.Props
open Verif M Spec Proj
variable {W : Type}

section
variable {P : Project} {conf : Str → Option Implies} {mods scripts : List Str} {dists : List Dist} {g : View}
  (hC : P.Clear conf (mods ++ distModules dists) scripts)
  (hF : P.Fits conf (mods ++ distModules dists) scripts dists)
  (h : P.GraphWith conf mods scripts dists g.nodes g.edges g.roots)

theorem arrow_iff (h : P.GraphWith conf mods scripts dists g.nodes g.edges g.roots) {a b e} :
    (a, b, e) ∈ g.edges ↔ P.Arrow conf mods scripts dists a b e := by
  rw [h.edges]
  constructor
  · rintro (h | ⟨d, hd, h1, h2, rfl⟩)
    · exact .edge h
    · exact .dist hd h1 h2
  · rintro (h | ⟨hd, h1, h2⟩)
    · exact .inl h
    · exact .inr ⟨_, hd, h1, h2, rfl⟩

theorem mem_distModules {d : Dist} (hd : d ∈ dists) {x} (hx : x ∈ d.importNames) : x ∈ mods ++ distModules dists :=
  List.mem_append_right _ (List.mem_flatMap.mpr ⟨d, hd, hx⟩)

theorem reach_of_brought (h : P.GraphWith conf mods scripts dists g.nodes g.edges g.roots) {pl}
    (hr : P.Reached conf (mods ++ distModules dists) scripts pl) :
    match pl with
    | .module x => Reach g x
    | .text x _ _ => Reach g x := by
  have he : ∀ {a b d}, P.Edge conf (mods ++ distModules dists) scripts a b d → (a, b, d) ∈ g.edges :=
    fun hx => (h.edges _ _ _).mpr (.inl hx)
  induction hr with
  | asked hx =>
    rcases List.mem_append.mp hx with hx | hx
    · exact .root ((h.roots _).mpr (.inl hx))
    · obtain ⟨d, hd, hx⟩ := List.mem_flatMap.mp hx
      exact .step (.root ((h.roots _).mpr (.inr (.inr ⟨d, hd, rfl⟩)))) ((h.edges _ _ _).mpr (.inr ⟨d, hd, rfl, hx, rfl⟩))
  | package hx hp ih => exact .step ih (he (.package hx hp))
  | along hx ha ih => exact .step ih (he (.along hx ha))
  | implied hx hi hr ih => exact .step ih (he (.implied hx hi hr))
  | text _ _ ih => exact ih
  | script hx _ => exact .root ((h.roots _).mpr (.inr (.inl hx)))
  | imports hx hi ih =>
    obtain ⟨d, hd⟩ := edgeSays_exists _ _ _
    exact .step ih (he (.imports hx hi hd))
  | froms hx hi ih =>
    obtain ⟨d, hd⟩ := edgeSays_exists _ _ _
    exact .step ih (he (.froms hx hi hd))
  | names hx hf hs hp hn hne hsub ih =>
    obtain ⟨d, hd⟩ := edgeSays_exists _ _ _
    exact .step ih (he (.names hx hf hs hp hn hne hsub hd))

theorem reach_with (h : P.GraphWith conf mods scripts dists g.nodes g.edges g.roots) (x : Str) :
    Reach g x ↔ P.Imported conf mods scripts dists x ∨ ∃ d ∈ dists, x = d.identifier := by
  constructor
  · intro hr
    cases hr with
    | root hx =>
      rcases (h.roots _).mp hx with hx | hx | hx
      · exact .inl (.inl (.asked (List.mem_append_left _ hx)))
      · exact .inl (.inr (.inl hx))
      · exact .inr hx
    | step _ he =>
      rcases (h.edges _ _ _).mp he with he | ⟨d, hd, _, hx, _⟩
      · exact .inl ((Proj.edge_reached he).imp id .inr)
      · exact .inl (.inl (.asked (mem_distModules hd hx)))
  · rintro ((hx | hx | ⟨y, pkg, tree, way, names, hx, ho⟩) | hx)
    · exact reach_of_brought h hx
    · exact .root ((h.roots _).mpr (.inr (.inl hx)))
    · obtain ⟨d, hd⟩ := edgeSays_exists way false none
      exact .step (reach_of_brought h hx) ((h.edges _ _ _).mpr (.inl (.outside hx ho hd)))
    · exact .root ((h.roots _).mpr (.inr (.inr hx)))

theorem node_of_imported (h : P.GraphWith conf mods scripts dists g.nodes g.edges g.roots) {x}
    (hx : P.Imported conf mods scripts dists x) :
    ∃ n ∈ g.nodes, n.ident = x ∧ IsModuleNode n := by
  rcases hx with hx | hx | hx
  · obtain ⟨n, hn⟩ := of_exists (P := P) (conf := conf) x
    refine ⟨n, (h.nodes _).mpr (.inl ⟨x, .inl hx, hn⟩), of_ident hn, fun d hd => ?_⟩
    rcases shape hn with rfl | rfl | ⟨t, rfl⟩ | ⟨t, rfl⟩ | rfl
    · revert hd
      simp only [Project.node]
      split <;> simp
    all_goals simp at hd
  · exact ⟨_, (h.nodes _).mpr (.inr (.inl ⟨x, hx, rfl⟩)), rfl, by intro d; simp⟩
  · exact ⟨_, (h.nodes _).mpr (.inr (.inr (.inl ⟨x, hx, rfl⟩))), rfl, by intro d; simp⟩

theorem node_of_drawn (h : P.GraphWith conf mods scripts dists g.nodes g.edges g.roots) {x}
    (hx : P.Imported conf mods scripts dists x ∨ ∃ d ∈ dists, x = d.identifier) :
    ∃ n ∈ g.nodes, n.ident = x := by
  rcases hx with hx | ⟨d, hd, rfl⟩
  · obtain ⟨n, h1, h2, _⟩ := node_of_imported h hx
    exact ⟨n, h1, h2⟩
  · exact ⟨_, (h.nodes _).mpr (.inr (.inr (.inr ⟨d, hd, rfl⟩))), rfl⟩

theorem arrow_source {a b e} (h : P.Arrow conf mods scripts dists a b e) :
    P.Imported conf mods scripts dists a ∨ ∃ d ∈ dists, a = d.identifier := by
  cases h with
  | edge h => exact .inl ((edge_source h).imp id .inl)
  | dist hd ha => exact .inr ⟨_, hd, ha⟩

theorem arrow_target {a b e} (h : P.Arrow conf mods scripts dists a b e) : P.Imported conf mods scripts dists b := by
  cases h with
  | edge h => exact (Proj.edge_reached h).imp id .inr
  | dist hd _ hb => exact .inl (.asked (mem_distModules hd hb))

include hC hF in
/-- A distribution is not called like a script, module or name with too many dots. -/
theorem dist_apart {d : Dist} (hd : d ∈ dists) : ¬ P.Imported conf mods scripts dists d.identifier := by
  obtain ⟨h1, h2, h3⟩ := hF.place d hd
  rintro (hx | hx | hx)
  · exact proper_slash (rt_proper hC (.inl hx)) h1
  · exact h3 hx
  · exact h2 (outside_head hx)

include hC hF h

/-- C80: a Graphviz document for the graph of a project with distributions can be read, and is a picture of it. -/
theorem C80_picture {doc : Str} (hdoc : Document .graphviz g doc)
    (hp : ∀ x, P.Imported conf mods scripts dists x ∨ (∃ d ∈ dists, x = d.identifier) → Dot.Plain x)
    (hd : ∀ file d, P.dist file = some d → Dot.Plain d.name) :
    ∃ D, Dot.read doc = some D ∧ P.PictureWith conf mods scripts dists D := by
  have hdist : ∀ n ∈ g.nodes, ∀ d, n.distribution = some d → (∃ x,
      (P.Reached conf (mods ++ distModules dists) scripts (.module x) ∨
        P.Tried conf (mods ++ distModules dists) scripts x) ∧ P.NodeOf conf x n) ∧
      n.isBaseNode = true ∧ ∃ file, P.dist file = some d := by
    intro n hn d hd
    rcases (h.nodes _).mp hn with ⟨x, hr, hx⟩ | ⟨x, _, rfl⟩ | ⟨x, _, rfl⟩ | ⟨x, _, rfl⟩
    · exact ⟨⟨x, hr, hx⟩, dist_of_node hx hd⟩
    all_goals exact absurd hd (by simp)
  obtain ⟨D, h1, h2⟩ := C68_read hdoc (fun n _ hr => hp _ ((reach_with h _).mp hr)) fun n hn _ d hd' => by
    obtain ⟨_, _, file, hf⟩ := hdist n hn d hd'
    exact hd _ _ hf
  have hin : ∀ x n, P.Brought conf mods scripts dists x → P.NodeOf conf x n → n ∈ g.nodes ∧ n.ident = x ∧
      Reach g n.ident := fun x n hx hn => by
    have := of_ident hn
    exact ⟨(h.nodes _).mpr (.inl ⟨x, .inl hx, hn⟩), this, by rw [this]; exact (reach_with h _).mpr (.inl (.inl hx))⟩
  refine ⟨D, h1, ⟨fun x => ?_, fun x hx => ?_, fun x hx s => ?_, fun x n hx hn s => ?_, fun x n hx hn => ?_,
    fun x hx s => ?_, fun a b => ?_, h2.once, fun a b as he => ?_, fun l x => ?_⟩⟩
  · rw [h2.nodes, reach_with h]
    exact ⟨fun h => h.1, fun hx => ⟨hx, node_of_drawn h hx⟩⟩
  · obtain ⟨hr, n, hn, rfl⟩ := (h2.nodes x).mp hx
    rw [h2.root n hn hr, h.roots]
  · have hn := (h.nodes _).mpr (.inr (.inl ⟨x, hx, rfl⟩))
    rw [h2.shape _ hn ((reach_with h _).mpr (.inl (.inr (.inl hx))))]
    simp [shapeOf, eq_comm]
  · obtain ⟨hm, rfl, hr⟩ := hin x n hx hn
    exact h2.shape n hm hr s
  · obtain ⟨hm, rfl, hr⟩ := hin x n hx hn
    rw [h2.color n hm hr]
    cases n with | mk i k => cases k <;> simp [Node.isMissing]
  · rcases hx with hx | ⟨d, hd', rfl⟩
    · have hn := (h.nodes _).mpr (.inr (.inr (.inl ⟨x, hx, rfl⟩)))
      have hr := (reach_with h _).mpr (.inl (.inr (.inr hx)))
      constructor
      · intro ha
        cases (h2.shape _ hn hr s).mp ha
      · intro ha
        cases ((h2.color _ hn hr s).mp ha).1
    · have hn := (h.nodes _).mpr (.inr (.inr (.inr ⟨d, hd', rfl⟩)))
      have hr := (reach_with h _).mpr (.inr ⟨d, hd', rfl⟩)
      constructor
      · intro ha
        cases (h2.shape _ hn hr s).mp ha
      · intro ha
        cases ((h2.color _ hn hr s).mp ha).1
  · rw [h2.edges]
    constructor
    · rintro ⟨_, ⟨d, hd⟩, _⟩
      exact ⟨d, (arrow_iff h).mp hd⟩
    · rintro ⟨d, hd⟩
      exact ⟨(reach_with h _).mpr (arrow_source hd), ⟨d, (arrow_iff h).mpr hd⟩, node_of_drawn h (arrow_source hd),
        node_of_drawn h (.inl (arrow_target hd))⟩
  · rw [h2.dashed a b as he]
    exact ⟨fun hx d hd => hx d ((arrow_iff h).mpr hd), fun hx d hd => hx d ((arrow_iff h).mp hd)⟩
  · rw [h2.clusters]
    constructor
    · rintro ⟨n, hn, rfl, hr, _, d, hd, hl⟩
      obtain ⟨⟨y, hrt, hy⟩, _⟩ := hdist n hn d hd
      have hny := of_ident hy
      subst hny
      rcases (reach_with h _).mp hr with (hr' | hs | ho) | ⟨d', hd', e⟩
      · exact ⟨hr', n, hy, d, hd, hl⟩
      · exact absurd (hC.script _ hs).2.1 (proper_slash (rt_proper hC hrt))
      · exact absurd (outside_head ho) (proper_head (rt_proper hC hrt))
      · exact absurd (e ▸ (hF.place d' hd').1) (proper_slash (rt_proper hC hrt))
    · rintro ⟨hx, n, hn, d, hd, hl⟩
      have hb := (dist_of_node hn hd).1
      obtain ⟨hm, rfl, hr⟩ := hin x n hx hn
      exact ⟨n, hm, rfl, hr, fun e he => by simp [Node.isBaseNode, he] at hb, d, hd, hl⟩

omit hC hF in
theorem title_of_node {n : Node} (hn : n ∈ g.nodes) :
    (IsModuleNode n ∧ titleOf n = n.ident) ∨ ∃ d ∈ dists, n = { ident := d.identifier, kind := .dist d } := by
  rcases (h.nodes _).mp hn with ⟨x, _, hx⟩ | ⟨x, _, rfl⟩ | ⟨x, _, rfl⟩ | ⟨d, hd, rfl⟩
  · left
    have : ∀ d, n.kind ≠ .dist d := by
      intro d hd
      rcases shape hx with rfl | rfl | ⟨t, rfl⟩ | ⟨t, rfl⟩ | rfl
      · revert hd
        simp only [Project.node]
        split <;> simp
      all_goals simp at hd
    refine ⟨this, ?_⟩
    unfold titleOf
    split
    · exact absurd (by assumption) (this _)
    · rfl
  · exact .inl ⟨by intro d; simp, rfl⟩
  · exact .inl ⟨by intro d; simp, rfl⟩
  · exact .inr ⟨d, hd, rfl⟩

/-- C80: an HTML document for the graph of a project with distributions can be read, and describes it. -/
theorem C80_page {doc : Str} (hdoc : Document .html g doc)
    (hp : ∀ x, P.Imported conf mods scripts dists x → Html.Plain x)
    (hd : ∀ d ∈ dists, Html.Plain d.identifier ∧ Html.Plain d.name) :
    ∃ page, Html.read doc = some page ∧ P.PageWith conf mods scripts dists page := by
  have hapart : ∀ {n : Node} {x}, n ∈ g.nodes → n.ident = x → P.Imported conf mods scripts dists x →
      IsModuleNode n ∧ titleOf n = x := by
    intro n x hn he hx
    rcases title_of_node h hn with h1 | ⟨d, hd, rfl⟩
    · exact ⟨h1.1, h1.2.trans he⟩
    · subst he
      exact absurd hx (dist_apart hC hF hd)
  obtain ⟨page, h1, h2⟩ := C70_read hdoc fun n hn hr => by
    rcases title_of_node h hn with ⟨_, h3⟩ | ⟨d, hd', rfl⟩
    · rw [h3]
      rcases (reach_with h _).mp hr with hx | ⟨d, hd', hx⟩
      · exact ⟨hp _ hx, hp _ hx⟩
      · rw [hx]
        exact ⟨(hd d hd').1, (hd d hd').1⟩
    · exact hd d hd'
  have hsec : ∀ x, (∃ s ∈ page, s.anchor = x) ↔ P.Imported conf mods scripts dists x := by
    intro x
    rw [h2.sections, reach_with h]
    constructor
    · rintro ⟨hx | ⟨d, hd', rfl⟩, n, hn, hi, hm⟩
      · exact hx
      · rcases (h.nodes _).mp hn with ⟨y, hy, hx⟩ | ⟨y, hy, rfl⟩ | ⟨y, hy, rfl⟩ | ⟨d, _, rfl⟩
        · have := of_ident hx
          rw [this] at hi
          subst hi
          exact absurd (hF.place d hd').1 (proper_slash (rt_proper hC hy))
        · exact .inr (.inl (by rw [← hi]; exact hy))
        · exact .inr (.inr (by rw [← hi]; exact hy))
        · exact absurd rfl (hm d)
    · intro hx
      exact ⟨.inl hx, node_of_imported h hx⟩
  have hdep : ∀ s ∈ page, ∀ k, s.Links c!"Depends on:" k ↔
      ∃ x, k = ⟨some x, x⟩ ∧ ∃ e, P.Edge conf (mods ++ distModules dists) scripts s.anchor x e := by
    intro s hs k
    rw [h2.depends s hs]
    constructor
    · rintro ⟨t, ht, rfl, e, he⟩
      cases (arrow_iff h).mp he with
      | edge he => exact ⟨t.ident, by rw [(hapart ht rfl ((Proj.edge_reached he).imp id .inr)).2], e, he⟩
      | @dist d hd' ha => exact absurd (ha ▸ (hsec _).mp ⟨s, hs, rfl⟩) (dist_apart hC hF hd')
    · rintro ⟨x, rfl, e, he⟩
      have hx : P.Imported conf mods scripts dists x := (Proj.edge_reached he).imp id .inr
      obtain ⟨n, hn, rfl, _⟩ := node_of_imported h hx
      exact ⟨n, hn, by rw [(hapart hn rfl hx).2], e, (arrow_iff h).mpr (.edge he)⟩
  have huse : ∀ s ∈ page, ∀ k, s.Links c!"Used by:" k ↔
      (∃ x, k = ⟨some x, x⟩ ∧ ∃ e, P.Edge conf (mods ++ distModules dists) scripts x s.anchor e) ∨
      ∃ d ∈ dists, s.anchor ∈ d.importNames ∧ k = ⟨some d.identifier, d.name⟩ := by
    intro s hs k
    rw [h2.used s hs]
    constructor
    · rintro ⟨t, ht, rfl, _, e, he⟩
      cases (arrow_iff h).mp he with
      | edge he =>
        exact .inl ⟨t.ident, by rw [(hapart ht rfl ((edge_source he).imp id .inl)).2], e, he⟩
      | @dist d hd' ha hb =>
        refine .inr ⟨d, hd', hb, ?_⟩
        rcases (h.nodes _).mp ht with ⟨y, hy, hx⟩ | ⟨y, hy, rfl⟩ | ⟨y, hy, rfl⟩ | ⟨d', hd'', rfl⟩
        · have := of_ident hx
          rw [this] at ha
          exact absurd (ha ▸ (hF.place d hd').1) (proper_slash (rt_proper hC hy))
        · have ha : y = d.identifier := ha
          exact absurd (ha ▸ hy) (hF.place d hd').2.2
        · have ha : y = d.identifier := ha
          exact absurd (ha ▸ outside_head hy) (hF.place d hd').2.1
        · cases hF.same d' hd'' d hd' ha
          rfl
    · rintro (⟨x, rfl, e, he⟩ | ⟨d, hd', hb, rfl⟩)
      · have hx : P.Imported conf mods scripts dists x := (edge_source he).imp id .inl
        obtain ⟨n, hn, rfl, _⟩ := node_of_imported h hx
        exact ⟨n, hn, by rw [(hapart hn rfl hx).2], (reach_with h _).mpr (.inl hx), e, (arrow_iff h).mpr (.edge he)⟩
      · exact ⟨_, (h.nodes _).mpr (.inr (.inr (.inr ⟨d, hd', rfl⟩))), rfl, (reach_with h _).mpr (.inr ⟨d, hd', rfl⟩), _,
          (arrow_iff h).mpr (.dist hd' rfl hb)⟩
  refine ⟨page, h1, h2.sorted, hsec, fun s hs hx => ?_, fun s hs hx n hn => ?_, fun s hs hx => ?_, hdep, huse,
    fun s hs p hpp k hk => ?_, h2.once⟩
  · exact h2.heading s hs _ ((h.nodes _).mpr (.inr (.inl ⟨s.anchor, hx, rfl⟩))) rfl (fun d h => by (cases h))
  · have hi := of_ident hn
    have hm : n ∈ g.nodes := (h.nodes _).mpr (.inl ⟨_, .inl hx, hn⟩)
    obtain ⟨h3, h4⟩ := hapart hm hi (.inl hx)
    rw [h2.heading s hs n hm hi h3, h4]
  · exact h2.heading s hs _ ((h.nodes _).mpr (.inr (.inr (.inl ⟨s.anchor, hx, rfl⟩)))) rfl (fun d h => by (cases h))
  · rcases h2.labels s hs p hpp with hl | hl
    · obtain ⟨x, rfl, d, hd⟩ := (hdep s hs k).mp ⟨p, hpp, hl, hk⟩
      obtain ⟨t, ht, rfl⟩ := (hsec x).mpr ((Proj.edge_reached hd).imp id .inr)
      exact .inl ⟨t, ht, rfl⟩
    · rcases (huse s hs k).mp ⟨p, hpp, hl, hk⟩ with ⟨x, rfl, d, hd⟩ | ⟨d, hd', hb, rfl⟩
      · obtain ⟨t, ht, rfl⟩ := (hsec x).mpr ((edge_source hd).imp id .inl)
        exact .inl ⟨t, ht, rfl⟩
      · refine .inr ⟨d, hd', rfl, fun t ht e => ?_⟩
        have e : d.identifier = t.anchor := by simpa using e
        exact dist_apart hC hF hd' (e ▸ (hsec _).mp ⟨t, ht, rfl⟩)

end

section
variable (P : Project) (table : List (Str × Implies)) (stdlib : List Str) (argv : List Arg)
  (excludes names : List Str) (dists : List Dist) (hx : ∀ x, x ∈ excludes ↔ ExcludedBy stdlib argv x)
  (hg : groups argv = [names]) (hne : names ≠ []) (hd : (nodeTypes argv).getLast? = some .distribution)
  (hP : names.map P.installed = dists.map some) (hfm : ∀ f ∈ formats argv, f = c!"html" ∨ f = c!"dot")
  (hC : P.Clear (configured excludes table) (distModules dists) [])
  (hF : P.Fits (configured excludes table) (distModules dists) [] dists)
  (dom : List Str) (hdom : ∀ x, P.item x ≠ none → x ∈ dom)
  (sp : SysPath W) (hsp : SysPathOk sp) (w : W) (J : W → Prop) (hw : J w)
  (hJ : ∀ r l v, J v → J (sp.assign r l v)) (hJ' : ∀ v, J v → J (sp.invalidate v))
  (env : Env W) (L : Loaders W) (T : Texts W)
  (hS : P.Shows (fun v => J v ∧ sp.path v = paths argv ++ sp.path w) env L T) (hl : L.order.Ok)
  (ht : T.order.Ok) (k : Nat) (hO : env.OrderExact)
  (o : Output W) (f : Files W) (hf : OutputOk o f) (hwr : Writable o f (outputs argv).getLast?)
  (iter : St W → Iter) (hi : ObjectGraphOk iter)
include hx hg hne hd hP hfm hC hF hdom hsp hw hJ hJ' hS hl ht hO hf hwr hi

/-- C80: as in `C67_distributions`, with `-f dot`. -/
theorem C80_command_dot (hdot : (formats argv).getLast? = some c!"dot")
    (hp : ∀ x, P.Imported (configured excludes table) [] [] dists x ∨ (∃ d ∈ dists, x = d.identifier) → Dot.Plain x)
    (hpd : ∀ file d, P.dist file = some d → Dot.Plain d.name) :
    ∃ N, ∀ n, N ≤ n → ∃ w1 w' doc D,
      main o sp ((env.withLoaders L (k + 1)).withTexts T) n table stdlib iter argv w = (.returned, w') ∧
      J w1 ∧ sp.path w1 = sp.path w ∧ WrittenTo f (outputs argv).getLast? doc w1 w' ∧
      Dot.read doc = some D ∧ P.PictureWith (configured excludes table) [] [] dists D := by
  obtain ⟨N, h⟩ := C67_distributions P table stdlib argv excludes names dists hx hg hne hd hP hfm hC hF dom hdom sp hsp
    w J hw hJ hJ' env L T hS hl ht k hO o f hf hwr iter hi
  refine ⟨N, fun n hn => ?_⟩
  obtain ⟨w1, w', g, doc, h1, h2, h3, h4, h5, h6⟩ := h n hn
  rw [if_pos hdot] at h3
  obtain ⟨D, h7, h8⟩ := C80_picture (mods := []) hC hF h2 h3 hp hpd
  exact ⟨w1, w', doc, D, h1, h4, h5, h6, h7, h8⟩

/-- C80: as in `C67_distributions`, without `-f dot`. -/
theorem C80_command_html (hdot : (formats argv).getLast? ≠ some c!"dot")
    (hp : ∀ x, P.Imported (configured excludes table) [] [] dists x → Html.Plain x)
    (hpd : ∀ d ∈ dists, Html.Plain d.identifier ∧ Html.Plain d.name) :
    ∃ N, ∀ n, N ≤ n → ∃ w1 w' doc page,
      main o sp ((env.withLoaders L (k + 1)).withTexts T) n table stdlib iter argv w = (.returned, w') ∧
      J w1 ∧ sp.path w1 = sp.path w ∧ WrittenTo f (outputs argv).getLast? doc w1 w' ∧
      Html.read doc = some page ∧ P.PageWith (configured excludes table) [] [] dists page := by
  obtain ⟨N, h⟩ := C67_distributions P table stdlib argv excludes names dists hx hg hne hd hP hfm hC hF dom hdom sp hsp
    w J hw hJ hJ' env L T hS hl ht k hO o f hf hwr iter hi
  refine ⟨N, fun n hn => ?_⟩
  obtain ⟨w1, w', g, doc, h1, h2, h3, h4, h5, h6⟩ := h n hn
  rw [if_neg hdot] at h3
  obtain ⟨page, h7, h8⟩ := C80_page (mods := []) hC hF h2 h3 hp hpd
  exact ⟨w1, w', doc, page, h1, h4, h5, h6, h7, h8⟩

end

end Verif.Props
