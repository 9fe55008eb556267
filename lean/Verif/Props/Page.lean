import Verif.Spec.PageSpec
import Verif.Props.Picture
import Verif.Props.HtmlRead
/-!
# C71: the page for a project
-/
namespace Verif.Props
open Verif M Spec Proj
variable {W : Type}

section
variable {P : Project} {conf : Str → Option Implies} {mods scripts : List Str} {g : View}

theorem node_plain (h : P.GraphOf conf mods scripts g) {n : Node} (hn : n ∈ g.nodes) :
    IsModuleNode n ∧ titleOf n = n.ident := by
  have : ∀ d, n.kind ≠ .dist d := by
    intro d hd
    rcases (h.nodes _).mp hn with ⟨x, _, hx⟩ | ⟨x, _, rfl⟩ | ⟨x, _, rfl⟩
    · rcases shape hx with rfl | rfl | ⟨t, rfl⟩ | ⟨t, rfl⟩ | rfl
      · revert hd
        simp only [Project.node]
        split <;> simp
      all_goals simp at hd
    · simp at hd
    · simp at hd
  refine ⟨this, ?_⟩
  unfold titleOf
  split
  · exact absurd (by assumption) (this _)
  · rfl

/-- C71: an HTML document for the graph of a project can be read, and describes the project: it has a section for
each script, each module that is reached and each name with too many dots, and its links are the imports. -/
theorem C71_page (h : P.GraphOf conf mods scripts g) {doc : Str}
    (hdoc : Document .html g doc)
    (hp : ∀ x, P.Reached conf mods scripts (.module x) ∨ x ∈ scripts ∨ P.Outside conf mods scripts x → Html.Plain x) :
    ∃ page, Html.read doc = some page ∧ P.Page conf mods scripts page := by
  obtain ⟨page, h1, h2⟩ := C70_read hdoc fun n hn hr => by
    rw [(node_plain h hn).2]
    exact ⟨hp _ ((reach_iff h _).mp hr), hp _ ((reach_iff h _).mp hr)⟩
  have hsec : ∀ x, (∃ s ∈ page, s.anchor = x) ↔
      P.Reached conf mods scripts (.module x) ∨ x ∈ scripts ∨ P.Outside conf mods scripts x := by
    intro x
    rw [h2.sections, reach_iff h]
    constructor
    · exact fun h => h.1
    · intro hx
      obtain ⟨n, hn, he⟩ := node_of_reached h hx
      exact ⟨hx, n, hn, he, (node_plain h hn).1⟩
  have hdep : ∀ s ∈ page, ∀ k, s.Links c!"Depends on:" k ↔
      ∃ x, k = ⟨some x, x⟩ ∧ ∃ d, P.Edge conf mods scripts s.anchor x d := by
    intro s hs k
    rw [h2.depends s hs]
    constructor
    · rintro ⟨t, ht, rfl, d, hd⟩
      exact ⟨t.ident, by rw [(node_plain h ht).2], d, (h.edges _ _ _).mp hd⟩
    · rintro ⟨x, rfl, d, hd⟩
      obtain ⟨n, hn, rfl⟩ := node_of_reached h ((Proj.edge_reached hd).imp id .inr)
      exact ⟨n, hn, by rw [(node_plain h hn).2], d, (h.edges _ _ _).mpr hd⟩
  have huse : ∀ s ∈ page, ∀ k, s.Links c!"Used by:" k ↔
      ∃ x, k = ⟨some x, x⟩ ∧ ∃ d, P.Edge conf mods scripts x s.anchor d := by
    intro s hs k
    rw [h2.used s hs]
    constructor
    · rintro ⟨t, ht, rfl, _, d, hd⟩
      exact ⟨t.ident, by rw [(node_plain h ht).2], d, (h.edges _ _ _).mp hd⟩
    · rintro ⟨x, rfl, d, hd⟩
      have hs' : P.Reached conf mods scripts (.module x) ∨ x ∈ scripts ∨ P.Outside conf mods scripts x :=
        (edge_source hd).imp id .inl
      obtain ⟨n, hn, rfl⟩ := node_of_reached h hs'
      exact ⟨n, hn, by rw [(node_plain h hn).2], (reach_iff h _).mpr hs', d, (h.edges _ _ _).mpr hd⟩
  refine ⟨page, h1, h2.sorted, hsec, fun s hs hx => ?_, fun s hs hx n hn => ?_, fun s hs hx => ?_, hdep, huse, fun s hs p hpp k hk => ?_, h2.once⟩
  · exact h2.heading s hs _ ((h.nodes _).mpr (.inr (.inl ⟨s.anchor, hx, rfl⟩))) rfl (fun d h => by (cases h))
  · have hi := of_ident hn
    have hm : n ∈ g.nodes := (h.nodes _).mpr (.inl ⟨_, .inl hx, hn⟩)
    have := h2.heading s hs n hm hi (node_plain h hm).1
    rw [this, (node_plain h hm).2, hi]
  · exact h2.heading s hs _ ((h.nodes _).mpr (.inr (.inr ⟨s.anchor, hx, rfl⟩))) rfl (fun d h => by (cases h))
  · rcases h2.labels s hs p hpp with hl | hl
    · obtain ⟨x, rfl, d, hd⟩ := (hdep s hs k).mp ⟨p, hpp, hl, hk⟩
      obtain ⟨t, ht, rfl⟩ := (hsec x).mpr ((Proj.edge_reached hd).imp id .inr)
      exact ⟨t, ht, rfl⟩
    · obtain ⟨x, rfl, d, hd⟩ := (huse s hs k).mp ⟨p, hpp, hl, hk⟩
      obtain ⟨t, ht, rfl⟩ := (hsec x).mpr ((edge_source hd).imp id .inl)
      exact ⟨t, ht, rfl⟩

end

/-- C71: as in `C67_command`, without `-f dot`.  When the names in the project have no quotes, `<` and `&`, the output
can be read, and describes the project. -/
theorem C71_command (P : Project) (table : List (Str × Implies)) (stdlib : List Str) (argv : List Arg)
    (excludes mods scripts : List Str) (hx : ∀ x, x ∈ excludes ↔ ExcludedBy stdlib argv x)
    (hA : Asked argv mods scripts) (hfm : ∀ f ∈ formats argv, f = c!"html" ∨ f = c!"dot")
    (hdot : (formats argv).getLast? ≠ some c!"dot")
    (hC : P.Clear (configured excludes table) mods scripts)
    (dom : List Str) (hdom : ∀ x, P.item x ≠ none → x ∈ dom)
    (hp : ∀ x, P.Reached (configured excludes table) mods scripts (.module x) ∨ x ∈ scripts ∨
      P.Outside (configured excludes table) mods scripts x → Html.Plain x)
    (sp : SysPath W) (hsp : SysPathOk sp) (w : W) (J : W → Prop) (hw : J w)
    (hJ : ∀ r l v, J v → J (sp.assign r l v)) (hJ' : ∀ v, J v → J (sp.invalidate v))
    (env : Env W) (L : Loaders W) (T : Texts W)
    (hS : P.Shows (fun v => J v ∧ sp.path v = paths argv ++ sp.path w) env L T) (hl : L.order.Ok)
    (ht : T.order.Ok) (k : Nat) (hO : env.OrderExact)
    (o : Output W) (f : Files W) (hf : OutputOk o f) (hwr : Writable o f (outputs argv).getLast?)
    (iter : St W → Iter) (hi : ObjectGraphOk iter) :
    ∃ N, ∀ n, N ≤ n → ∃ w1 w' doc page,
      main o sp ((env.withLoaders L (k + 1)).withTexts T) n table stdlib iter argv w = (.returned, w') ∧
      J w1 ∧ sp.path w1 = sp.path w ∧ WrittenTo f (outputs argv).getLast? doc w1 w' ∧
      Html.read doc = some page ∧ P.Page (configured excludes table) mods scripts page := by
  obtain ⟨N, h⟩ := C67_command P table stdlib argv excludes mods scripts hx hA hfm hC dom hdom sp hsp w J hw hJ hJ' env L
    T hS hl ht k hO o f hf hwr iter hi
  refine ⟨N, fun n hn => ?_⟩
  obtain ⟨w1, w', g, doc, h1, h2, h3, h4, h5, h6⟩ := h n hn
  rw [if_neg hdot] at h3
  obtain ⟨page, h7, h8⟩ := C71_page h2 h3 hp
  exact ⟨w1, w', doc, page, h1, h4, h5, h6, h7, h8⟩

end Verif.Props
