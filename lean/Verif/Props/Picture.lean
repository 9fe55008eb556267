import Verif.Spec.PictureSpec
import Verif.Props.Command
import Verif.Props.DotRead
/-!
# C69: the picture of a project
-/
namespace Verif.Props
open Verif M Spec Proj Dot
variable {W : Type}

section
variable {P : Project} {conf : Str → Option Implies} {mods scripts : List Str} {g : View}

/-- What is reached in the project is reachable in its graph. -/
theorem reach_of_reached (h : P.GraphOf conf mods scripts g) {pl} (hr : P.Reached conf mods scripts pl) :
    match pl with
    | .module x => Reach g x
    | .text x _ _ => Reach g x := by
  induction hr with
  | asked hx => exact .root ((h.roots _).mpr (.inl hx))
  | package hx hp ih => exact .step ih ((h.edges _ _ _).mpr (.package hx hp))
  | along hx ha ih => exact .step ih ((h.edges _ _ _).mpr (.along hx ha))
  | implied hx hi hr ih => exact .step ih ((h.edges _ _ _).mpr (.implied hx hi hr))
  | text _ _ ih => exact ih
  | script hx _ => exact .root ((h.roots _).mpr (.inr hx))
  | imports hx hi ih =>
    obtain ⟨d, hd⟩ := edgeSays_exists _ _ _
    exact .step ih ((h.edges _ _ _).mpr (.imports hx hi hd))
  | froms hx hi ih =>
    obtain ⟨d, hd⟩ := edgeSays_exists _ _ _
    exact .step ih ((h.edges _ _ _).mpr (.froms hx hi hd))
  | names hx hf hs hp hn hne hsub ih =>
    obtain ⟨d, hd⟩ := edgeSays_exists _ _ _
    exact .step ih ((h.edges _ _ _).mpr (.names hx hf hs hp hn hne hsub hd))

theorem text_source {x pkg tree} (h : P.Reached conf mods scripts (.text x pkg tree)) :
    P.Reached conf mods scripts (.module x) ∨ x ∈ scripts := by
  cases h with
  | text h => exact .inl h
  | script h => exact .inr h

theorem edge_source {a b d} (h : P.Edge conf mods scripts a b d) :
    P.Reached conf mods scripts (.module a) ∨ a ∈ scripts := by
  cases h with
  | imports hx => exact text_source hx
  | froms hx => exact text_source hx
  | outside hx => exact text_source hx
  | names hx => exact text_source hx
  | package hx => exact .inl hx
  | along hx => exact .inl hx
  | implied hx => exact .inl hx
  | passedOn hx => exact text_source hx

theorem reach_iff (h : P.GraphOf conf mods scripts g) (x : Str) :
    Reach g x ↔ P.Reached conf mods scripts (.module x) ∨ x ∈ scripts ∨ P.Outside conf mods scripts x := by
  constructor
  · intro hr
    cases hr with
    | root hx =>
      rcases (h.roots _).mp hx with hx | hx
      · exact .inl (.asked hx)
      · exact .inr (.inl hx)
    | step _ he => exact (Proj.edge_reached ((h.edges _ _ _).mp he)).imp id .inr
  · rintro (hx | hx | ⟨y, pkg, tree, way, names, hx, ho⟩)
    · exact reach_of_reached h hx
    · exact .root ((h.roots _).mpr (.inr hx))
    · obtain ⟨d, hd⟩ := edgeSays_exists way false none
      exact .step (reach_of_reached h hx) ((h.edges _ _ _).mpr (.outside hx ho hd))

theorem node_of_reached (h : P.GraphOf conf mods scripts g) {x}
    (hx : P.Reached conf mods scripts (.module x) ∨ x ∈ scripts ∨ P.Outside conf mods scripts x) :
    ∃ n ∈ g.nodes, n.ident = x := by
  rcases hx with hx | hx | hx
  · obtain ⟨n, hn⟩ := of_exists (P := P) (conf := conf) x
    exact ⟨n, (h.nodes _).mpr (.inl ⟨x, .inl hx, hn⟩), of_ident hn⟩
  · exact ⟨_, (h.nodes _).mpr (.inr (.inl ⟨x, hx, rfl⟩)), rfl⟩
  · exact ⟨_, (h.nodes _).mpr (.inr (.inr ⟨x, hx, rfl⟩)), rfl⟩

theorem outside_head {x} (h : P.Outside conf mods scripts x) : x.head? = some '.' := by
  obtain ⟨_, _, _, _, _, _, name, level, _, hl, rfl⟩ := h
  have := hl.1
  match level, this with
  | n + 1, _ => rfl

theorem dist_of_node {x n d} (h : P.NodeOf conf x n) (hd : n.distribution = some d) :
    n.isBaseNode = true ∧ ∃ file, P.dist file = some d := by
  rcases shape h with rfl | rfl | ⟨t, rfl⟩ | ⟨t, rfl⟩ | rfl
  · revert hd
    simp only [Project.node]
    split <;> intro hd <;> first
      | exact ⟨rfl, _, hd⟩
      | (cases hd; done)
      | (have hd' := Option.bind_eq_some_iff.mp hd; exact ⟨rfl, _, hd'.choose_spec.2⟩)
  all_goals exact absurd hd (by simp)

/-- C69: a Graphviz document for the graph of a project can be read, and is a picture of the project: its nodes are
the scripts, the modules that are reached and the names with too many dots, its edges are the imports. -/
theorem C69_picture (hC : P.Clear conf mods scripts) (h : P.GraphOf conf mods scripts g) {doc : Str} (hdoc : Document .graphviz g doc)
    (hp : ∀ x, P.Reached conf mods scripts (.module x) ∨ x ∈ scripts ∨ P.Outside conf mods scripts x → Plain x)
    (hd : ∀ file d, P.dist file = some d → Plain d.name) :
    ∃ D, Dot.read doc = some D ∧ P.Picture conf mods scripts D := by
  have hdist : ∀ n ∈ g.nodes, ∀ d, n.distribution = some d → (∃ x,
      (P.Reached conf mods scripts (.module x) ∨ P.Tried conf mods scripts x) ∧ P.NodeOf conf x n) ∧
      n.isBaseNode = true ∧ ∃ file, P.dist file = some d := by
    intro n hn d hd
    rcases (h.nodes _).mp hn with ⟨x, hr, hx⟩ | ⟨x, _, rfl⟩ | ⟨x, _, rfl⟩
    · exact ⟨⟨x, hr, hx⟩, dist_of_node hx hd⟩
    · exact absurd hd (by simp)
    · exact absurd hd (by simp)
  obtain ⟨D, h1, h2⟩ := C68_read hdoc (fun n _ hr => hp _ ((reach_iff h _).mp hr)) fun n hn _ d hd' => by
    obtain ⟨_, _, file, hf⟩ := hdist n hn d hd'
    exact hd _ _ hf
  have hin : ∀ x n, P.Reached conf mods scripts (.module x) → P.NodeOf conf x n → n ∈ g.nodes ∧ n.ident = x ∧
      Reach g n.ident := fun x n hx hn => by
    have := of_ident hn
    exact ⟨(h.nodes _).mpr (.inl ⟨x, .inl hx, hn⟩), this, by rw [this]; exact (reach_iff h _).mpr (.inl hx)⟩
  refine ⟨D, h1, ⟨fun x => ?_, fun x hx => ?_, fun x hx s => ?_, fun x n hx hn s => ?_, fun x n hx hn => ?_,
    fun x hx s => ?_, fun a b => ?_, h2.once, fun a b as he => ?_, fun l x => ?_⟩⟩
  · rw [h2.nodes, reach_iff h]
    exact ⟨fun h => h.1, fun hx => ⟨hx, node_of_reached h hx⟩⟩
  · obtain ⟨hr, n, hn, rfl⟩ := (h2.nodes x).mp hx
    rw [h2.root n hn hr, h.roots]
  · have hn := (h.nodes _).mpr (.inr (.inl ⟨x, hx, rfl⟩))
    rw [h2.shape _ hn ((reach_iff h _).mpr (.inr (.inl hx)))]
    simp [shapeOf, eq_comm]
  · obtain ⟨hm, rfl, hr⟩ := hin x n hx hn
    exact h2.shape n hm hr s
  · obtain ⟨hm, rfl, hr⟩ := hin x n hx hn
    rw [h2.color n hm hr]
    cases n with | mk i k => cases k <;> simp [Node.isMissing]
  · have hn := (h.nodes _).mpr (.inr (.inr ⟨x, hx, rfl⟩))
    have hr := (reach_iff h _).mpr (.inr (.inr hx))
    constructor
    · intro ha
      cases (h2.shape _ hn hr s).mp ha
    · intro ha
      cases ((h2.color _ hn hr s).mp ha).1
  · rw [h2.edges]
    constructor
    · rintro ⟨_, ⟨d, hd⟩, _⟩
      exact ⟨d, (h.edges _ _ _).mp hd⟩
    · rintro ⟨d, hd⟩
      have hs : P.Reached conf mods scripts (.module a) ∨ a ∈ scripts ∨ P.Outside conf mods scripts a :=
        (edge_source hd).imp id .inl
      exact ⟨(reach_iff h _).mpr hs, ⟨d, (h.edges _ _ _).mpr hd⟩, node_of_reached h hs,
        node_of_reached h ((Proj.edge_reached hd).imp id .inr)⟩
  · rw [h2.dashed a b as he]
    exact ⟨fun hx d hd => hx d ((h.edges _ _ _).mpr hd), fun hx d hd => hx d ((h.edges _ _ _).mp hd)⟩
  · rw [h2.clusters]
    constructor
    · rintro ⟨n, hn, rfl, hr, _, d, hd, hl⟩
      obtain ⟨⟨y, hrt, hy⟩, _⟩ := hdist n hn d hd
      have hny := of_ident hy
      subst hny
      rcases (reach_iff h _).mp hr with hr' | hs | ho
      rotate_left 2
      · exact absurd (outside_head ho) (proper_head (rt_proper hC hrt))
      · exact ⟨hr', n, hy, d, hd, hl⟩
      · exact absurd (hC.script _ hs).2.1 (proper_slash (rt_proper hC hrt))
    · rintro ⟨hx, n, hn, d, hd, hl⟩
      have hb := (dist_of_node hn hd).1
      obtain ⟨hm, rfl, hr⟩ := hin x n hx hn
      exact ⟨n, hm, rfl, hr, fun e he => by simp [Node.isBaseNode, he] at hb, d, hd, hl⟩

end

/-- C69: as in `C67_command`, with `-f dot`.  When the names in the project have no quotes, newlines and final
backslashes, the output can be read, and is a picture of the project. -/
theorem C69_command (P : Project) (table : List (Str × Implies)) (stdlib : List Str) (argv : List Arg)
    (excludes mods scripts : List Str) (hx : ∀ x, x ∈ excludes ↔ ExcludedBy stdlib argv x)
    (hA : Asked argv mods scripts) (hfm : ∀ f ∈ formats argv, f = c!"html" ∨ f = c!"dot")
    (hdot : (formats argv).getLast? = some c!"dot")
    (hC : P.Clear (configured excludes table) mods scripts)
    (dom : List Str) (hdom : ∀ x, P.item x ≠ none → x ∈ dom)
    (hp : ∀ x, P.Reached (configured excludes table) mods scripts (.module x) ∨ x ∈ scripts ∨
      P.Outside (configured excludes table) mods scripts x → Plain x)
    (hd : ∀ file d, P.dist file = some d → Plain d.name)
    (sp : SysPath W) (hsp : SysPathOk sp) (w : W) (J : W → Prop) (hw : J w)
    (hJ : ∀ r l v, J v → J (sp.assign r l v)) (hJ' : ∀ v, J v → J (sp.invalidate v))
    (env : Env W) (L : Loaders W) (T : Texts W)
    (hS : P.Shows (fun v => J v ∧ sp.path v = paths argv ++ sp.path w) env L T) (hl : L.order.Ok)
    (ht : T.order.Ok) (k : Nat) (hO : env.OrderExact)
    (o : Output W) (f : Files W) (hf : OutputOk o f) (hwr : Writable o f (outputs argv).getLast?)
    (iter : St W → Iter) (hi : ObjectGraphOk iter) :
    ∃ N, ∀ n, N ≤ n → ∃ w1 w' doc D,
      main o sp ((env.withLoaders L (k + 1)).withTexts T) n table stdlib iter argv w = (.returned, w') ∧
      J w1 ∧ sp.path w1 = sp.path w ∧ WrittenTo f (outputs argv).getLast? doc w1 w' ∧
      Dot.read doc = some D ∧ P.Picture (configured excludes table) mods scripts D := by
  obtain ⟨N, h⟩ := C67_command P table stdlib argv excludes mods scripts hx hA hfm hC dom hdom sp hsp w J hw hJ hJ' env L
    T hS hl ht k hO o f hf hwr iter hi
  refine ⟨N, fun n hn => ?_⟩
  obtain ⟨w1, w', g, doc, h1, h2, h3, h4, h5, h6⟩ := h n hn
  rw [if_pos hdot] at h3
  obtain ⟨D, h7, h8⟩ := C69_picture hC h2 h3 hp hd
  exact ⟨w1, w', doc, D, h1, h4, h5, h6, h7, h8⟩

end Verif.Props
