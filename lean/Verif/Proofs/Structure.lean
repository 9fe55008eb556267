import Verif.Proofs.Closure
import Verif.Spec.GraphSpec
/-! # Invariants of the graph structure -/
namespace Verif
open Spec
variable {W : Type}

theorem has_iff (s : St W) (a : Str) : s.has a = true ↔ HasNode (view s) a := by
  simp [St.has, HasNode, view]

theorem view_schedule (s : St W) (n i) : view (s.schedule n i) = view s := by
  unfold St.schedule view; simp only []; split <;> rfl

theorem view_imply (s : St W) (p) : view (addImply s p) = view s := by
  unfold addImply; split <;> rfl

theorem log_imply (s : St W) (p) : (addImply s p).log = s.log := by
  unfold addImply; split <;> rfl

theorem log_schedule (s : St W) (n i) :
    (s.schedule n i).log = s.log ++ [.scheduled n.ident i] := by
  unfold St.schedule; simp only []; split <;> rfl

theorem log_addEdge (s : St W) (a b d) : (s.addEdge a b d).log = s.log := by
  unfold St.addEdge; split <;> rfl

theorem log_addRoot (s : St W) (a) : (s.addRoot a).log = s.log := by
  unfold St.addRoot; split <;> rfl

theorem seenViews_append (l l' : List Event) : seenViews (l ++ l') = seenViews l ++ seenViews l' := by
  simp [seenViews]

theorem view_addEdge (s : St W) (a b d) : view (s.addEdge a b d) =
    if (a, b, d) ∈ s.edges then view s else ⟨s.nodes, s.edges ++ [(a, b, d)], s.roots⟩ := by
  unfold St.addEdge; split <;> rfl

theorem view_addRoot (s : St W) (a) : view (s.addRoot a) =
    if a ∈ s.roots then view s else ⟨s.nodes, s.edges, s.roots ++ [a]⟩ := by
  unfold St.addRoot; split <;> rfl

/-- Closure for invariants of the visible graph together with the graphs seen so far. -/
theorem viewClosed {P : View → List View → Prop}
    (hNode : ∀ g l n, P g l → ¬ HasNode g n.ident → P ⟨g.nodes ++ [n], g.edges, g.roots⟩ l)
    (hEdge : ∀ g l a b d, P g l → HasNode g a → HasNode g b →
      P ⟨g.nodes, g.edges ++ [(a, b, d)], g.roots⟩ l)
    (hRoot : ∀ g l a, P g l → HasNode g a → P ⟨g.nodes, g.edges, g.roots ++ [a]⟩ l)
    (hLook : ∀ g l, P g l → P g (l ++ [g])) :
    SimplyClosed (fun s : St W => P (view s) (seenViews s.log)) where
  world _ h := h
  addNode n h hn := hNode _ _ n h (by rw [← has_iff]; simp [hn])
  addEdge a b d h ha hb := by
    show P _ _
    rw [log_addEdge, view_addEdge]
    split
    · exact h
    · exact hEdge _ _ a b d h ((has_iff _ _).mp ha) ((has_iff _ _).mp hb)
  addRoot a h ha := by
    show P _ _
    rw [log_addRoot, view_addRoot]
    split
    · exact h
    · exact hRoot _ _ a h ((has_iff _ _).mp ha)
  popExcluded name h hn _ := by
    show P _ _
    rw [view_schedule, log_schedule, seenViews_append, show seenViews [_] = [] from rfl,
      List.append_nil]
    exact hNode _ _ (excludedNode name) h
      (by show ¬ HasNode _ name; rw [← has_iff]; simp [hn])
  popOther name v h _ _ _ := h
  exclude name h := h
  imply p h := by show P _ _; rw [view_imply, log_imply]; exact h
  schedule n i h := by
    show P _ _
    rw [view_schedule, log_schedule, seenViews_append, show seenViews [_] = [] from rfl,
      List.append_nil]
    exact h
  addGlobals _ _ h := h
  looked {s} h := by
    have := hLook _ _ h
    show P _ (seenViews (s.log ++ _))
    rw [seenViews_append]
    exact this
  called _ _ h := by
    show P _ (seenViews (_ ++ _))
    rw [seenViews_append, show seenViews [_] = [] from rfl, List.append_nil]; exact h
  asked _ _ _ h := by
    show P _ (seenViews (_ ++ _))
    rw [seenViews_append, show seenViews [_] = [] from rfl, List.append_nil]; exact h
  failed h := by
    show P _ (seenViews (_ ++ _))
    rw [seenViews_append, show seenViews [_] = [] from rfl, List.append_nil]; exact h
  missHook _ h := h
  postHook _ h := h
  pushPkg _ _ h := h
  pop h _ := by
    show P _ (seenViews (_ ++ _))
    rw [seenViews_append, show seenViews [_] = [] from rfl, List.append_nil]; exact h
  finishInvalid h _ _ := by
    show P _ (seenViews (_ ++ _))
    rw [seenViews_append, show seenViews [_] = [] from rfl, List.append_nil]; exact h
  finishImp _ h _ _ := by
    show P _ (seenViews (_ ++ _))
    rw [seenViews_append, show seenViews [_] = [] from rfl, List.append_nil]; exact h
  enter h := h
  exit _ h _ := h

theorem uniqueIds_iff (g : View) : UniqueIds g ↔ (g.nodes.map Node.ident).Nodup := by
  rw [List.nodup_iff_pairwise_ne, List.pairwise_map, List.pairwise_iff_getElem]
  constructor
  · intro h i j hi hj hij he
    have := h i j hi hj he
    omega
  · intro h i j hi hj he
    rcases Nat.lt_trichotomy i j with hl | hl | hl
    · exact absurd he (h i j hi hj hl)
    · exact hl
    · exact absurd he.symm (h j i hj hi hl)

theorem uniqueIds_add {g : View} {n : Node} (h : UniqueIds g) (hn : ¬ HasNode g n.ident) :
    UniqueIds ⟨g.nodes ++ [n], g.edges, g.roots⟩ := by
  rw [uniqueIds_iff] at *
  simp only [List.map_append, List.map_cons, List.map_nil]
  rw [List.nodup_append]
  refine ⟨h, by simp, ?_⟩
  intro a ha b hb hab
  simp only [List.mem_singleton] at hb
  simp only [List.mem_map] at ha
  obtain ⟨m, hm, rfl⟩ := ha
  exact hn ⟨m, hm, hab.trans hb⟩

theorem hasNode_mono {g : View} {n : Node} {a : Str} (h : HasNode g a) :
    HasNode ⟨g.nodes ++ [n], g.edges, g.roots⟩ a := by
  obtain ⟨m, hm, he⟩ := h
  exact ⟨m, by simp [hm], he⟩

theorem initState_view (w : W) (l b) : view (initState w l b) = ⟨[], [], []⟩ ∧
    (initState w l b).log = [] := by
  unfold initState
  simp only []
  have h : ∀ (l : List (Str × Implies)) (s : St W), view (l.foldl addImply s) = view s ∧
      (l.foldl addImply s).log = s.log := by
    intro l
    induction l with
    | nil => intro s; exact ⟨rfl, rfl⟩
    | cons p l ih =>
      intro s
      rw [List.foldl_cons]
      exact ⟨(ih _).1.trans (view_imply _ _), (ih _).2.trans (log_imply _ _)⟩
  split
  · exact ⟨(h l _).1, (h l _).2⟩
  · exact ⟨(h l _).1, (h l _).2⟩

/-- The structural invariants. -/
theorem structureClosed : SimplyClosed (fun s : St W =>
    (UniqueIds (view s) ∧ NoDangling (view s)) ∧
    ∀ g ∈ seenViews s.log, UniqueIds g ∧ NoDangling g) :=
  viewClosed (P := fun g l => (UniqueIds g ∧ NoDangling g) ∧ ∀ g ∈ l, UniqueIds g ∧ NoDangling g)
    (fun g l n h hn => ⟨⟨uniqueIds_add h.1.1 hn,
      ⟨fun a b d hm => ⟨hasNode_mono (h.1.2.1 a b d hm).1, hasNode_mono (h.1.2.1 a b d hm).2⟩,
       fun r hr => hasNode_mono (h.1.2.2 r hr)⟩⟩, h.2⟩)
    (fun g l a b d h ha hb => ⟨⟨h.1.1, ⟨fun a' b' d' hm => by
      rcases List.mem_append.mp hm with hm | hm
      · exact h.1.2.1 a' b' d' hm
      · simp only [List.mem_singleton, Prod.mk.injEq] at hm
        rw [hm.1, hm.2.1]; exact ⟨ha, hb⟩, h.1.2.2⟩⟩, h.2⟩)
    (fun g l a h ha => ⟨⟨h.1.1, ⟨h.1.2.1, fun r hr => by
      rcases List.mem_append.mp hr with hr | hr
      · exact h.1.2.2 r hr
      · simp only [List.mem_singleton] at hr
        rw [hr]; exact ha⟩⟩, h.2⟩)
    (fun g l h => ⟨h.1, fun g' hg => by
      rcases List.mem_append.mp hg with hg | hg
      · exact h.2 g' hg
      · simp only [List.mem_singleton] at hg
        rw [hg]; exact h.1⟩)

/-- The invariant of growth from a given graph. -/
theorem growsClosed (g0 : View) : SimplyClosed (fun s : St W =>
    Grows g0 (view s) ∧ (seenViews s.log).Pairwise Grows ∧
    ∀ g ∈ seenViews s.log, Grows g (view s)) :=
  viewClosed (P := fun g l => Grows g0 g ∧ l.Pairwise Grows ∧ ∀ g' ∈ l, Grows g' g)
    (fun g l n h _ => ⟨⟨fun m hm => by simp [h.1.nodes m hm], h.1.edges, h.1.roots⟩, h.2.1,
      fun g' hg' => ⟨fun m hm => by simp [(h.2.2 g' hg').nodes m hm], (h.2.2 g' hg').edges,
        (h.2.2 g' hg').roots⟩⟩)
    (fun g l a b d h _ _ => ⟨⟨h.1.nodes, fun m hm => List.mem_append_left _ (h.1.edges m hm),
      h.1.roots⟩, h.2.1, fun g' hg' => ⟨(h.2.2 g' hg').nodes,
        fun m hm => List.mem_append_left _ ((h.2.2 g' hg').edges m hm), (h.2.2 g' hg').roots⟩⟩)
    (fun g l a h _ => ⟨⟨h.1.nodes, h.1.edges, fun m hm => by simp [h.1.roots m hm]⟩, h.2.1,
      fun g' hg' => ⟨(h.2.2 g' hg').nodes, (h.2.2 g' hg').edges,
        fun m hm => by simp [(h.2.2 g' hg').roots m hm]⟩⟩)
    (fun g l h => ⟨h.1, by
        rw [List.pairwise_append]
        refine ⟨h.2.1, by simp, ?_⟩
        intro a ha b hb
        simp only [List.mem_singleton] at hb
        rw [hb]; exact h.2.2 a ha,
      fun g' hg => by
        rcases List.mem_append.mp hg with hg | hg
        · exact h.2.2 g' hg
        · simp only [List.mem_singleton] at hg
          rw [hg]; exact ⟨fun _ h => h, fun _ h => h, fun _ h => h⟩⟩)

theorem growsClosed1 (g0 : View) : SimplyClosed (fun s : St W => Grows g0 (view s)) :=
  viewClosed (P := fun g _ => Grows g0 g)
    (fun _ _ _ h _ => ⟨fun m hm => List.mem_append_left _ (h.nodes m hm), h.edges, h.roots⟩)
    (fun _ _ _ _ _ h _ _ => ⟨h.nodes, fun m hm => List.mem_append_left _ (h.edges m hm), h.roots⟩)
    (fun _ _ _ h _ => ⟨h.nodes, h.edges, fun m hm => List.mem_append_left _ (h.roots m hm)⟩)
    (fun _ _ h => h)

theorem prefixClosed (l0 : List Node) : SimplyClosed (fun s : St W => ∃ l, (view s).nodes = l0 ++ l) :=
  viewClosed (P := fun g _ => ∃ l, g.nodes = l0 ++ l)
    (fun g _ n h _ => by obtain ⟨l, hl⟩ := h; exact ⟨l ++ [n], by simp [hl]⟩)
    (fun _ _ _ _ _ h _ _ => h)
    (fun _ _ _ h _ => h)
    (fun _ _ h => h)

end Verif
