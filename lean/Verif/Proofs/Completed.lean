import Verif.Proofs.Drain
/-!
# Work that was started is completed

As long as no call failed, every name list and every package that was taken from the queue has been
processed completely, in some states on the way; what it did is still there at the end.
-/
namespace Verif
open M Spec
variable {W : Type}

/-- `s'` is a later state of the graph than `s`. -/
structure Grew (s s' : St W) : Prop where
  nodes : s.nodes <+: s'.nodes
  edges : ∀ e ∈ s.edges, e ∈ s'.edges
  log : s.log <+: s'.log
  gw : ∀ id, s.has id = true → ∀ x ∈ s.gw id, x ∈ s'.gw id
  roots : ∀ r ∈ s.roots, r ∈ s'.roots

theorem Grew.refl (s : St W) : Grew s s := ⟨List.prefix_rfl, fun _ h => h, List.prefix_rfl, fun _ _ _ h => h, fun _ h => h⟩

theorem Grew.has {s s' : St W} (h : Grew s s') {id} (hi : s.has id = true) : s'.has id = true := by
  simp only [St.has, List.any_eq_true] at *
  exact hi.imp fun n hn => ⟨h.nodes.subset hn.1, hn.2⟩

theorem Grew.trans {a b c : St W} (h : Grew a b) (h' : Grew b c) : Grew a c :=
  ⟨h.nodes.trans h'.nodes, fun e he => h'.edges e (h.edges e he), h.log.trans h'.log,
    fun id hi x hx => h'.gw id (h.has hi) x (h.gw id hi x hx), fun r hr => h'.roots r (h.roots r hr)⟩

theorem grew_addNode {s : St W} {n : Node} (h : s.has n.ident = false) : Grew s (s.addNode n) := by
  refine ⟨by simp [St.addNode], fun _ h => h, List.prefix_rfl, fun id hi x hx => ?_, fun _ h => h⟩
  show x ∈ if id = n.ident then _ else s.gw id
  rw [if_neg (by rintro rfl; rw [h] at hi; cases hi)]
  exact hx
theorem grew_addEdge (s : St W) (a b d) : Grew s (s.addEdge a b d) := by
  unfold St.addEdge; split
  · exact .refl s
  · exact ⟨List.prefix_rfl, fun _ h => List.mem_append_left _ h, List.prefix_rfl, fun _ _ _ h => h, fun _ h => h⟩
theorem grew_addRoot (s : St W) (a) : Grew s (s.addRoot a) := by
  unfold St.addRoot; split
  · exact .refl s
  · exact ⟨List.prefix_rfl, fun _ h => h, List.prefix_rfl, fun _ _ _ h => h, fun _ h => List.mem_append_left _ h⟩
theorem grew_schedule (s : St W) (n i) : Grew s (s.schedule n i) := by
  unfold St.schedule; simp only []; split <;>
    exact ⟨List.prefix_rfl, fun _ h => h, by simp, fun _ _ _ h => h, fun _ h => h⟩
theorem grew_addGlobals (s : St W) (a names) : Grew s (s.addGlobals a names) := by
  refine ⟨List.prefix_rfl, fun _ h => h, List.prefix_rfl, fun id _ x hx => ?_, fun _ h => h⟩
  unfold St.addGlobals
  simp only []
  split
  · exact List.mem_append_left _ hx
  · exact hx
theorem grew_event (s : St W) (e) : Grew s (s.event e) :=
  ⟨List.prefix_rfl, fun _ h => h, by simp [St.event], fun _ _ _ h => h, fun _ h => h⟩
theorem grew_excludes (s : St W) (l : List Str) : Grew s (l.foldl addExclude s) :=
  foldl_pres (P := Grew s) (f := addExclude) (fun _ _ h => ⟨h.nodes, h.edges, h.log, h.gw, h.roots⟩) l s (.refl s)
theorem grew_implies (s : St W) (l : List (Str × Implies)) : Grew s (l.foldl addImply s) := by
  refine foldl_pres (P := Grew s) (f := addImply) (fun s' a h => ?_) l s (.refl s)
  unfold addImply
  split
  · exact h
  · exact ⟨h.nodes, h.edges, h.log, h.gw, h.roots⟩

theorem NotLost.refl (s : St W) : NotLost s s := fun _ => Nat.le_refl _

theorem NotLost.trans {a b c : St W} (h : NotLost a b) (h' : NotLost b c) : NotLost a c :=
  fun f => Nat.le_trans (h f) (h' f)

/-- `s'` is a later state of the graph than `s`, and no work was forgotten. -/
structure Kept (s s' : St W) : Prop extends Grew s s' where
  lost : NotLost s s'

theorem Kept.refl (s : St W) : Kept s s := ⟨.refl s, .refl s⟩
theorem Kept.trans {a b c : St W} (h : Kept a b) (h' : Kept b c) : Kept a c :=
  ⟨h.toGrew.trans h'.toGrew, h.lost.trans h'.lost⟩

/-- Name lists, packages and post-processing. -/
def Item.isWork : Item → Bool
  | .nl .. | .pkg .. | .pp .. => true
  | _ => false

/-- `it` was processed completely, from state `s1` to state `s2`. -/
def Completed (J : St W → Prop) (R : Item → St W → St W → Prop) (it : Item) (s : St W) : Prop :=
  ∃ s1 s2, J s1 ∧ R it s1 s2 ∧ J s2 ∧ Kept s2 s

def Comp (J : St W → Prop) (R : Item → St W → St W → Prop) (β : List Busy) (s : St W) : Prop :=
  J s ∧ (Event.failed ∈ s.log ∨ ∀ it, it.isWork = true → Event.started it ∈ s.log →
    (∃ k, (it, k) ∈ β) ∨ Completed J R it s)

variable {J : St W → Prop} {R : Item → St W → St W → Prop} {β : List Busy} {s s' : St W}

theorem Completed.grew {it} (h : Completed J R it s) (hg : Kept s s') : Completed J R it s' := by
  obtain ⟨s1, s2, h1, h2, h3, h4⟩ := h
  exact ⟨s1, s2, h1, h2, h3, h4.trans hg⟩

theorem Comp.step (h : Comp J R β s) (hJ : J s') (hg : Kept s s')
    (hl : ∀ it, Event.started it ∈ s'.log → Event.started it ∈ s.log) : Comp J R β s' := by
  refine ⟨hJ, ?_⟩
  rcases h.2 with h | h
  · exact .inl (hg.log.subset h)
  · exact .inr fun it hi hs => (h it hi (hl it hs)).imp id (·.grew hg)

theorem started_event {l : List Event} {e it} (he : ∀ it, e ≠ Event.started it)
    (h : Event.started it ∈ l ++ [e]) : Event.started it ∈ l := by
  rcases List.mem_append.mp h with h | h
  · exact h
  · exact absurd (List.mem_singleton.mp h).symm (he it)

theorem started_schedule (s : St W) (n i) {it} (h : Event.started it ∈ (s.schedule n i).log) :
    Event.started it ∈ s.log := by
  rw [log_schedule] at h
  exact started_event (by simp) h

/-- The completion invariant is closed, for any closed `J`. -/
theorem compClosed (hJ : SimplyClosed J) :
    Closed (W := W) (fun _ => True) (Comp J R) (fun _ => J) (fun _ => True) R where
  aAddModule _ := trivial
  toE h := h.1
  world w h := h.step (hJ.world w h.1) ⟨⟨List.prefix_rfl, fun _ h => h, List.prefix_rfl, fun _ _ _ h => h, fun _ h => h⟩, (notLostClosed _).world w (.refl _)⟩ (fun _ h => h)
  addNode n h hn := h.step (hJ.addNode n h.1 hn) ⟨grew_addNode hn, (notLostClosed _).addNode n (.refl _) hn⟩ (fun _ h => h)
  addEdge a b d h ha hb := h.step (hJ.addEdge a b d h.1 ha hb) ⟨grew_addEdge .., (notLostClosed _).addEdge a b d (.refl _) ha hb⟩
    (fun _ h => by rw [log_addEdge] at h; exact h)
  addRoot a h ha := h.step (hJ.addRoot a h.1 ha) ⟨grew_addRoot .., (notLostClosed _).addRoot a (.refl _) ha⟩
    (fun _ h => by rw [log_addRoot] at h; exact h)
  popExcluded {β s} name h hn hl := by
    have hn' : (s.popLazy name).has (excludedNode name).ident = false := hn
    refine h.step (hJ.popExcluded name h.1 hn hl) ⟨.trans (b := s.popLazy name)
      ⟨List.prefix_rfl, fun _ h => h, List.prefix_rfl, fun _ _ _ h => h, fun _ h => h⟩
      ((grew_addNode hn').trans (grew_schedule ..)),
      (notLostClosed _).popExcluded name (.refl _) hn hl⟩ ?_
    intro it h
    exact started_schedule (s := (s.popLazy name).addNode (excludedNode name)) _ _ h
  popOther name v h hn hl hv := h.step (hJ.popOther name v h.1 hn hl hv)
    ⟨⟨List.prefix_rfl, fun _ h => h, List.prefix_rfl, fun _ _ _ h => h, fun _ h => h⟩,
      (notLostClosed _).popOther name v (.refl _) hn hl hv⟩ (fun _ h => h)
  exclude l _ h := h.step (foldl_pres (fun _ _ h' => hJ.exclude _ h') l _ h.1) ⟨grew_excludes ..,
      foldl_pres (P := NotLost _) (fun _ _ h' => (notLostClosed _).exclude _ h') l _ (.refl _)⟩
    (fun it => by
      refine foldl_pres (P := fun s' => Event.started it ∈ s'.log → _) (f := addExclude) ?_ l _ id
      exact fun _ _ h => h)
  imply l _ h := h.step (foldl_pres (fun _ _ h' => hJ.imply _ h') l _ h.1) ⟨grew_implies ..,
      foldl_pres (P := NotLost _) (fun _ _ h' => (notLostClosed _).imply _ h') l _ (.refl _)⟩
    (fun it => by
      refine foldl_pres (P := fun s' => Event.started it ∈ s'.log → _) (f := addImply) ?_ l _ id
      intro _ _ h; rw [log_imply]; exact h)
  schedule n i h := h.step (hJ.schedule n i h.1)
    ⟨grew_schedule .., (notLostClosed _).schedule n i (.refl _)⟩ (fun _ h => started_schedule _ _ _ h)
  addGlobals a l h := h.step (hJ.addGlobals a l h.1) ⟨grew_addGlobals .., (notLostClosed _).addGlobals a l (.refl _)⟩ (fun _ h => h)
  apiAddNode n _ h hn := h.step (hJ.addNode n h.1 hn) ⟨grew_addNode hn, (notLostClosed _).addNode n (.refl _) hn⟩ (fun _ h => h)
  apiAddEdge a b d _ h ha hb := h.step (hJ.addEdge a b d h.1 ha hb) ⟨grew_addEdge .., (notLostClosed _).addEdge a b d (.refl _) ha hb⟩
    (fun _ h => by rw [log_addEdge] at h; exact h)
  apiAddRoot a _ h ha := h.step (hJ.addRoot a h.1 ha) ⟨grew_addRoot .., (notLostClosed _).addRoot a (.refl _) ha⟩
    (fun _ h => by rw [log_addRoot] at h; exact h)
  apiSchedule n i _ h := h.step (hJ.schedule n i h.1)
    ⟨grew_schedule .., (notLostClosed _).schedule n i (.refl _)⟩ (fun _ h => started_schedule _ _ _ h)
  looked h := h.step (hJ.looked h.1)
    ⟨grew_event .., (notLostClosed _).looked (.refl _)⟩ (fun _ h => started_event (by simp) h)
  called {β s k} hk n h _ := by
    refine ⟨hJ.called hk n.ident h.1, ?_⟩
    rcases h.2 with h | h
    · exact .inl ((grew_event s (.called hk n.ident)).log.subset h)
    · refine .inr fun it hi hs => ?_
      rcases h it hi (started_event (by simp) hs) with ⟨j, hm⟩ | h
      · rcases List.mem_cons.mp hm with hm | hm
        · cases hm; exact .inl ⟨k + 1, List.mem_cons_self ..⟩
        · exact .inl ⟨j, List.mem_cons_of_mem _ hm⟩
      · exact .inr (h.grew ⟨grew_event .., (notLostClosed _).called hk n.ident (.refl _)⟩)
  asked hk n i h := h.step (hJ.asked hk n i h.1)
    ⟨grew_event .., (notLostClosed _).asked hk n i (.refl _)⟩ (fun _ h => started_event (by simp) h)
  failed h := ⟨hJ.failed h, .inl (by simp [St.event])⟩
  missHook hk _ h := h.step (hJ.missHook hk h.1)
    ⟨⟨List.prefix_rfl, fun _ h => h, List.prefix_rfl, fun _ _ _ h => h, fun _ h => h⟩, (notLostClosed _).missHook hk (.refl _)⟩ (fun _ h => h)
  postHook hk _ h := h.step (hJ.postHook hk h.1)
    ⟨⟨List.prefix_rfl, fun _ h => h, List.prefix_rfl, fun _ _ _ h => h, fun _ h => h⟩, (notLostClosed _).postHook hk (.refl _)⟩ (fun _ h => h)
  pushPkg n name h := h.step (hJ.pushPkg n name h.1)
    ⟨⟨List.prefix_rfl, fun _ h => h, List.prefix_rfl, fun _ _ _ h => h, fun _ h => h⟩, (notLostClosed _).pushPkg n name (.refl _)⟩ (fun _ h => h)
  pop {β s st it} _ h hst := by
    have hg : Kept s { s with stack := st, log := s.log ++ [.started it] } :=
      ⟨⟨List.prefix_rfl, fun _ h => h, by simp, fun _ _ _ h => h, fun _ h => h⟩, (notLostClosed _).pop (.refl _) hst⟩
    refine ⟨hJ.pop h.1 hst, ?_⟩
    rcases h.2 with h | h
    · exact .inl (hg.log.subset h)
    · refine .inr fun it' hi hs => ?_
      rcases List.mem_append.mp hs with hs | hs
      · rcases h it' hi hs with ⟨k, hk⟩ | h
        · exact .inl ⟨k, List.mem_cons_of_mem _ hk⟩
        · exact .inr (h.grew hg)
      · simp at hs; subst hs
        exact .inl ⟨0, List.mem_cons_self ..⟩
  okPp h := h
  okPkg h := h
  finishPp {β s1 s n k} h0 hr h _ := by
    refine ⟨h.1, ?_⟩
    rcases h.2 with h' | h'
    · exact .inl h'
    · refine .inr fun it hi hs => ?_
      rcases h' it hi hs with ⟨j, hm⟩ | h'
      · rcases List.mem_cons.mp hm with hm | hm
        · cases hm
          exact .inr ⟨s1, s, h0.1, hr, h.1, .refl s⟩
        · exact .inl ⟨j, hm⟩
      · exact .inr h'
  finishPkg {β s1 s n name k} h0 hr h := by
    refine ⟨h.1, ?_⟩
    rcases h.2 with h' | h'
    · exact .inl h'
    · refine .inr fun it hi hs => ?_
      rcases h' it hi hs with ⟨j, hm⟩ | h'
      · rcases List.mem_cons.mp hm with hm | hm
        · cases hm
          exact .inr ⟨s1, s, h0.1, hr, h.1, .refl s⟩
        · exact .inl ⟨j, hm⟩
      · exact .inr h'
  finishNl {β s1 s a b i k} h0 hr h := by
    refine ⟨h.1, ?_⟩
    rcases h.2 with h' | h'
    · exact .inl h'
    · refine .inr fun it hi hs => ?_
      rcases h' it hi hs with ⟨j, hm⟩ | h'
      · rcases List.mem_cons.mp hm with hm | hm
        · cases hm
          exact .inr ⟨s1, s, h0.1, hr, h.1, .refl s⟩
        · exact .inl ⟨j, hm⟩
      · exact .inr h'
  finishInvalid {β s n i t k} h ha he _ := by
    refine ⟨hJ.finishInvalid h.1 ha he, ?_⟩
    rcases h.2 with h | h
    · exact .inl ((grew_event s _).log.subset h)
    · refine .inr fun it hi hs => ?_
      rcases h it hi (started_event (by simp) hs) with ⟨j, hm⟩ | h
      · rcases List.mem_cons.mp hm with hm | hm
        · cases hm; cases hi
        · exact .inl ⟨j, hm⟩
      · exact .inr (h.grew ⟨grew_event .., (notLostClosed _).finishInvalid (.refl _) ha he⟩)
  finishImp {β s n i t name k} offset h ha he _ := by
    have hg : Kept s { s with stack := s.stack.take offset ++ [.nl n t i] ++ s.stack.drop offset,
                              log := s.log ++ [.imported n.ident i t.ident] } :=
      ⟨⟨List.prefix_rfl, fun _ h => h, by simp, fun _ _ _ h => h, fun _ h => h⟩,
        (notLostClosed _).finishImp offset (.refl _) ha he⟩
    refine ⟨hJ.finishImp offset h.1 ha he, ?_⟩
    rcases h.2 with h | h
    · exact .inl (hg.log.subset h)
    · refine .inr fun it hi hs => ?_
      rcases h it hi (started_event (by simp) hs) with ⟨j, hm⟩ | h
      · rcases List.mem_cons.mp hm with hm | hm
        · cases hm; cases hi
        · exact .inl ⟨j, hm⟩
      · exact .inr (h.grew hg)
  errItem h := h
  enter _ h := h.step (hJ.enter h.1)
    ⟨⟨List.prefix_rfl, fun _ h => h, List.prefix_rfl, fun _ _ _ h => h, fun _ h => h⟩, (notLostClosed _).enter (.refl _)⟩ (fun _ h => h)
  exit _ h0 h he := h.step (hJ.exit h0.1 h.1 he)
    ⟨⟨List.prefix_rfl, fun _ h => h, List.prefix_rfl, fun _ _ _ h => h, fun _ h => h⟩, 
      (NotLost.refl _).same (by simp [pending, he]) (.inl rfl)⟩ (fun _ h => h)
  exitE _ h0 h he := hJ.exit h0.1 h he

/-- A name list waits or was started. -/
def NlSeen (s : St W) (a b : Node) (i : ImportInfo) : Prop :=
  Item.nl a b i ∈ pending s ∨ Event.started (.nl a b i) ∈ s.log

/-- What is known about name lists: they belong to edges. -/
structure NlKnown (s : St W) : Prop where
  uniq : UniqueIds (view s)
  dangling : NoDangling (view s)
  edge : ∀ a b i, NlSeen s a b i → ∃ d, (a.ident, b.ident, d) ∈ s.edges

/-- The part of `NlKnown` besides the structure of the graph. -/
def NlRest (s : St W) : Prop := ∀ a b i, NlSeen s a b i → ∃ d, (a.ident, b.ident, d) ∈ s.edges

theorem NlRest.step (h : NlRest s) (hs : ∀ a b i, NlSeen s' a b i → NlSeen s a b i)
    (he : ∀ e ∈ s.edges, e ∈ s'.edges) : NlRest s' :=
  fun a b i hn => (h a b i (hs a b i hn)).imp fun _ hd => he _ hd

theorem NlRest.same (h : NlRest s) (hp : pending s' = pending s) (hl : s'.log = s.log)
    (he : ∀ e ∈ s.edges, e ∈ s'.edges) : NlRest s' :=
  h.step (by simp [NlSeen, hp, hl]) he

theorem NlRest.event (h : NlRest s) (e) (h1 : ∀ it, e ≠ .started it) : NlRest (s.event e) :=
  h.step (s' := s.event e) (fun a b i hb => by
      have := h1 (.nl a b i)
      simpa [NlSeen, St.event, pending, this.symm] using hb) (fun _ h => h)

theorem edges_schedule (s : St W) (n i) : (s.schedule n i).edges = s.edges := by
  unfold St.schedule; simp only []; split <;> rfl

theorem NlRest.schedule (h : NlRest s) (n i) : NlRest (s.schedule n i) := by
  refine h.step (fun a b j hb => ?_) (fun e he => by rw [edges_schedule]; exact he)
  unfold NlSeen at *
  rw [schedule_pending, log_schedule] at hb
  have : Item.nl a b j ∉ (if n.ident ∈ s.seen then [] else [.pp n]) := by split <;> simp
  simpa [this] using hb

theorem nlRestClosed : SimplyClosed (NlRest (W := W)) where
  world _ h := h.same rfl rfl (fun _ h => h)
  addNode _ h _ := h.same rfl rfl (fun _ h => h)
  addEdge _ _ _ h _ _ := h.same (by unfold St.addEdge; split <;> rfl) (log_addEdge ..)
    (grew_addEdge ..).edges
  addRoot _ h _ := h.same (by unfold St.addRoot; split <;> rfl) (log_addRoot ..) (grew_addRoot ..).edges
  popExcluded {s} name h _ _ := NlRest.schedule
    (h.same (s' := (s.popLazy name).addNode (excludedNode name)) rfl rfl (fun _ h => h)) _ _
  popOther _ _ h _ _ _ := h.same rfl rfl (fun _ h => h)
  exclude _ h := h.same rfl rfl (fun _ h => h)
  imply _ h := by unfold addImply; split
                  · exact h
                  · exact h.same rfl rfl (fun _ h => h)
  schedule n i h := h.schedule n i
  addGlobals _ _ h := h.same rfl rfl (fun _ h => h)
  looked h := h.event _ (by simp)
  called _ _ h := h.event _ (by simp)
  asked _ _ _ h := h.event _ (by simp)
  failed h := h.event _ (by simp)
  missHook _ h := h.same rfl rfl (fun _ h => h)
  postHook _ h := h.same rfl rfl (fun _ h => h)
  pushPkg n name h := h.step (fun a b i hb => by simpa [NlSeen, pending] using hb) (fun _ h => h)
  pop {s st it} h hst := h.step (fun a b i hb => by
      simp only [NlSeen, pending, hst, List.mem_append, List.mem_singleton, Event.started.injEq] at *
      grind) (fun _ h => h)
  finishInvalid {s n i t} h ha he := h.event _ (by simp)
  finishImp {s n i t name} offset h ha he := by
    intro a b j hb
    have hx : Item.nl a b j ∈ s.stack ↔
        Item.nl a b j ∈ s.stack.take offset ++ s.stack.drop offset := by
      rw [List.take_append_drop]
    have : NlSeen s a b j ∨ Item.nl a b j = .nl n t i := by
      simp only [NlSeen, pending, List.mem_append (s := s.hidden), hx] at hb ⊢
      simp only [List.mem_append, List.mem_singleton, reduceCtorEq, or_false] at hb ⊢
      grind
    rcases this with hn | hn
    · exact h a b j hn
    · cases hn; exact ⟨_, he⟩
  enter h := h.same (by simp [pending]) rfl (fun _ h => h)
  exit _ h he := h.same (by simp [pending, he]) rfl (fun _ h => h)

theorem SimplyClosed.and {I I' : St W → Prop} (h : SimplyClosed I) (h' : SimplyClosed I') :
    SimplyClosed (fun s => I s ∧ I' s) where
  world w hs := ⟨h.world w hs.1, h'.world w hs.2⟩
  addNode n hs hn := ⟨h.addNode n hs.1 hn, h'.addNode n hs.2 hn⟩
  addEdge a b d hs ha hb := ⟨h.addEdge a b d hs.1 ha hb, h'.addEdge a b d hs.2 ha hb⟩
  addRoot a hs ha := ⟨h.addRoot a hs.1 ha, h'.addRoot a hs.2 ha⟩
  popExcluded n hs h1 h2 := ⟨h.popExcluded n hs.1 h1 h2, h'.popExcluded n hs.2 h1 h2⟩
  popOther n v hs h1 h2 h3 := ⟨h.popOther n v hs.1 h1 h2 h3, h'.popOther n v hs.2 h1 h2 h3⟩
  exclude n hs := ⟨h.exclude n hs.1, h'.exclude n hs.2⟩
  imply p hs := ⟨h.imply p hs.1, h'.imply p hs.2⟩
  schedule n i hs := ⟨h.schedule n i hs.1, h'.schedule n i hs.2⟩
  addGlobals a l hs := ⟨h.addGlobals a l hs.1, h'.addGlobals a l hs.2⟩
  looked hs := ⟨h.looked hs.1, h'.looked hs.2⟩
  called k n hs := ⟨h.called k n hs.1, h'.called k n hs.2⟩
  asked k n i hs := ⟨h.asked k n i hs.1, h'.asked k n i hs.2⟩
  failed hs := ⟨h.failed hs.1, h'.failed hs.2⟩
  missHook k hs := ⟨h.missHook k hs.1, h'.missHook k hs.2⟩
  postHook k hs := ⟨h.postHook k hs.1, h'.postHook k hs.2⟩
  pushPkg n a hs := ⟨h.pushPkg n a hs.1, h'.pushPkg n a hs.2⟩
  pop hs h1 := ⟨h.pop hs.1 h1, h'.pop hs.2 h1⟩
  finishInvalid hs h1 h2 := ⟨h.finishInvalid hs.1 h1 h2, h'.finishInvalid hs.2 h1 h2⟩
  finishImp o hs h1 h2 := ⟨h.finishImp o hs.1 h1 h2, h'.finishImp o hs.2 h1 h2⟩
  enter hs := ⟨h.enter hs.1, h'.enter hs.2⟩
  exit h0 hs h1 := ⟨h.exit h0.1 hs.1 h1, h'.exit h0.2 hs.2 h1⟩

theorem grewClosed (s0 : St W) : SimplyClosed (Grew s0) where
  world _ h := h.trans ⟨List.prefix_rfl, fun _ h => h, List.prefix_rfl, fun _ _ _ h => h, fun _ h => h⟩
  addNode _ h hn := h.trans (grew_addNode hn)
  addEdge _ _ _ h _ _ := h.trans (grew_addEdge ..)
  addRoot _ h _ := h.trans (grew_addRoot ..)
  popExcluded {s} name h hn _ := by
    have hn' : (s.popLazy name).has (excludedNode name).ident = false := hn
    exact h.trans (.trans (b := s.popLazy name)
      ⟨List.prefix_rfl, fun _ h => h, List.prefix_rfl, fun _ _ _ h => h, fun _ h => h⟩
      ((grew_addNode hn').trans (grew_schedule ..)))
  popOther _ _ h _ _ _ := h.trans ⟨List.prefix_rfl, fun _ h => h, List.prefix_rfl, fun _ _ _ h => h, fun _ h => h⟩
  exclude name h := h.trans (grew_excludes _ [name])
  imply p h := h.trans (grew_implies _ [p])
  schedule _ _ h := h.trans (grew_schedule ..)
  addGlobals _ _ h := h.trans (grew_addGlobals ..)
  looked h := h.trans (grew_event ..)
  called _ _ h := h.trans (grew_event ..)
  asked _ _ _ h := h.trans (grew_event ..)
  failed h := h.trans (grew_event ..)
  missHook _ h := h.trans ⟨List.prefix_rfl, fun _ h => h, List.prefix_rfl, fun _ _ _ h => h, fun _ h => h⟩
  postHook _ h := h.trans ⟨List.prefix_rfl, fun _ h => h, List.prefix_rfl, fun _ _ _ h => h, fun _ h => h⟩
  pushPkg _ _ h := h.trans ⟨List.prefix_rfl, fun _ h => h, List.prefix_rfl, fun _ _ _ h => h, fun _ h => h⟩
  pop h _ := h.trans ⟨List.prefix_rfl, fun _ h => h, by simp, fun _ _ _ h => h, fun _ h => h⟩
  finishInvalid h _ _ := h.trans (grew_event ..)
  finishImp _ h _ _ := h.trans ⟨List.prefix_rfl, fun _ h => h, by simp, fun _ _ _ h => h, fun _ h => h⟩
  enter h := h.trans ⟨List.prefix_rfl, fun _ h => h, List.prefix_rfl, fun _ _ _ h => h, fun _ h => h⟩
  exit _ h _ := h.trans ⟨List.prefix_rfl, fun _ h => h, List.prefix_rfl, fun _ _ _ h => h, fun _ h => h⟩

theorem runItem_grew (env : Env W) (n : Nat) {it : Item} (hi : it.isWork = true) {s s' : St W} {r}
    (h : runItem env (calls env n) it s = (r, s')) : Grew s s' := by
  have hG := (grewClosed s).good env n
  cases it with
  | pp m =>
    have := (hG.callPost 0 m [] s trivial (.refl s) fun _ _ _ h _ => h).2
    rw [show (calls env n).callPost 0 m s = runItem env (calls env n) (.pp m) s from rfl, h] at this
    cases r <;> exact this
  | imp n i => cases hi
  | nl a b i =>
    have := (processNamelist_pres (grewClosed s).closed (env := env) hG a b i [] s (.refl s)).2
    change Grew s (runItem env (calls env n) (.nl a b i) s).2 at this
    rw [h] at this; exact this
  | pkg m name =>
    have := hG.importPackage m name [] trivial s (.refl s)
    change (M.bind ((calls env n).importPackage m name) fun _ => M.pure ()) s = _ at h
    unfold M.bind at h
    cases hq : (calls env n).importPackage m name s with
    | mk r1 s1 =>
      rw [hq] at h this
      have hg : Grew s s1 := by
        unfold Out at this
        cases r1 <;> exact this.2
      cases r1 <;> (cases h; exact hg)

/-- A completed work item. -/
def RanG (env : Env W) (it : Item) (s s' : St W) : Prop :=
  Ran env it s s' ∧ (it.isWork = true → Grew s s')

theorem nlKnownClosed : SimplyClosed (NlKnown (W := W)) := by
  have he : (NlKnown (W := W)) = fun s => (((UniqueIds (view s) ∧ NoDangling (view s)) ∧
      True) ∧ NlRest s) := by
    funext s
    exact propext ⟨fun h => ⟨⟨⟨h.uniq, h.dangling⟩, trivial⟩, h.edge⟩,
      fun h => ⟨h.1.1.1, h.1.1.2, h.2⟩⟩
  rw [he]
  exact (viewClosed (P := fun g _ => (UniqueIds g ∧ NoDangling g) ∧ True)
    (fun g l n h hn => ⟨⟨uniqueIds_add h.1.1 hn,
      ⟨fun a b d hm => ⟨hasNode_mono (h.1.2.1 a b d hm).1, hasNode_mono (h.1.2.1 a b d hm).2⟩,
       fun r hr => hasNode_mono (h.1.2.2 r hr)⟩⟩, h.2⟩)
    (fun g l a b d h ha hb => ⟨⟨h.1.1, ⟨fun a' b' d' hm => by
      rcases List.mem_append.mp hm with hm | hm
      · exact h.1.2.1 a' b' d' hm
      · simp only [List.mem_singleton, Prod.mk.injEq] at hm
        rw [hm.1, hm.2.1]; exact ⟨ha, hb⟩, h.1.2.2⟩⟩, h.2⟩)
    (fun g l a h ha => ⟨⟨h.1.1, ⟨h.1.2.1, fun r hr => by
      rcases List.mem_append.mp hr with hr | hr
      · exact h.1.2.2 r hr
      · simp only [List.mem_singleton] at hr
        rw [hr]; exact ha⟩⟩, h.2⟩)
    (fun g l h => h)).and nlRestClosed

/-- The completion theorem, for more that is known about the states. -/
theorem client_completed_from {J : St W → Prop} (hJ : SimplyClosed J) (env : Env W) (n : Nat) (p : Hook W) (s0 : St W)
    (h0 : J s0) (hl : s0.log = []) :
    let s := (runClient env n p s0).2
    J s ∧ (Event.failed ∈ s.log ∨ ∀ it, it.isWork = true → Event.started it ∈ s.log →
      Completed J (RanG env) it s) := by
  intro s
  have h := client_pres (R := RanG env) (compClosed hJ) (env := env) (fun _ _ => Hook.only_true _)
    (fun _ => .inl ⟨trivial, fun _ _ _ => Hook.only_true _⟩) (β := []) trivial n
    (Hook.only_true p) s0 ?_
    (fun it _ _ h => ⟨h, fun hi => runItem_grew env _ hi h.1.choose_spec⟩)
  · refine ⟨h.1, h.2.imp id fun h it hi hs => (h it hi hs).elim (by simp) id⟩
  · exact ⟨h0, .inr (by simp [hl])⟩

theorem client_completed_of {J : St W → Prop} (hJ : SimplyClosed J) (env : Env W) (n : Nat) (p : Hook W) (w : W)
    (stdlib : List (Str × Implies)) (builtin : Bool) (h0 : J (initState w stdlib builtin)) :
    let s := (runClient env n p (initState w stdlib builtin)).2
    J s ∧ (Event.failed ∈ s.log ∨ ∀ it, it.isWork = true → Event.started it ∈ s.log →
      Completed J (RanG env) it s) :=
  client_completed_from hJ env n p _ h0 (initState_view w stdlib builtin).2

/-- The completion theorem. -/
theorem client_completed (env : Env W) (n : Nat) (p : Hook W) (w : W) (stdlib : List (Str × Implies))
    (builtin : Bool) :
    let s := (runClient env n p (initState w stdlib builtin)).2
    NlKnown s ∧ (Event.failed ∈ s.log ∨ ∀ it, it.isWork = true → Event.started it ∈ s.log →
      Completed NlKnown (RanG env) it s) := by
  refine client_completed_of nlKnownClosed env n p w stdlib builtin ?_
  have hv := initState_view w stdlib builtin
  have hf := initState_fields w stdlib builtin
  refine ⟨?_, ?_, ?_⟩
  · rw [hv.1]; intro i j hi; simp at hi
  · rw [hv.1]; exact ⟨by simp, by simp⟩
  · rintro a b i (h | h)
    · simp [pending, hf] at h
    · simp [hv.2] at h

end Verif
