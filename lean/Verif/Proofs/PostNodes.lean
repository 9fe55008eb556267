import Verif.Proofs.NodeFacts
/-!
# The nodes that are post-processed

Post-processing is only queued for nodes of the graph.
-/
namespace Verif
open M Spec
variable {W : Type}

/-- Nodes whose post-processing was queued or started are in the graph. -/
def PostIn (s : St W) : Prop := ∀ m, (.pp m ∈ pending s ∨ Event.started (.pp m) ∈ s.log) → m ∈ s.nodes

variable {s s' : St W}

theorem PostIn.next (h : PostIn s) (hn : ∀ m ∈ s.nodes, m ∈ s'.nodes)
    (hp : ∀ m, .pp m ∈ pending s' → .pp m ∈ pending s) (hl : ∀ m, Event.started (.pp m) ∈ s'.log → Event.started (.pp m) ∈ s.log) :
    PostIn s' := fun m hm => hn m (h m (hm.imp (hp m) (hl m)))

theorem PostIn.schedule (h : PostIn s) {n : Node} (hn : n ∈ s.nodes) (infos) : PostIn (s.schedule n infos) := by
  intro m hit
  rw [(more_schedule ..).nodes]
  rw [log_schedule, schedule_pending] at hit
  simp only [List.mem_append, List.mem_singleton, reduceCtorEq, or_false] at hit
  rcases hit with ((h1 | h1) | h1) | h1
  · exact h m (.inl h1)
  · split at h1
    · simp at h1
    · simp only [List.mem_singleton, Item.pp.injEq] at h1
      exact h1 ▸ hn
  · obtain ⟨i, hi, h2⟩ := List.mem_map.mp h1
    cases h2
  · exact h m (.inr h1)

theorem PostIn.add (h : PostIn s) (n : Node) : PostIn (s.addNode n) :=
  h.next (fun m hm => by simp [St.addNode, hm]) (fun _ h => h) fun _ h => h

theorem PostIn.addSched (h : PostIn s) (n : Node) (infos) : PostIn ((s.addNode n).schedule n infos) :=
  (h.add n).schedule (by simp [St.addNode]) infos

theorem PostIn.edge (h : PostIn s) (a b d) : PostIn (s.addEdge a b d) := by
  unfold St.addEdge
  split
  · exact h
  · exact h

theorem PostIn.popLazy (h : PostIn s) {x : Str} : PostIn (s.popLazy x) := h

theorem PostIn.event (h : PostIn s) (e : Event) (he : ∀ it, e ≠ .started it := by simp) : PostIn (s.event e) :=
  h.next (fun _ h => h) (fun _ h => h) fun m hm => by
    simp only [St.event, List.mem_append, List.mem_singleton] at hm
    exact hm.resolve_right fun h => he _ h.symm

/-- Whatever calls are in progress. -/
def PostJ (_ : List Obl) (s : St W) : Prop := PostIn s

theorem postInCtx (env : Env W) : Ctx env ApiOp.NoRaw PostJ PostIn where
  aAddModule _ _ := trivial
  toE h := h
  world _ h := h
  looked h := h.event _
  asked _ _ _ h := h.event _
  called _ _ h := h.event _
  failed h := h.event _
  pushLoad _ h _ _ := h
  popLoad h _ := h
  popLoadLink h _ _ := PostIn.edge h _ _ _
  popLoadMissing h _ _ _ := h
  addExcludedSub h _ _ _ _ := PostIn.addSched h _ _
  addMissing h _ _ _ := PostIn.addSched h _ _
  addSwig n imp h _ _ hx hi := PostIn.add h _
  popExcluded h _ _ := PostIn.addSched (PostIn.popLazy h) _ _
  popAlias h _ _ := PostIn.addSched (PostIn.popLazy h) _ _
  popVirtual h _ _ := PostIn.addSched (PostIn.popLazy h) _ _
  doneAlias h _ _ := PostIn.edge h _ _ _
  popRefs h _ _ := h.popLazy
  doneRef h _ _ := PostIn.edge h _ _ _
  doneRefs h _ := h
  addAlias h _ _ _ _ := PostIn.addSched h _ _
  addTarget h _ hf hne := PostIn.addSched h _ _
  doneTarget h _ _ := h
  doneTargetLink h _ _ _ := PostIn.edge h _ _ _
  addLoaded h _ _ hf := PostIn.add h _
  nsEdge h _ _ _ := PostIn.edge h _ _ _
  schedNode h hn _ := h.schedule hn _
  addInvalid h _ _ _ := PostIn.addSched h _ _
  finishInvalid h _ _ _ _ _ _ := (PostIn.edge h _ _ _).event _
  finishImp := by
    intro s m i n offset h _ _ _ _
    refine (h.edge m.ident n.ident (fromImportInfo i false i.importModule.asname)).next (fun _ h => h) ?_ ?_
    · intro m' hm
      generalize s.addEdge m.ident n.ident (fromImportInfo i false i.importModule.asname) = t at hm
      simp only [pending, List.mem_append, List.mem_singleton, reduceCtorEq, or_false] at hm ⊢
      rcases hm with hm | hm | hm
      · exact .inl hm
      · exact .inr (List.mem_of_mem_take hm)
      · exact .inr (List.mem_of_mem_drop hm)
    · intro m' hm
      simpa using hm
  globals _ h _ := h
  reexport h _ _ _ _ _ _ := PostIn.edge h _ _ _
  subLink h _ _ _ _ _ := PostIn.edge h _ _ _
  subEdge h _ _ _ _ _ := PostIn.edge h _ _ _
  sixEdge h _ _ _ _ _ _ _ := PostIn.edge h _ _ _
  pkgEdge h _ _ _ := PostIn.edge h _ _ _
  pkgSub h _ _ _ _ := PostIn.edge h _ _ _
  pushPkg h _ _ _ := h.next (fun _ h => h) (fun m hm => by simpa [pending] using hm) fun _ h => h
  pop := by
    intro s st it h hst m hm
    refine h m ?_
    simp only [pending, hst, List.mem_append, List.mem_singleton, Event.started.injEq] at hm ⊢
    rcases hm with (hm | hm) | (hm | hm)
    · exact .inl (.inl hm)
    · exact .inl (.inr (.inl hm))
    · exact .inr hm
    · exact .inl (.inr (.inr hm))
  enter h := h.next (fun _ h => h) (fun m hm => by simpa [pending] using hm) fun _ h => h
  exit _ h he := h.next (fun _ h => h) (fun m hm => by simpa [pending, he] using hm) fun _ h => h
  exitE _ h he := h.next (fun _ h => h) (fun m hm => by simpa [pending, he] using hm) fun _ h => h
  script h _ _ hl := PostIn.addSched h _ _
  addRoot h _ _ := by
    unfold St.addRoot
    split <;> exact h
  addDist d h _ _ := PostIn.add h _
  distEdge h _ _ := PostIn.edge h _ _ _
  doneDist h _ := h
  importModule h _ _ _ := PostIn.edge h _ _ _
  exclude l _ h := foldl_pres (P := PostIn) (f := addExclude) (fun _ _ h => h) l _ h
  imply l _ h := foldl_pres (P := PostIn) (f := addImply) (fun s a h => by unfold addImply; split <;> exact h) l _ h
  missHook _ _ h := h
  postHook _ _ h := h
  apiAddNode _ h := h.elim
  apiAddEdge _ _ _ _ h _ _ := PostIn.edge h _ _ _
  apiSchedule _ _ h := h.elim
  mypycEdge h _ _ _ _ _ := PostIn.edge h _ _ _
  mypycSched h hst _ _ := h.schedule (h _ (.inr hst)) _

theorem client_postIn (env : Env W) (hP : ∀ k n, (env.userPost k n).Only ApiOp.NoRaw)
    (hM : ∀ k i n, (env.userMissing k i n).Passive) (n : Nat) {p : Hook W} (hp : p.Only ApiOp.NoRaw) (w : W)
    (stdlib : List (Str × Implies)) (builtin : Bool) : PostIn (runClient env n p (initState w stdlib builtin)).2 := by
  refine client_ctx (postInCtx env) hP hM n hp _ ?_
  intro m hm
  simp [pending, (initState_fields w stdlib builtin), (initState_view w stdlib builtin).2] at hm

end Verif
