import Verif.Proofs.Completed
import Verif.Proofs.CtxWalk
import Verif.Proofs.NodeFacts
/-! # The imported module of a queued name list is a node of the graph -/
namespace Verif
open M Spec
variable {W : Type}

/-- The imported module of every name list is in the graph; every completed import statement has a
name list (unless it points outside of its package). -/
structure NlNodes (s : St W) : Prop where
  node : ∀ a b i, NlSeen s a b i → b ∈ s.nodes
  queued : ∀ id i t, Event.imported id i t ∈ s.log →
    (∃ a b, a.ident = id ∧ b.ident = t ∧ NlSeen s a b i) ∨
    ∃ n ∈ s.nodes, n.ident = t ∧ n.isInvalidRel = true

variable {s s' : St W}

theorem NlNodes.step (h : NlNodes s) (hs : ∀ a b i, NlSeen s' a b i ↔ NlSeen s a b i)
    (hn : ∀ n ∈ s.nodes, n ∈ s'.nodes)
    (hl : ∀ id i t, Event.imported id i t ∈ s'.log → Event.imported id i t ∈ s.log) : NlNodes s' where
  node a b i hb := hn _ (h.node a b i ((hs a b i).mp hb))
  queued id i t hm := by
    rcases h.queued id i t (hl id i t hm) with ⟨a, b, h1, h2, h3⟩ | ⟨n, h1, h2⟩
    · exact .inl ⟨a, b, h1, h2, (hs a b i).mpr h3⟩
    · exact .inr ⟨n, hn n h1, h2⟩

theorem NlNodes.same (h : NlNodes s) (hp : pending s' = pending s) (hl : s'.log = s.log)
    (hn : ∀ n ∈ s.nodes, n ∈ s'.nodes) : NlNodes s' :=
  h.step (by simp [NlSeen, hp, hl]) hn (by simp [hl])

theorem NlNodes.event (h : NlNodes s) (e) (h1 : ∀ it, e ≠ .started it)
    (h2 : ∀ id i t, e ≠ .imported id i t) : NlNodes (s.event e) :=
  h.step (s' := s.event e) (fun a b i => by
      have := h1 (.nl a b i)
      simp [NlSeen, St.event, pending, this.symm]) (fun _ h => h) (fun id i t hm => by
      rcases List.mem_append.mp hm with hm | hm
      · exact hm
      · exact absurd (List.mem_singleton.mp hm).symm (h2 id i t))

theorem NlNodes.schedule (h : NlNodes s) (n i) : NlNodes (s.schedule n i) := by
  refine h.step (fun a b j => ?_) (fun e he => by rw [(more_schedule s n i).nodes]; exact he) ?_
  · unfold NlSeen at *
    rw [schedule_pending, log_schedule]
    have : Item.nl a b j ∉ (if n.ident ∈ s.seen then [] else [.pp n]) := by split <;> simp
    simp [this]
  · intro id j t hm
    rw [log_schedule] at hm
    simpa using hm

theorem NlNodes.addNode (h : NlNodes s) (n) : NlNodes (s.addNode n) :=
  h.same rfl rfl (fun _ h => List.mem_append_left _ h)
theorem NlNodes.addEdge (h : NlNodes s) (a b d) : NlNodes (s.addEdge a b d) :=
  h.same (by unfold St.addEdge; split <;> rfl) (log_addEdge ..) (fun n hn => by
    rw [(more_addEdge s a b d).nodes]; exact hn)
theorem NlNodes.addSched (h : NlNodes s) (n i) : NlNodes ((s.addNode n).schedule n i) :=
  (h.addNode n).schedule n i
theorem NlNodes.pops (h : NlNodes s) (name) : NlNodes (s.popLazy name) := h.same rfl rfl (fun _ h => h)

theorem nlNodesCtx (env : Env W) : Ctx env (fun _ => True) (fun _ => NlNodes (W := W)) NlNodes where
  aAddModule _ _ := trivial
  toE h := h
  world w h := h.same rfl rfl (fun _ h => h)
  looked h := h.event _ (by simp) (by simp)
  asked _ _ _ h := h.event _ (by simp) (by simp)
  called _ _ h := h.event _ (by simp) (by simp)
  failed h := h.event _ (by simp) (by simp)
  pushLoad _ h _ _ := h
  popLoad h _ := h
  popLoadLink h _ _ := h.addEdge ..
  popLoadMissing h _ _ _ := h
  addExcludedSub h _ _ _ _ := h.addSched ..
  addMissing h _ _ _ := h.addSched ..
  addSwig n _ h _ _ _ _ := h.addNode n
  popExcluded h _ _ := (h.pops _).addSched ..
  popAlias h _ _ := (h.pops _).addSched ..
  popVirtual h _ _ := (h.pops _).addSched ..
  doneAlias h _ _ := h.addEdge ..
  popRefs h _ _ := h.pops _
  doneRef h _ _ := h.addEdge ..
  doneRefs h _ := h
  addAlias h _ _ _ _ := h.addSched ..
  addTarget h _ _ _ := h.addSched ..
  doneTarget h _ _ := h
  doneTargetLink h _ _ _ := h.addEdge ..
  addLoaded h _ _ _ := h.addNode _
  nsEdge h _ _ _ := h.addEdge ..
  schedNode h _ _ := h.schedule ..
  addInvalid h _ _ _ := h.addSched ..
  finishInvalid := by
    intro s m i n h _ _ hn hr _ _
    have h' := h.addEdge m.ident n.ident (fromImportInfo i false none)
    have hn' : n ∈ (s.addEdge m.ident n.ident (fromImportInfo i false none)).nodes := by
      rw [(more_addEdge ..).nodes]; exact hn
    generalize s.addEdge m.ident n.ident (fromImportInfo i false none) = s' at *
    have hs : ∀ a b j, NlSeen (s'.event (.imported m.ident i n.ident)) a b j ↔ NlSeen s' a b j := by
      simp [NlSeen, St.event, pending]
    refine ⟨fun a b j hb => h'.node a b j ((hs a b j).mp hb), fun id j t hm => ?_⟩
    rcases List.mem_append.mp hm with hm | hm
    · rcases h'.queued id j t hm with ⟨a, b, h1, h2, h3⟩ | h
      · exact .inl ⟨a, b, h1, h2, (hs a b j).mpr h3⟩
      · exact .inr h
    · simp at hm
      obtain ⟨rfl, rfl, rfl⟩ := hm
      exact .inr ⟨n, hn', rfl, hr⟩
  finishImp := by
    intro s m i n offset h _ _ hn _
    have h' := h.addEdge m.ident n.ident (fromImportInfo i false i.importModule.asname)
    have hn' : n ∈ (s.addEdge m.ident n.ident (fromImportInfo i false i.importModule.asname)).nodes := by
      rw [(more_addEdge ..).nodes]; exact hn
    generalize s.addEdge m.ident n.ident (fromImportInfo i false i.importModule.asname) = s' at *
    have hs : ∀ a b j, NlSeen { s' with
        stack := s'.stack.take offset ++ [.nl m n i] ++ s'.stack.drop offset,
        log := s'.log ++ [.imported m.ident i n.ident] } a b j ↔
        NlSeen s' a b j ∨ (Item.nl a b j = .nl m n i) := by
      intro a b j
      have hx : Item.nl a b j ∈ s'.stack ↔
          Item.nl a b j ∈ s'.stack.take offset ++ s'.stack.drop offset := by
        rw [List.take_append_drop]
      simp only [NlSeen, pending, List.mem_append (s := s'.hidden), hx]
      simp only [List.mem_append, List.mem_singleton, reduceCtorEq, or_false]
      grind
    refine ⟨fun a b j hb => ?_, fun id j t' hm => ?_⟩
    · rcases (hs a b j).mp hb with hb | hb
      · exact h'.node a b j hb
      · cases hb; exact hn'
    · rcases List.mem_append.mp hm with hm | hm
      · rcases h'.queued id j t' hm with ⟨a, b, h1, h2, h3⟩ | h
        · exact .inl ⟨a, b, h1, h2, (hs a b j).mpr (.inl h3)⟩
        · exact .inr h
      · simp at hm
        obtain ⟨rfl, rfl, rfl⟩ := hm
        exact .inl ⟨m, n, rfl, rfl, (hs m n j).mpr (.inr rfl)⟩
  globals _ h _ := h.same rfl rfl (fun _ h => h)
  reexport h _ _ _ _ _ _ := h.addEdge ..
  subLink h _ _ _ _ _ := h.addEdge ..
  subEdge h _ _ _ _ _ := h.addEdge ..
  sixEdge h _ _ _ _ _ _ _ := h.addEdge ..
  pkgEdge h _ _ _ := h.addEdge ..
  pkgSub h _ _ _ _ := h.addEdge ..
  pushPkg h _ _ _ := h.step (fun a b i => by simp [NlSeen, pending]) (fun _ h => h) (fun _ _ _ h => h)
  pop := by
    intro s st it h hst
    refine h.step (fun a b i => ?_) (fun _ h => h) (by simp)
    simp only [NlSeen, pending, hst, List.mem_append, List.mem_singleton, Event.started.injEq] at *
    grind
  enter h := h.same (by simp [pending]) rfl (fun _ h => h)
  exit _ h he := h.same (by simp [pending, he]) rfl (fun _ h => h)
  exitE _ h he := h.same (by simp [pending, he]) rfl (fun _ h => h)
  script h _ _ _ := h.addSched ..
  addRoot h _ _ := h.same (by unfold St.addRoot; split <;> rfl) (log_addRoot ..)
    (fun n hn => by rw [(more_addRoot _ _).nodes]; exact hn)
  addDist d h _ _ := h.addNode _
  distEdge h _ _ := h.addEdge ..
  doneDist h _ := h
  importModule h _ _ _ := h.addEdge ..
  exclude l _ h := foldl_pres (P := NlNodes) (f := addExclude) (fun _ _ h => h.same rfl rfl (fun _ h => h)) l _ h
  imply l _ h := foldl_pres (P := NlNodes) (f := addImply) (fun _ _ h => by
    unfold addImply; split
    · exact h
    · exact h.same rfl rfl (fun _ h => h)) l _ h
  missHook _ _ h := h.same rfl rfl (fun _ h => h)
  postHook _ _ h := h.same rfl rfl (fun _ h => h)
  apiAddNode n _ h _ := h.addNode n
  apiAddEdge _ _ _ _ h _ _ := h.addEdge ..
  apiSchedule _ _ _ h := h.schedule ..
  mypycEdge h _ _ _ _ _ := NlNodes.addEdge h _ _ _
  mypycSched h _ _ _ := NlNodes.schedule h _ _

theorem client_nlNodes (env : Env W) (hM : ∀ k i n, (env.userMissing k i n).Passive) (n : Nat)
    (p : Hook W) (w : W) (stdlib : List (Str × Implies)) (builtin : Bool) :
    NlNodes (runClient env n p (initState w stdlib builtin)).2 := by
  refine client_ctx (nlNodesCtx env) (fun _ _ => Hook.only_true _) hM n (Hook.only_true p) _ ?_
  have hv := initState_view w stdlib builtin
  have hf := initState_fields w stdlib builtin
  refine ⟨?_, by simp [hv.2]⟩
  rintro a b i (h | h)
  · simp [pending, hf] at h
  · simp [hv.2] at h

end Verif
