import Verif.Proofs.FixedName
/-!
# Only nodes of the graph are scheduled and post-processed
-/
namespace Verif
open M Spec
variable {W : Type}

structure SchedCore (s : St W) : Prop where
  pp : ∀ n, (Item.pp n ∈ pending s ∨ Event.started (.pp n) ∈ s.log) → n ∈ s.nodes
  scan : ∀ id infos, Event.scheduled id infos ∈ s.log → Has s id

/-- The node of an obligation is in the graph. -/
def SchedJ (_ : List Obl) (s : St W) : Prop := SchedCore s

variable {s s' : St W} {O : List Obl}

theorem SchedCore.step (h : SchedCore s) (hn : ∀ n ∈ s.nodes, n ∈ s'.nodes)
    (hp : ∀ it, it ∈ pending s' → it ∈ pending s ∨ ∀ n, it = .pp n → n ∈ s'.nodes)
    (hlog : ∀ e ∈ s'.log, e ∈ s.log ∨ (∃ it, e = .started it ∧ it ∈ pending s) ∨
      ((∀ it, e ≠ .started it) ∧ ∀ id infos, e = .scheduled id infos → Has s' id)) : SchedCore s' where
  pp n hm := by
    rcases hm with h1 | h1
    · rcases hp _ h1 with h2 | h2
      · exact hn _ (h.pp n (.inl h2))
      · exact h2 n rfl
    · rcases hlog _ h1 with h2 | ⟨it, he, h2⟩ | ⟨h2, _⟩
      · exact hn _ (h.pp n (.inr h2))
      · cases he; exact hn _ (h.pp n (.inl h2))
      · exact absurd rfl (h2 _)
  scan id infos h1 := by
    rcases hlog _ h1 with h2 | ⟨it, he, h2⟩ | ⟨_, h2⟩
    · obtain ⟨m, h3, h4⟩ := h.scan id infos h2
      exact ⟨m, hn m h3, h4⟩
    · cases he
    · exact h2 _ _ rfl

theorem SchedCore.same (h : SchedCore s) (hn : s'.nodes = s.nodes) (hp : pending s' = pending s)
    (hl : s'.log = s.log) : SchedCore s' :=
  h.step (by rw [hn]; exact fun _ h => h) (by rw [hp]; exact fun _ h => .inl h)
    (by rw [hl]; exact fun _ h => .inl h)

theorem SchedCore.event (h : SchedCore s) (e : Event) (he : (∀ it, e ≠ .started it) ∧
    ∀ id infos, e ≠ .scheduled id infos) : SchedCore (s.event e) := by
  refine h.step (fun _ h => h) (fun _ h => .inl h) ?_
  intro e' he'
  simp only [St.event, List.mem_append, List.mem_singleton] at he'
  rcases he' with h1 | rfl
  · exact .inl h1
  · exact .inr (.inr ⟨he.1, fun id infos hc => absurd hc (he.2 id infos)⟩)

theorem SchedCore.addEdge (h : SchedCore s) (a b d) : SchedCore (s.addEdge a b d) :=
  h.same (more_addEdge s a b d).nodes (pending_addEdge s a b d).1 (pending_addEdge s a b d).2.2

theorem SchedCore.addNode (h : SchedCore s) (n) : SchedCore (s.addNode n) :=
  h.step (fun _ h => List.mem_append_left _ h) (fun _ h => .inl h) (fun _ h => .inl h)

theorem SchedCore.schedule (h : SchedCore s) {n} (hm : n ∈ s.nodes) (infos) :
    SchedCore (s.schedule n infos) := by
  have hn := (more_schedule s n infos).nodes
  refine h.step (by rw [hn]; exact fun _ h => h) ?_ ?_
  · intro it hit
    rw [schedule_pending] at hit
    simp only [List.mem_append] at hit
    rcases hit with (h1 | h1) | h1
    · exact .inl h1
    · right
      split at h1
      · simp at h1
      · simp only [List.mem_singleton] at h1
        subst h1
        rintro _ ⟨⟩
        rw [hn]; exact hm
    · right
      obtain ⟨i, _, rfl⟩ := List.mem_map.mp h1
      exact fun n h => by cases h
  · intro e he
    rw [log_schedule] at he
    simp only [List.mem_append, List.mem_singleton] at he
    rcases he with h1 | rfl
    · exact .inl h1
    · refine .inr (.inr ⟨by simp, ?_⟩)
      rintro id infos ⟨⟩
      exact ⟨n, hn ▸ hm, rfl⟩

theorem SchedCore.addSched (h : SchedCore s) (n infos) : SchedCore ((s.addNode n).schedule n infos) :=
  (h.addNode n).schedule (by simp [St.addNode]) infos

theorem SchedCore.lazy (h : SchedCore s) {s' : St W} (hm : More s s') (hp : pending s' = pending s)
    (hl : s'.log = s.log) : SchedCore s' := h.same hm.nodes hp hl

theorem schedCtx (env : Env W) : Ctx env ApiOp.NoRaw (SchedJ (W := W)) SchedCore where
  aAddModule _ _ := trivial
  toE h := h
  world w h := h.same rfl rfl rfl
  looked h := h.event _ ⟨by simp, by simp⟩
  asked _ _ _ h := h.event _ ⟨by simp, by simp⟩
  called _ _ h := h.event _ ⟨by simp, by simp⟩
  failed h := h.event _ ⟨by simp, by simp⟩
  pushLoad _ h _ _ := h
  popLoad h _ := h
  popLoadLink h _ _ := h.addEdge ..
  popLoadMissing h _ _ _ := h
  addExcludedSub h _ _ _ _ := h.addSched ..
  addMissing h _ _ _ := h.addSched ..
  addSwig _ _ h _ _ _ _ := h.addNode _
  popExcluded {O s name p lm} h _ _ := SchedCore.addSched (s := s.popLazy name) (h.same rfl rfl rfl) ..
  popAlias {O s name p lm t} h _ _ := SchedCore.addSched (s := s.popLazy name) (h.same rfl rfl rfl) ..
  popVirtual {O s name p lm t} h _ _ := SchedCore.addSched (s := s.popLazy name) (h.same rfl rfl rfl) ..
  doneAlias h _ _ := h.addEdge ..
  popRefs h _ _ := h.same rfl rfl rfl
  doneRef h _ _ := h.addEdge ..
  doneRefs h _ := h
  addAlias h _ _ _ _ := h.addSched ..
  addTarget h _ _ _ := h.addSched ..
  doneTarget h _ _ := h
  doneTargetLink h _ _ _ := h.addEdge ..
  addLoaded h _ _ _ := h.addNode _
  nsEdge h _ _ _ := h.addEdge ..
  schedNode h hn _ := h.schedule hn _
  addInvalid h _ _ _ := h.addSched ..
  finishInvalid h _ _ _ _ _ _ := (h.addEdge ..).event _ ⟨by simp, by simp⟩
  finishImp := by
    intro s m j n offset h _ _ _ _
    have hc := h.addEdge m.ident n.ident (fromImportInfo j false j.importModule.asname)
    revert hc
    generalize s.addEdge m.ident n.ident (fromImportInfo j false j.importModule.asname) = s1
    intro hc
    refine hc.step (fun _ h => h) ?_ ?_
    · intro it hit
      simp only [pending, List.mem_append, List.mem_singleton] at hit
      rcases hit with h3 | (h3 | h3) | h3
      · exact .inl (by simp [pending, h3])
      · exact .inl (List.mem_append_right _ (List.mem_of_mem_take h3))
      · subst h3; exact .inr (by simp)
      · exact .inl (List.mem_append_right _ (List.mem_of_mem_drop h3))
    · intro e he
      simp only [List.mem_append, List.mem_singleton] at he
      rcases he with he | rfl
      · exact .inl he
      · exact .inr (.inr ⟨by simp, by simp⟩)
  globals _ h _ := h.same rfl rfl rfl
  reexport h _ _ _ _ _ _ := h.addEdge ..
  subLink h _ _ _ _ _ := h.addEdge ..
  subEdge h _ _ _ _ _ := h.addEdge ..
  sixEdge h _ _ _ _ _ _ _ := h.addEdge ..
  pkgEdge h _ _ _ := h.addEdge ..
  pkgSub h _ _ _ _ := h.addEdge ..
  pushPkg h _ _ _ := h.step (fun _ h => h) (by
    intro it hit
    simp only [pending, List.mem_append, List.mem_singleton] at hit ⊢
    rcases hit with h1 | h1 | rfl
    · exact .inl (.inl h1)
    · exact .inl (.inr h1)
    · exact .inr (by simp)) (fun _ h => .inl h)
  pop {s st it} h hst := by
    refine h.step (fun _ h => h) ?_ ?_
    · intro y hy
      simp only [pending, hst] at hy ⊢
      simp at hy ⊢
      grind
    · intro e he
      simp only [List.mem_append, List.mem_singleton] at he
      rcases he with he | rfl
      · exact .inl he
      · exact .inr (.inl ⟨it, rfl, by simp [pending, hst]⟩)
  enter {s} h := h.same rfl (by simp [pending]) rfl
  exit {s0 s} h0 h hh := h.same rfl (by simp [pending, hh]) rfl
  exitE {s0 s} h0 h hh := h.same rfl (by simp [pending, hh]) rfl
  script h _ _ _ := h.addSched ..
  addRoot {O s id} h _ _ := by
    refine h.same (more_addRoot s id).nodes ?_ ?_ <;> (unfold St.addRoot; split <;> rfl)
  addDist _ h _ _ := h.addNode _
  distEdge h _ _ := h.addEdge ..
  doneDist h _ := h
  importModule h _ _ _ := h.addEdge ..
  exclude {s} names _ h := by
    have : ∀ (l : List Str) (s : St W), SchedCore s → SchedCore (l.foldl addExclude s) :=
      fun l s hs => foldl_pres (f := addExclude) (fun s a h => h.same rfl rfl rfl) l s hs
    exact this names s h
  imply {s} l _ h := by
    have : ∀ (l : List (Str × Implies)) (s : St W), SchedCore s → SchedCore (l.foldl addImply s) :=
      fun l s hs => foldl_pres (f := addImply) (fun s a h => by
        unfold addImply; split
        · exact h
        · exact h.same rfl rfl rfl) l s hs
    exact this l s h
  missHook _ _ h := h.same rfl rfl rfl
  postHook _ _ h := h.same rfl rfl rfl
  apiAddNode _ hA := hA.elim
  apiAddEdge _ _ _ _ h _ _ := h.addEdge ..
  apiSchedule _ _ hA := hA.elim
  mypycEdge h _ _ _ _ _ := h.addEdge ..
  mypycSched {s n imports} h hst _ _ := h.schedule (h.pp n (.inr hst)) _

end Verif
