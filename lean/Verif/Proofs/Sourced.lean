import Verif.Proofs.Scans
/-!
# Where the nodes come from

As in `Scans.lean`, but also for runs in which calls failed: then the imports of a node may not have been scheduled.
-/
namespace Verif
open M Spec
variable {W : Type}

/-- The node was made for a spec, by the SWIG hook, or for a script; or it is not for code at all. -/
def Sourced (env : Env W) (s : St W) : Prop :=
  ∀ n ∈ s.nodes, n.isStandIn = true ∨ SwigNode n ∨ (∃ name imports, FromSpec env name n imports) ∨
    (n.isScript = true ∧ ∃ infos file w, (env.loadScript n.ident w).1 = .ok (infos, file) ∧ n.filename = some file)

variable {env : Env W} {s s' : St W}

theorem Sourced.more (h : Sourced env s) (hm : More s s') : Sourced env s' := fun n hn =>
  h n (by rw [hm.nodes] at hn; exact hn)

theorem Sourced.add (h : Sourced env s) {n : Node} (hm : More (s.addNode n) s')
    (h1 : n.isStandIn = true ∨ SwigNode n ∨ (∃ name imports, FromSpec env name n imports) ∨
      (n.isScript = true ∧ ∃ infos file w, (env.loadScript n.ident w).1 = .ok (infos, file) ∧
        n.filename = some file)) : Sourced env s' := by
  intro m hm'
  rw [hm.nodes] at hm'
  have : m ∈ s.nodes ∨ m = n := by simpa [St.addNode] using hm'
  rcases this with hn | rfl
  · exact h m hn
  · exact h1

theorem sourcedCtx (env : Env W) : Ctx env ApiOp.NoAddNode (fun _ => Sourced env) (Sourced env) where
  aAddModule _ _ := trivial
  toE h := h
  world _ h := h.more ⟨rfl, fun _ h => h, fun _ h => h⟩
  looked h := h.more (more_event _ _)
  asked _ _ _ h := h.more (more_event _ _)
  called _ _ h := h.more (more_event _ _)
  failed h := h.more (more_event _ _)
  pushLoad _ h _ _ := h.more (.refl _)
  popLoad h _ := h.more (.refl _)
  popLoadLink h _ _ := h.more (more_addEdge ..)
  popLoadMissing h _ _ _ := h.more (.refl _)
  addExcludedSub h _ _ _ _ := h.add (more_schedule _ _ _) (.inl rfl)
  addMissing h _ _ _ := h.add (more_schedule _ _ _) (.inl rfl)
  addSwig _ _ h _ _ hx hi := h.add (.refl _) (.inr (.inl ⟨hx, _, hi, rpartition_last _⟩))
  popExcluded h _ _ :=
    (h.more (more_popLazy ..)).add (more_schedule _ _ _) (.inl rfl)
  popAlias h _ _ :=
    (h.more (more_popLazy ..)).add (more_schedule _ _ _) (.inl rfl)
  popVirtual h _ _ :=
    (h.more (more_popLazy ..)).add (more_schedule _ _ _) (.inl rfl)
  doneAlias h _ _ := h.more (more_addEdge ..)
  popRefs h _ _ := h.more (more_popLazy ..)
  doneRef h _ _ := h.more (more_addEdge ..)
  doneRefs h _ := h.more (.refl _)
  addAlias h _ _ _ _ := h.add (more_schedule _ _ _) (.inl rfl)
  addTarget h _ hf _ := h.add (more_schedule _ _ _)
    (.inr (.inr (.inl ⟨_, _, hf⟩)))
  doneTarget h _ _ := h.more (.refl _)
  doneTargetLink h _ _ _ := h.more (more_addEdge ..)
  addLoaded h _ _ hf := h.add (.refl _)
    (.inr (.inr (.inl ⟨_, _, hf⟩)))
  nsEdge h _ _ _ := h.more (more_addEdge ..)
  schedNode h _ _ := h.more (more_schedule ..)
  addInvalid h _ _ _ := h.add (more_schedule _ _ _) (.inl rfl)
  finishInvalid h _ _ _ _ _ _ := h.more ((more_addEdge ..).trans (more_event ..))
  finishImp _ h _ _ _ _ :=
    h.more (.trans (more_addEdge ..) ⟨rfl, fun _ h => h, fun _ h => List.mem_append_left _ h⟩)
  globals _ h _ := h.more ⟨rfl, fun _ h => h, fun _ h => h⟩
  reexport h _ _ _ _ _ _ := h.more (more_addEdge ..)
  subLink h _ _ _ _ _ := h.more (more_addEdge ..)
  subEdge h _ _ _ _ _ := h.more (more_addEdge ..)
  sixEdge h _ _ _ _ _ _ _ := h.more (more_addEdge ..)
  pkgEdge h _ _ _ := h.more (more_addEdge ..)
  pkgSub h _ _ _ _ := h.more (more_addEdge ..)
  pushPkg h _ _ _ := h.more ⟨rfl, fun _ h => h, fun _ h => h⟩
  pop h _ := h.more ⟨rfl, fun _ h => h, fun _ h => List.mem_append_left _ h⟩
  enter h := h.more ⟨rfl, fun _ h => h, fun _ h => h⟩
  exit _ h _ := h.more ⟨rfl, fun _ h => h, fun _ h => h⟩
  exitE _ h _ := h.more ⟨rfl, fun _ h => h, fun _ h => h⟩
  script h _ _ hl := h.add (more_schedule _ _ _)
    (.inr (.inr (.inr ⟨rfl, _, _, hl.choose, hl.choose_spec, rfl⟩)))
  addRoot h _ _ := h.more (more_addRoot ..)
  addDist _ h _ _ := h.add (.refl _) (.inl rfl)
  distEdge h _ _ := h.more (more_addEdge ..)
  doneDist h _ := h.more (.refl _)
  importModule h _ _ _ := h.more (more_addEdge ..)
  exclude _ _ h := h.more (more_excludes ..)
  imply _ _ h := h.more (more_implies ..)
  missHook _ _ h := h.more ⟨rfl, fun _ h => h, fun _ h => h⟩
  postHook _ _ h := h.more ⟨rfl, fun _ h => h, fun _ h => h⟩
  apiAddNode _ h := h.elim
  apiAddEdge _ _ _ _ h _ _ := h.more (more_addEdge ..)
  apiSchedule _ _ _ h := h.more (more_schedule ..)
  mypycEdge h _ _ _ _ _ := h.more (more_addEdge ..)
  mypycSched h _ _ _ := h.more (more_schedule ..)

theorem client_sourced (env : Env W) (hP : ∀ k n, (env.userPost k n).Only ApiOp.NoAddNode)
    (hM : ∀ k i n, (env.userMissing k i n).Passive) (n : Nat) {p : Hook W}
    (hp : p.Only ApiOp.NoAddNode) (w : W) (stdlib : List (Str × Implies)) (builtin : Bool) :
    Sourced env (runClient env n p (initState w stdlib builtin)).2 :=
  client_ctx (sourcedCtx env) hP hM n hp (initState w stdlib builtin) (fun x hx => by
    have := (initState_view w stdlib builtin).1; simp_all [view])

end Verif
