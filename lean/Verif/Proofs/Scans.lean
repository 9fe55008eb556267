import Verif.Proofs.NodeFacts
/-!
# Where the nodes and their imports come from

As long as no call failed, every module node was made by the loader of a spec found for a module
name, and exactly the imports that the loader reported were scheduled; likewise for scripts.
-/
namespace Verif
open M Spec
variable {W : Type}

/-- Made by the builder itself: neither a loaded module nor a script. -/
def Node.isStandIn (n : Node) : Bool := !n.isLoaded && !n.isScript

/-- The node was loaded, and its imports were scheduled. -/
def LoadedFrom (env : Env W) (O : List Obl) (s : St W) (n : Node) : Prop :=
  ∃ name imports, FromSpec env name n imports ∧
    ((Event.scheduled n.ident imports ∈ s.log ∧ (n.ident = name → NsLinked s n)) ∨
      Obl.node n imports ∈ O)

/-- The node is a script, and its imports were scheduled. -/
def ScriptFrom (env : Env W) (s : St W) (n : Node) : Prop :=
  ∃ infos file, n.isScript = true ∧ (∃ w, (env.loadScript n.ident w).1 = .ok (infos, file)) ∧
    n.filename = some file ∧ Event.scheduled n.ident infos ∈ s.log

def Origin (env : Env W) (O : List Obl) (s : St W) (n : Node) : Prop :=
  n.isStandIn = true ∨ SwigNode n ∨ LoadedFrom env O s n ∨ ScriptFrom env s n

def Scans (env : Env W) (O : List Obl) (s : St W) : Prop :=
  Event.failed ∈ s.log ∨ ∀ n ∈ s.nodes, Origin env O s n

variable {env : Env W} {O O' : List Obl} {s s' : St W}

theorem Origin.more {n : Node} (h : Origin env O s n) (he : ∀ e ∈ s.edges, e ∈ s'.edges)
    (hl : ∀ e ∈ s.log, e ∈ s'.log)
    (hO : ∀ imports, Obl.node n imports ∈ O → Obl.node n imports ∈ O' ∨
      (Event.scheduled n.ident imports ∈ s'.log ∧ NsLinked s' n)) : Origin env O' s' n := by
  rcases h with h | h | ⟨name, imports, h1, h2⟩ | ⟨infos, file, h1, h2, h3, h4⟩
  · exact .inl h
  · exact .inr (.inl h)
  · refine .inr (.inr (.inl ⟨name, imports, h1, ?_⟩))
    rcases h2 with ⟨h2, h3⟩ | h2
    · exact .inl ⟨hl _ h2, fun hn fr init sp hd ns hk => he _ (h3 hn fr init sp hd ns hk)⟩
    · rcases hO imports h2 with h | ⟨h, h'⟩
      · exact .inr h
      · exact .inl ⟨h, fun _ => h'⟩
  · exact .inr (.inr (.inr ⟨infos, file, h1, h2, h3, hl _ h4⟩))

theorem Scans.more (h : Scans env O s) (hm : More s s')
    (hO : ∀ n ∈ s.nodes, ∀ imports, Obl.node n imports ∈ O → Obl.node n imports ∈ O' ∨
      (Event.scheduled n.ident imports ∈ s'.log ∧ NsLinked s' n) := by simp +contextual) :
    Scans env O' s' := by
  rcases h with h | h
  · exact .inl (hm.log _ h)
  · refine .inr fun n hn => ?_
    rw [hm.nodes] at hn
    exact (h n hn).more hm.edges hm.log (hO n hn)

theorem Scans.add (h : Scans env O s) {n : Node} (hm : More (s.addNode n) s')
    (h1 : Origin env O' s' n)
    (hO : ∀ n imports, Obl.node n imports ∈ O → Obl.node n imports ∈ O' := by simp +contextual) :
    Scans env O' s' := by
  rcases h with h | h
  · exact .inl (hm.log _ h)
  · refine .inr fun m hm' => ?_
    rw [hm.nodes] at hm'
    have : m ∈ s.nodes ∨ m = n := by simpa [St.addNode] using hm'
    rcases this with hn | rfl
    · exact (h m hn).more hm.edges hm.log fun i hi => .inl (hO _ i hi)
    · exact h1

theorem Scans.popLazy (h : Scans env O s) {name : Str} : Scans env O (s.popLazy name) :=
  h.more (more_popLazy ..)

theorem scheduled_mem (s : St W) (n i) : Event.scheduled n.ident i ∈ (s.schedule n i).log := by
  rw [log_schedule]; simp

theorem scansCtx (env : Env W) : Ctx env ApiOp.NoAddNode (Scans env) (fun _ => True) where
  aAddModule _ _ := trivial
  toE _ := trivial
  world w h := h.more ⟨rfl, fun _ h => h, fun _ h => h⟩
  looked h := h.more (more_event _ _)
  asked _ _ _ h := h.more (more_event _ _)
  called _ _ h := h.more (more_event _ _)
  failed _ := .inl (by simp [St.event])
  pushLoad _ h _ _ := h.more (.refl _)
  popLoad h _ := h.more (.refl _)
  popLoadLink h _ _ := h.more (more_addEdge ..)
  popLoadMissing h _ _ _ := h.more (.refl _)
  addExcludedSub h _ _ _ _ := h.add (more_schedule _ _ _) (.inl rfl)
  addMissing h _ _ _ := h.add (more_schedule _ _ _) (.inl rfl)
  addSwig n imp h _ _ hx hi := h.add (.refl _) (.inr (.inl ⟨hx, _, hi, rpartition_last _⟩))
  popExcluded h _ _ :=
    h.popLazy.add (more_schedule _ _ _) (.inl rfl)
  popAlias h _ _ :=
    h.popLazy.add (more_schedule _ _ _) (.inl rfl)
  popVirtual h _ _ :=
    h.popLazy.add (more_schedule _ _ _) (.inl rfl)
  doneAlias h _ _ := h.more (more_addEdge ..)
  popRefs h _ _ := h.more (more_popLazy ..)
  doneRef h _ _ := h.more (more_addEdge ..)
  doneRefs h _ := h.more (.refl _)
  addAlias h _ _ _ _ := h.add (more_schedule _ _ _) (.inl rfl)
  addTarget h _ hf hne := h.add (more_schedule _ _ _)
    (.inr (.inr (.inl ⟨_, _, hf, .inl ⟨scheduled_mem .., fun h => absurd h hne⟩⟩)))
  doneTarget h _ _ := h.more (.refl _)
  doneTargetLink h _ _ _ := h.more (more_addEdge ..)
  addLoaded h _ _ hf := h.add (.refl _)
    (.inr (.inr (.inl ⟨_, _, hf, .inr (List.mem_cons_self ..)⟩)))
  nsEdge h _ _ _ := h.more (more_addEdge ..)
  schedNode := by
    intro O s n imports h _ hns
    refine h.more (more_schedule ..) fun m _ i hi => ?_
    rcases List.mem_cons.mp hi with he | hi
    · cases he
      exact .inr ⟨scheduled_mem .., fun fr init sp hd ns hk =>
        (more_schedule ..).edges _ (hns fr init sp hd ns hk)⟩
    · exact .inl hi
  addInvalid h _ _ _ := h.add (more_schedule _ _ _) (.inl rfl)
  finishInvalid h _ _ _ _ _ _ := h.more ((more_addEdge ..).trans (more_event ..))
  finishImp _ h _ _ _ _ :=
    h.more (.trans (more_addEdge ..) ⟨rfl, fun _ h => h, fun _ h => List.mem_append_left _ h⟩)
  globals _ h _ := h.more ⟨rfl, fun _ h => h, fun _ h => h⟩
  reexport h _ _ _ _ _ _ := h.more (more_addEdge ..)
  subLink h _ _ _ _ _ := h.more (more_addEdge ..)
  subEdge h _ _ _ _ _ := h.more (more_addEdge ..)
  sixEdge h _ _ _ _ _ _ _ := h.more (more_addEdge ..)
  pkgEdge h _ _ _ := h.more (more_addEdge ..)
  pkgSub h _ _ _ _ := h.more (more_addEdge ..)
  pushPkg h _ _ _ := h.more ⟨rfl, fun _ h => h, fun _ h => h⟩
  pop h _ := h.more ⟨rfl, fun _ h => h, fun _ h => List.mem_append_left _ h⟩
  enter h := h.more ⟨rfl, fun _ h => h, fun _ h => h⟩
  exit _ h _ := h.more ⟨rfl, fun _ h => h, fun _ h => h⟩
  exitE _ _ _ := trivial
  script h _ _ hl := h.add (more_schedule _ _ _)
    (.inr (.inr (.inr ⟨_, _, rfl, hl, rfl, scheduled_mem ..⟩)))
  addRoot h _ _ := h.more (more_addRoot ..)
  addDist d h _ _ := h.add (.refl _) (.inl rfl)
  distEdge h _ _ := h.more (more_addEdge ..)
  doneDist h _ := h.more (.refl _)
  importModule h _ _ _ := h.more (more_addEdge ..)
  exclude _ _ h := h.more (more_excludes ..)
  imply _ _ h := h.more (more_implies ..)
  missHook _ _ h := h.more ⟨rfl, fun _ h => h, fun _ h => h⟩
  postHook _ _ h := h.more ⟨rfl, fun _ h => h, fun _ h => h⟩
  apiAddNode _ h := h.elim
  apiAddEdge _ _ _ _ h _ _ := h.more (more_addEdge ..)
  apiSchedule _ _ _ h := h.more (more_schedule ..)
  mypycEdge h _ _ _ _ _ := h.more (more_addEdge ..)
  mypycSched h _ _ _ := h.more (more_schedule ..)

theorem client_scans (env : Env W) (hP : ∀ k n, (env.userPost k n).Only ApiOp.NoAddNode)
    (hM : ∀ k i n, (env.userMissing k i n).Passive) (n : Nat) {p : Hook W}
    (hp : p.Only ApiOp.NoAddNode) (w : W) (stdlib : List (Str × Implies)) (builtin : Bool) :
    let s := (runClient env n p (initState w stdlib builtin)).2
    Event.failed ∉ s.log → ∀ n ∈ s.nodes, Origin env [] s n := by
  intro s hf
  have h := client_ctx (scansCtx env) hP hM n hp (initState w stdlib builtin)
    (.inr (by have := (initState_view w stdlib builtin).1; simp_all [view]))
  exact h.resolve_left hf

end Verif
