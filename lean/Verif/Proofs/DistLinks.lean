import Verif.Proofs.Scans
/-!
# The edges of distributions

As long as no call failed, every distribution in the graph is linked to all modules that can be imported
from it.
-/
namespace Verif
open M Spec
variable {W : Type}

/-- The edges of all distributions are there, or still have to be made, and the distributions are roots. -/
def DistLinks (O : List Obl) (s : St W) : Prop :=
  Event.failed ∈ s.log ∨ ∀ d, distNode d ∈ s.nodes →
    (d.identifier ∈ s.roots ∨ ∃ rest, Obl.dist d rest ∈ O) ∧
    ∀ x ∈ d.importNames, (d.identifier, x, defaultDep) ∈ s.edges ∨ ∃ rest, Obl.dist d rest ∈ O ∧ x ∈ rest

variable {O O' : List Obl} {s s' : St W}

/-- The roots stay. -/
macro "keep_roots" : tactic => `(tactic|
  first
  | exact fun _ h => h
  | exact (later_addEdge ..).roots
  | exact (later_addRoot ..).roots
  | exact (later_schedule ..).roots
  | exact ((later_addNode ..).trans (later_schedule ..)).roots
  | exact ((later_addEdge ..).trans (later_event ..)).roots)

theorem DistLinks.more (h : DistLinks O s) (hm : More s s')
    (hO : ∀ d rest, Obl.dist d rest ∈ O → Obl.dist d rest ∈ O' ∨ (rest = [] ∧ d.identifier ∈ s'.roots) := by
      simp +contextual) (hr : s.roots ⊆ s'.roots := by keep_roots) :
    DistLinks O' s' := by
  rcases h with h | h
  · exact .inl (hm.log _ h)
  · refine .inr fun d hd => ?_
    rw [hm.nodes] at hd
    obtain ⟨h1, h2⟩ := h d hd
    constructor
    · rcases h1 with h1 | ⟨rest, h1⟩
      · exact .inl (hr h1)
      · rcases hO d rest h1 with h3 | ⟨_, h3⟩
        · exact .inr ⟨rest, h3⟩
        · exact .inl h3
    · intro x hx
      rcases h2 x hx with h1 | ⟨rest, h1, h2⟩
      · exact .inl (hm.edges _ h1)
      · rcases hO d rest h1 with h3 | ⟨rfl, _⟩
        · exact .inr ⟨rest, h3, h2⟩
        · cases h2

/-- No node of a distribution. -/
def NoDistNode (n : Node) : Prop := ∀ d, n.kind ≠ .dist d

theorem DistLinks.add (h : DistLinks O s) {n : Node} (hm : More (s.addNode n) s') (hn : NoDistNode n)
    (hO : ∀ d rest, Obl.dist d rest ∈ O → Obl.dist d rest ∈ O' := by simp +contextual)
    (hr : (s.addNode n).roots ⊆ s'.roots := by keep_roots) :
    DistLinks O' s' := by
  refine DistLinks.more ?_ hm (fun d rest h => .inl (hO d rest h)) hr
  rcases h with h | h
  · exact .inl h
  · refine .inr fun d hd => ?_
    have : distNode d ∈ s.nodes ∨ distNode d = n := by simpa [St.addNode] using hd
    rcases this with hd | rfl
    · exact h d hd
    · exact absurd rfl (hn d)

theorem DistLinks.popLazy (h : DistLinks O s) {name : Str} : DistLinks O (s.popLazy name) :=
  h.more (more_popLazy ..)

theorem noDist_base {n : Node} (h : n.isBaseNode = true) : NoDistNode n := by
  intro d hd
  simp [Node.isBaseNode, hd] at h

theorem distLinksCtx (env : Env W) (hL : env.MakesModules) :
    Ctx env ApiOp.NoAddNode DistLinks (fun _ => True) where
  aAddModule _ _ := trivial
  toE _ := trivial
  world w h := h.more ⟨rfl, fun _ h => h, fun _ h => h⟩
  looked h := h.more (more_event _ _)
  asked _ _ _ h := h.more (more_event _ _)
  called _ _ h := h.more (more_event _ _)
  failed _ := .inl (by simp [St.event])
  pushLoad _ h _ _ := h.more (.refl _)
  popLoad h _ := h.more (.refl _)
  popLoadLink h _ _ := h.more (more_addEdge ..)
  popLoadMissing h _ _ _ := h.more (.refl _)
  addExcludedSub h _ _ _ _ := h.add (more_schedule _ _ _) nofun
  addMissing h _ _ _ := h.add (more_schedule _ _ _) nofun
  addSwig n imp h _ _ hx hi := h.add (.refl _) (by
    intro d hd
    simp [Node.isExtension, hd] at hx)
  popExcluded h _ _ := h.popLazy.add (more_schedule _ _ _) nofun
  popAlias h _ _ := h.popLazy.add (more_schedule _ _ _) nofun
  popVirtual h _ _ := h.popLazy.add (more_schedule _ _ _) nofun
  doneAlias h _ _ := h.more (more_addEdge ..)
  popRefs h _ _ := h.more (more_popLazy ..)
  doneRef h _ _ := h.more (more_addEdge ..)
  doneRefs h _ := h.more (.refl _)
  addAlias h _ _ _ _ := h.add (more_schedule _ _ _) nofun
  addTarget h _ hf hne := h.add (more_schedule _ _ _) (noDist_base (hf.loaded hL).2.1)
  doneTarget h _ _ := h.more (.refl _)
  doneTargetLink h _ _ _ := h.more (more_addEdge ..)
  addLoaded h _ _ hf := h.add (.refl _) (noDist_base (hf.loaded hL).2.1)
  nsEdge h _ _ _ := h.more (more_addEdge ..)
  schedNode h _ _ := h.more (more_schedule ..)
  addInvalid h _ _ _ := h.add (more_schedule _ _ _) nofun
  finishInvalid h _ _ _ _ _ _ := h.more ((more_addEdge ..).trans (more_event ..))
  finishImp _ h _ _ _ _ :=
    h.more (.trans (more_addEdge ..) ⟨rfl, fun _ h => h, fun _ h => List.mem_append_left _ h⟩)
  globals _ h _ := h.more ⟨rfl, fun _ h => h, fun _ h => h⟩
  reexport h _ _ _ _ _ _ := h.more (more_addEdge ..)
  subLink h _ _ _ _ _ := h.more (more_addEdge ..)
  subEdge h _ _ _ _ _ := h.more (more_addEdge ..)
  sixEdge h _ _ _ _ _ _ _ := h.more (more_addEdge ..)
  pkgEdge h _ _ _ := h.more (more_addEdge ..)
  pkgSub h _ _ _ _ := h.more (more_addEdge ..)
  pushPkg h _ _ _ := h.more ⟨rfl, fun _ h => h, fun _ h => h⟩
  pop h _ := h.more ⟨rfl, fun _ h => h, fun _ h => List.mem_append_left _ h⟩
  enter h := h.more ⟨rfl, fun _ h => h, fun _ h => h⟩
  exit _ h _ := h.more ⟨rfl, fun _ h => h, fun _ h => h⟩
  exitE _ _ _ := trivial
  script h _ _ hl := h.add (more_schedule _ _ _) nofun
  addRoot h _ _ := h.more (more_addRoot ..)
  addDist := by
    intro s d h _ _
    rcases h with h | h
    · exact .inl h
    · refine .inr fun d' hd => ?_
      have : distNode d' ∈ s.nodes ∨ distNode d' = distNode d := by simpa [St.addNode] using hd
      rcases this with hd | hd
      · obtain ⟨h1, h2⟩ := h d' hd
        exact ⟨h1.imp id (by simp), fun x hx => (h2 x hx).imp id (by simp)⟩
      · have : d' = d := by
          simp only [distNode, Node.mk.injEq, Kind.dist.injEq] at hd
          exact hd.2.1
        subst this
        exact ⟨.inr ⟨_, List.mem_cons_self ..⟩, fun x hx => .inr ⟨_, List.mem_cons_self .., hx⟩⟩
  distEdge := by
    intro s d r rest h _ _
    rcases h with h | h
    · exact .inl ((more_addEdge ..).log _ h)
    · refine .inr fun d' hd => ?_
      rw [(more_addEdge ..).nodes] at hd
      obtain ⟨h3, h4⟩ := h d' hd
      refine ⟨h3.imp (fun h => (later_addEdge ..).roots h) ?_, fun x hx => ?_⟩
      · rintro ⟨l, hl⟩
        cases List.mem_singleton.mp hl
        exact ⟨rest, List.mem_cons_self ..⟩
      rcases h4 x hx with h1 | ⟨l, h1, h2⟩
      · exact .inl ((more_addEdge ..).edges _ h1)
      · cases List.mem_singleton.mp h1
        rcases List.mem_cons.mp h2 with rfl | h2
        · refine .inl ?_
          unfold St.addEdge
          split <;> simp_all
        · exact .inr ⟨rest, List.mem_cons_self .., h2⟩
  doneDist h hr := h.more (.refl _) (by simp +contextual [hr])
  importModule h _ _ _ := h.more (more_addEdge ..)
  exclude l _ h := h.more (more_excludes ..) (hr := by
    exact foldl_pres (P := fun s' : St W => _ ⊆ s'.roots) (f := addExclude) (fun _ _ h => h) l _ fun _ h => h)
  imply l _ h := h.more (more_implies ..) (hr := by
    refine foldl_pres (P := fun s' : St W => _ ⊆ s'.roots) (f := addImply) (fun s a h => ?_) l _ fun _ h => h
    unfold addImply
    split <;> exact h)
  missHook _ _ h := h.more ⟨rfl, fun _ h => h, fun _ h => h⟩
  postHook _ _ h := h.more ⟨rfl, fun _ h => h, fun _ h => h⟩
  apiAddNode _ h := h.elim
  apiAddEdge _ _ _ _ h _ _ := h.more (more_addEdge ..)
  apiSchedule _ _ _ h := h.more (more_schedule ..)
  mypycEdge h _ _ _ _ _ := h.more (more_addEdge ..)
  mypycSched h _ _ _ := h.more (more_schedule ..)

theorem client_distLinks (env : Env W) (hL : env.MakesModules) (hP : ∀ k n, (env.userPost k n).Only ApiOp.NoAddNode)
    (hM : ∀ k i n, (env.userMissing k i n).Passive) (n : Nat) {p : Hook W}
    (hp : p.Only ApiOp.NoAddNode) (w : W) (stdlib : List (Str × Implies)) (builtin : Bool) :
    let s := (runClient env n p (initState w stdlib builtin)).2
    Event.failed ∉ s.log → ∀ d, distNode d ∈ s.nodes → d.identifier ∈ s.roots ∧
      ∀ x ∈ d.importNames, (d.identifier, x, defaultDep) ∈ s.edges := by
  intro s hf d hd
  have h := client_ctx (distLinksCtx env hL) hP hM n hp (initState w stdlib builtin)
    (.inr (by have := (initState_view w stdlib builtin).1; simp_all [view]))
  obtain ⟨h1, h2⟩ := (h.resolve_left hf) d hd
  exact ⟨by simpa using h1, fun x hx => by simpa using h2 x hx⟩

end Verif
