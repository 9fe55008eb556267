import Verif.Proofs.MissFacts
/-! # Only `add_distribution` makes nodes for distributions -/
namespace Verif
open M Spec
variable {W : Type}

/-- Operations that do not add distributions and put no node in the graph by hand. -/
def ApiOp.NoDist : ApiOp → Prop
  | .addNode _ | .addDistribution _ | .addDistributionNamed _ => False
  | _ => True

/-- The nodes that are distributions are among `L`. -/
structure DistsIn (L : List Node) (s : St W) : Prop where
  mem : ∀ x ∈ s.nodes, x.isBaseNode = true ∨ x ∈ L

variable {L : List Node} {s s' : St W}

theorem DistsIn.same (c : DistsIn L s) (h : s'.nodes = s.nodes) : DistsIn L s' := by
  refine ⟨?_⟩; rw [h]; exact c.mem

theorem DistsIn.addEdge (c : DistsIn L s) (a b d) : DistsIn L (s.addEdge a b d) := by
  unfold St.addEdge; split
  · exact c
  · exact c.same rfl

theorem DistsIn.addNode (c : DistsIn L s) {n : Node} (h : n.isBaseNode = true) :
    DistsIn L (s.addNode n) := by
  refine ⟨fun x hx => ?_⟩
  simp only [St.addNode, List.mem_append, List.mem_singleton] at hx
  rcases hx with hx | rfl
  · exact c.mem x hx
  · exact .inl h

theorem DistsIn.schedule (c : DistsIn L s) (n infos) : DistsIn L (s.schedule n infos) :=
  c.same (by rw [schedule_nodes])

theorem DistsIn.addSched (c : DistsIn L s) {n : Node} (h : n.isBaseNode = true) (infos) :
    DistsIn L ((s.addNode n).schedule n infos) := (c.addNode h).schedule ..

theorem FromSpec.base {env : Env W} (hN : env.MakesModules) {name n imports}
    (h : FromSpec env name n imports) : n.isBaseNode = true := by
  obtain ⟨spec, w, w', _, h2⟩ := h
  exact isLoaded_base (hN spec w' n imports h2)

theorem distsCtx (env : Env W) (hN : env.MakesModules) (L : List Node) :
    Ctx env ApiOp.NoDist (fun _ => DistsIn (W := W) L) (DistsIn L) where
  aAddModule _ _ := trivial
  toE h := h
  world w h := h.same rfl
  looked h := h.same rfl
  asked _ _ _ h := h.same rfl
  called _ _ h := h.same rfl
  failed h := h.same rfl
  pushLoad _ h _ _ := h
  popLoad h _ := h
  popLoadLink h _ _ := h.addEdge ..
  popLoadMissing h _ _ _ := h
  addExcludedSub h _ _ _ _ := h.addSched rfl _
  addMissing h _ _ _ := h.addSched rfl _
  addSwig n _ h _ _ hx _ := h.addNode (isExtension_base hx)
  popExcluded {O s name p lm} h _ _ :=
    DistsIn.addSched (s := s.popLazy name) (h.same rfl) rfl _
  popAlias {O s name p lm t} h _ _ :=
    DistsIn.addSched (s := s.popLazy name) (h.same rfl) rfl _
  popVirtual {O s name p lm t} h _ _ :=
    DistsIn.addSched (s := s.popLazy name) (h.same rfl) rfl _
  doneAlias h _ _ := h.addEdge ..
  popRefs h _ _ := h.same rfl
  doneRef h _ _ := h.addEdge ..
  doneRefs h _ := h
  addAlias h _ _ _ _ := h.addSched rfl _
  addTarget h _ hf _ := h.addSched (hf.base hN) _
  doneTarget h _ _ := h
  doneTargetLink h _ _ _ := h.addEdge ..
  addLoaded h _ _ hf := h.addNode (hf.base hN)
  nsEdge h _ _ _ := h.addEdge ..
  schedNode h _ _ := h.schedule _ _
  addInvalid h _ _ _ := h.addSched rfl _
  finishInvalid h _ _ _ _ _ _ := (h.addEdge _ _ _).same rfl
  finishImp _ h _ _ _ _ := (h.addEdge _ _ _).same rfl
  globals _ h _ := h.same rfl
  reexport h _ _ _ _ _ _ := h.addEdge ..
  subLink h _ _ _ _ _ := h.addEdge ..
  subEdge h _ _ _ _ _ := h.addEdge ..
  sixEdge h _ _ _ _ _ _ _ := h.addEdge ..
  pkgEdge h _ _ _ := h.addEdge ..
  pkgSub h _ _ _ _ := h.addEdge ..
  pushPkg h _ _ _ := h.same rfl
  pop h _ := h.same rfl
  enter h := h.same rfl
  exit _ h _ := h.same rfl
  exitE _ h _ := h.same rfl
  script h _ _ _ := h.addSched rfl _
  addRoot h _ _ := by
    unfold St.addRoot; split
    · exact h
    · exact h.same rfl
  addDist _ h _ hA := by rcases hA with hA | ⟨_, hA, _⟩ <;> exact hA.elim
  distEdge h _ _ := h.addEdge ..
  doneDist h _ := h
  importModule h _ _ _ := h.addEdge ..
  exclude {s} names _ h := by
    have : ∀ (l : List Str) (s : St W), DistsIn L s → DistsIn L (l.foldl addExclude s) :=
      fun l s hs => foldl_pres (f := addExclude) (fun s a h => h.same rfl) l s hs
    exact this names s h
  imply {s} l _ h := by
    have : ∀ (l : List (Str × Implies)) (s : St W), DistsIn L s → DistsIn L (l.foldl addImply s) :=
      fun l s hs => foldl_pres (f := addImply) (fun s a h => by
        unfold addImply; split
        · exact h
        · exact h.same rfl) l s hs
    exact this l s h
  missHook _ _ h := h.same rfl
  postHook _ _ h := h.same rfl
  apiAddNode _ hA := hA.elim
  apiAddEdge _ _ _ _ h _ _ := h.addEdge ..
  apiSchedule _ _ _ h := h.schedule ..
  mypycEdge h _ _ _ _ _ := h.addEdge ..
  mypycSched h _ _ _ := h.schedule ..

end Verif
