import Verif.Proofs.CtxWalk
import Verif.Proofs.Names
/-!
# Facts about every node, as an instance of the contextual closure theorem

Every node the builder makes is scheduled for processing, linked to its package, and linked to
its target if it is an alias or virtual module; as long as no call failed.
-/
namespace Verif
open M Spec
variable {W : Type}

/-! ## Frame rules -/

/-- Same nodes, more edges, longer history. -/
structure More (s s' : St W) : Prop where
  nodes : s'.nodes = s.nodes
  edges : ∀ e ∈ s.edges, e ∈ s'.edges
  log : ∀ e ∈ s.log, e ∈ s'.log

theorem More.refl (s : St W) : More s s := ⟨rfl, fun _ h => h, fun _ h => h⟩
theorem More.trans {a b c : St W} (h : More a b) (h' : More b c) : More a c :=
  ⟨h'.nodes.trans h.nodes, fun e he => h'.edges e (h.edges e he), fun e he => h'.log e (h.log e he)⟩
theorem more_addEdge (s : St W) (a b d) : More s (s.addEdge a b d) := by
  unfold St.addEdge; split
  · exact .refl s
  · exact ⟨rfl, fun _ h => List.mem_append_left _ h, fun _ h => h⟩
theorem more_addRoot (s : St W) (a) : More s (s.addRoot a) := by
  unfold St.addRoot; split
  · exact .refl s
  · exact ⟨rfl, fun _ h => h, fun _ h => h⟩
theorem more_schedule (s : St W) (n i) : More s (s.schedule n i) := by
  refine ⟨?_, ?_, fun e h => by rw [log_schedule]; exact List.mem_append_left _ h⟩
  · unfold St.schedule; simp only []; split <;> rfl
  · unfold St.schedule; simp only []; split <;> exact fun _ h => h
theorem more_event (s : St W) (e) : More s (s.event e) :=
  ⟨rfl, fun _ h => h, fun _ h => List.mem_append_left _ h⟩
theorem more_excludes (s : St W) (l : List Str) : More s (l.foldl addExclude s) :=
  foldl_pres (P := More s) (f := addExclude)
    (fun _ _ h => ⟨h.nodes, h.edges, h.log⟩) l s (.refl s)
theorem more_implies (s : St W) (l : List (Str × Implies)) : More s (l.foldl addImply s) := by
  refine foldl_pres (P := More s) (f := addImply) (fun s' a h => ?_) l s (.refl s)
  unfold addImply
  split
  · exact h
  · exact ⟨h.nodes, h.edges, h.log⟩
theorem more_popLazy (s : St W) (n) : More s (s.popLazy n) := ⟨rfl, fun _ h => h, fun _ h => h⟩
/-! ## The facts -/

/-- The node has an edge to its package, if it has one. -/
def Linked (s : St W) (n : Node) : Prop :=
  ∃ r, splitPackage n.ident = .ok r ∧ ∀ p, r.1 = some p → (n.ident, p, defaultDep) ∈ s.edges

structure Facts (O : List Obl) (s : St W) : Prop where
  uniq : ∀ n ∈ s.nodes, ∀ m ∈ s.nodes, n.ident = m.ident → n = m
  split : ∀ name p lm, Obl.load name p lm ∈ O → ∃ b, splitPackage name = .ok (p, b)
  sched : ∀ n ∈ s.nodes, n.isBaseNode = true →
    Scanned n.ident s.log ∨ (∃ i, Obl.node n i ∈ O) ∨ SwigNode n
  link : ∀ n ∈ s.nodes, n.namesModule = true →
    Linked s n ∨ (n.isMissing = true ∧ Tried s.nodes s.log n.ident ∧ ∃ r, splitPackage n.ident = .ok r) ∨
    (∃ p lm, Obl.load n.ident p lm ∈ O) ∨ Obl.target n ∈ O
  alias : ∀ n ∈ s.nodes, ∀ t, (n.kind = .alias t ∨ n.kind = .virtual t) →
    (n.ident, t, defaultDep) ∈ s.edges ∨ Obl.alias n.ident t ∈ O

def FactsJ (O : List Obl) (s : St W) : Prop := Event.failed ∈ s.log ∨ Facts O s

variable {O O' : List Obl} {s s' : St W}

theorem Tried.sub {N N' : List Node} {l l' : List Event} (hN : ∀ n ∈ N, n ∈ N')
    (h : ∀ e ∈ l, e ∈ l') {n} (ht : Tried N l n) : Tried N' l' n := by
  obtain ⟨i, m, src, inf, nm, h1, h2, h3, h4, h5⟩ := ht
  exact ⟨i, m, src, inf, nm, h _ h1, h2, h3, h4.imp id fun h => ⟨h.1, hN _ h.2⟩, h5⟩

theorem Scanned.sub {l l' : List Event} (h : ∀ e ∈ l, e ∈ l') {n} (ht : Scanned n l) : Scanned n l' :=
  ht.imp fun _ h1 => h _ h1

theorem Linked.more (h : ∀ e ∈ s.edges, e ∈ s'.edges) {n} (hl : Linked s n) : Linked s' n := by
  obtain ⟨r, h1, h2⟩ := hl
  exact ⟨r, h1, fun p hp => h _ (h2 p hp)⟩

/-- The facts after some nodes were added and obligations changed. -/
theorem Facts.step (h : Facts O s) (hN : ∀ n ∈ s.nodes, n ∈ s'.nodes) (hn : ∀ n ∈ s'.nodes, n ∈ s.nodes ∨ ∀ m ∈ s.nodes, m.ident ≠ n.ident)
    (hu : ∀ n ∈ s'.nodes, ∀ m ∈ s'.nodes, n ∉ s.nodes → m ∉ s.nodes → n = m)
    (he : ∀ e ∈ s.edges, e ∈ s'.edges) (hl : ∀ e ∈ s.log, e ∈ s'.log)
    (hs : ∀ name p lm, Obl.load name p lm ∈ O' → Obl.load name p lm ∈ O ∨
      ∃ b, splitPackage name = .ok (p, b))
    (h1 : ∀ n ∈ s'.nodes, n.isBaseNode = true → (n ∈ s.nodes → ∃ i, Obl.node n i ∈ O) →
      Scanned n.ident s'.log ∨ (∃ i, Obl.node n i ∈ O') ∨ SwigNode n)
    (h2 : ∀ n ∈ s'.nodes, n.namesModule = true →
      (n ∈ s.nodes → (∃ p lm, Obl.load n.ident p lm ∈ O) ∨ Obl.target n ∈ O) →
      Linked s' n ∨ (n.isMissing = true ∧ Tried s'.nodes s'.log n.ident ∧ ∃ r, splitPackage n.ident = .ok r) ∨
      (∃ p lm, Obl.load n.ident p lm ∈ O') ∨ Obl.target n ∈ O')
    (h3 : ∀ n ∈ s'.nodes, ∀ t, (n.kind = .alias t ∨ n.kind = .virtual t) →
      (n ∈ s.nodes → Obl.alias n.ident t ∈ O) →
      (n.ident, t, defaultDep) ∈ s'.edges ∨ Obl.alias n.ident t ∈ O') : Facts O' s' where
  uniq n hn' m hm' e := by
    rcases hn n hn' with h4 | h4 <;> rcases hn m hm' with h5 | h5
    · exact h.uniq n h4 m h5 e
    · exact absurd e (h5 n h4)
    · exact absurd e.symm (h4 m h5)
    · exact hu n hn' m hm' (fun hc => h4 n hc rfl) (fun hc => h5 m hc rfl)
  split name p lm hm := (hs name p lm hm).elim (h.split name p lm) id
  sched n hn' hb := by
    by_cases hm : n ∈ s.nodes
    · rcases h.sched n hm hb with h4 | h4 | h4
      · exact .inl (Scanned.sub hl h4)
      · exact h1 n hn' hb (fun _ => h4)
      · exact .inr (.inr h4)
    · exact h1 n hn' hb (fun hc => absurd hc hm)
  link n hn' hb := by
    by_cases hm : n ∈ s.nodes
    · rcases h.link n hm hb with h4 | ⟨h4, h5, h6⟩ | h4
      · exact .inl (h4.more he)
      · exact .inr (.inl ⟨h4, h5.sub hN hl, h6⟩)
      · exact h2 n hn' hb (fun _ => h4)
    · exact h2 n hn' hb (fun hc => absurd hc hm)
  alias n hn' t ht := by
    by_cases hm : n ∈ s.nodes
    · rcases h.alias n hm t ht with h4 | h4
      · exact .inl (he _ h4)
      · exact h3 n hn' t ht (fun _ => h4)
    · exact h3 n hn' t ht (fun hc => absurd hc hm)

theorem Facts.more (h : Facts O s) (hm : More s s') : Facts O s' :=
  h.step (fun _ hn => hm.nodes ▸ hn) (fun _ hn => .inl (hm.nodes ▸ hn)) (fun _ hn _ _ h1 _ => absurd (hm.nodes ▸ hn) h1) hm.edges
    hm.log (fun _ _ _ h => .inl h)
    (fun _ hn _ h => .inr (.inl (h (hm.nodes ▸ hn)))) (fun _ hn _ h => .inr (.inr (h (hm.nodes ▸ hn))))
    (fun _ hn _ _ h => .inr (h (hm.nodes ▸ hn)))

theorem FactsJ.more (h : FactsJ O s) (hm : More s s') : FactsJ O s' :=
  h.imp (hm.log _) (·.more hm)

/-- Same nodes, changed obligations. -/
theorem FactsJ.obl (h : FactsJ O s) (hm : More s s')
    (hs : ∀ name p lm, Obl.load name p lm ∈ O' → Obl.load name p lm ∈ O ∨
      ∃ b, splitPackage name = .ok (p, b))
    (h1 : ∀ n ∈ s.nodes, n.isBaseNode = true → (∃ i, Obl.node n i ∈ O) →
      Scanned n.ident s'.log ∨ (∃ i, Obl.node n i ∈ O') ∨ SwigNode n)
    (h2 : Facts O s → ∀ n ∈ s.nodes, n.namesModule = true →
      ((∃ p lm, Obl.load n.ident p lm ∈ O) ∨ Obl.target n ∈ O) →
      Linked s' n ∨ (n.isMissing = true ∧ Tried s'.nodes s'.log n.ident ∧ ∃ r, splitPackage n.ident = .ok r) ∨
      (∃ p lm, Obl.load n.ident p lm ∈ O') ∨ Obl.target n ∈ O')
    (h3 : ∀ n ∈ s.nodes, ∀ t, (n.kind = .alias t ∨ n.kind = .virtual t) →
      (Obl.alias n.ident t ∈ O) →
      (n.ident, t, defaultDep) ∈ s'.edges ∨ Obl.alias n.ident t ∈ O') : FactsJ O' s' := by
  rcases h with h | h
  · exact .inl (hm.log _ h)
  · refine .inr (h.step (fun _ hn => hm.nodes ▸ hn) (fun _ hn => .inl (hm.nodes ▸ hn))
      (fun _ hn _ _ h1 _ => absurd (hm.nodes ▸ hn) h1) hm.edges hm.log hs ?_ ?_ ?_)
    · intro n hn hb h4
      exact h1 n (hm.nodes ▸ hn) hb (h4 (hm.nodes ▸ hn))
    · intro n hn hb h4
      exact h2 h n (hm.nodes ▸ hn) hb (h4 (hm.nodes ▸ hn))
    · intro n hn t ht h4
      exact h3 n (hm.nodes ▸ hn) t ht (h4 (hm.nodes ▸ hn))

/-- One more node, more obligations. -/
theorem FactsJ.add (h : FactsJ O s) {n : Node} (hh : s.has n.ident = false)
    (hm : More (s.addNode n) s') (hO : ∀ o ∈ O, o ∈ O')
    (hs : ∀ name p lm, Obl.load name p lm ∈ O' → Obl.load name p lm ∈ O)
    (h1 : n.isBaseNode = true → Scanned n.ident s'.log ∨ (∃ i, Obl.node n i ∈ O') ∨ SwigNode n)
    (h2 : n.namesModule = true → (∃ p lm, Obl.load n.ident p lm ∈ O') ∨ Obl.target n ∈ O')
    (h3 : ∀ t, (n.kind = .alias t ∨ n.kind = .virtual t) → Obl.alias n.ident t ∈ O') :
    FactsJ O' s' := by
  rcases h with h | h
  · exact .inl (hm.log _ h)
  · have hnew : ∀ m ∈ s.nodes, m.ident ≠ n.ident := by
      intro m hm' he
      have := has_of_Has (s := s) ⟨m, hm', he⟩
      rw [hh] at this
      simp at this
    have hmem : ∀ m ∈ s'.nodes, m ∈ s.nodes ∨ m = n := by
      intro m hm'
      rw [hm.nodes] at hm'
      simpa [St.addNode] using hm'
    refine .inr (h.step (fun m hm' => by rw [hm.nodes]; simp [St.addNode, hm']) ?_ ?_ hm.edges hm.log (fun a b c d => .inl (hs a b c d)) ?_ ?_ ?_)
    · intro m hm'
      rcases hmem m hm' with h | rfl
      · exact .inl h
      · exact .inr hnew
    · intro a ha b hb h4 h5
      rcases hmem a ha with h | rfl <;> rcases hmem b hb with h' | rfl
      · exact absurd h h4
      · exact absurd h h4
      · exact absurd h' h5
      · rfl
    · intro m hm' hb h4
      rcases hmem m hm' with h | rfl
      · obtain ⟨i, hi⟩ := h4 h
        exact .inr (.inl ⟨i, hO _ hi⟩)
      · exact h1 hb
    · intro m hm' hb h4
      rcases hmem m hm' with h | rfl
      · rcases h4 h with ⟨p, lm, h5⟩ | h5
        · exact .inr (.inr (.inl ⟨p, lm, hO _ h5⟩))
        · exact .inr (.inr (.inr (hO _ h5)))
      · exact .inr (.inr (h2 hb))
    · intro m hm' t ht h4
      rcases hmem m hm' with h | rfl
      · exact .inr (hO _ (h4 h))
      · exact .inr (h3 t ht)

theorem scanned_schedule (s : St W) (n i) : Scanned n.ident (s.schedule n i).log :=
  ⟨i, by rw [log_schedule]; simp⟩

theorem rpartition_last (s : Str) : '.' ∉ (rpartition '.' s).2.2 := by
  unfold rpartition
  cases h : rfindSplit '.' s with
  | none => exact rfindSplit_none.mp h
  | some p => exact (rfindSplit_some (a := p.1) (b := p.2)).mp h |>.2

/-- A node that was loaded is no alias or virtual module. -/
theorem FromSpec.loaded {env : Env W} {name n imports} (h : FromSpec env name n imports)
    (hN : env.MakesModules) : (n.isLoaded = true ∨ n.isMissing = true) ∧ n.isBaseNode = true ∧
      ∀ t, ¬ (n.kind = .alias t ∨ n.kind = .virtual t) := by
  obtain ⟨spec, w, w', _, h⟩ := h
  have hl := hN _ _ _ _ h
  refine ⟨hl, ?_⟩
  cases hk : n.kind <;>
    simp_all [Node.isLoaded, Node.isModule, Node.isPackage, Node.isNamespacePkg, Node.isBaseNode, Node.isMissing]

theorem factsCtx (env : Env W) (hN : env.MakesModules) : Ctx env ApiOp.NoAddNode (FactsJ (W := W)) (fun _ => True) where
  aAddModule _ _ := trivial
  toE _ := trivial
  world w h := h.more ⟨rfl, fun _ h => h, fun _ h => h⟩
  looked h := h.more (more_event _ _)
  asked _ _ _ h := h.more (more_event _ _)
  called _ _ h := h.more (more_event _ _)
  failed _ := .inl (by simp [St.event])
  pushLoad := by
    intro O s name p b lm h hsp _
    refine h.obl (.refl s) ?_ (fun _ _ _ h => .inr (.inl (by simpa using h))) ?_ ?_
    · intro name' p' lm' hm
      rcases List.mem_cons.mp hm with he | hm
      · cases he; exact .inr ⟨b, hsp⟩
      · exact .inl hm
    · intro _ n hn hb h
      rcases h with ⟨p, lm, h⟩ | h
      · exact .inr (.inr (.inl ⟨p, lm, List.mem_cons_of_mem _ h⟩))
      · exact .inr (.inr (.inr (List.mem_cons_of_mem _ h)))
    · intro n hn t ht h
      exact .inr (List.mem_cons_of_mem _ h)
  popLoad := by
    intro O s name lm h hn
    refine h.obl (.refl s) (fun _ _ _ h => .inl (List.mem_cons_of_mem _ h))
      (fun _ _ _ h => .inr (.inl (by simpa using h))) ?_ (fun _ _ _ _ h => .inr (by simpa using h))
    intro hf n hn hb h
    rcases h with ⟨p, lm', h⟩ | h
    · rcases List.mem_cons.mp h with he | h
      · cases he
        obtain ⟨b, hsp⟩ := hf.split _ _ _ (List.mem_cons_self ..)
        exact .inl ⟨_, hsp, by simp⟩
      · exact .inr (.inr (.inl ⟨p, lm', h⟩))
    · exact .inr (.inr (.inr (by simpa using h)))
  popLoadLink := by
    intro O s name p lm h hn hp
    refine h.obl (more_addEdge ..) (fun _ _ _ h => .inl (List.mem_cons_of_mem _ h))
      (fun _ _ _ h => .inr (.inl (by simpa using h))) ?_ (fun _ _ _ _ h => .inr (by simpa using h))
    intro hf n hn hb h
    rcases h with ⟨p, lm', h⟩ | h
    · rcases List.mem_cons.mp h with he | h
      · cases he
        obtain ⟨b, hsp⟩ := hf.split _ _ _ (List.mem_cons_self ..)
        exact .inl ⟨_, hsp, by intro p hp; simp at hp; subst hp; exact addEdge_mem _ _ _ _⟩
      · exact .inr (.inr (.inl ⟨p, lm', h⟩))
    · exact .inr (.inr (.inr (by simpa using h)))
  popLoadMissing := by
    intro O s p n h hn hm ht
    refine h.obl (.refl s) (fun _ _ _ h => .inl (List.mem_cons_of_mem _ h))
      (fun _ _ _ h => .inr (.inl (by simpa using h))) ?_ (fun _ _ _ _ h => .inr (by simpa using h))
    intro hf n' hn' hb h
    rcases h with ⟨p, lm', h⟩ | h
    · rcases List.mem_cons.mp h with he | h
      · obtain ⟨b, hsp⟩ := hf.split _ _ _ (List.mem_cons_self ..)
        simp only [Obl.load.injEq] at he
        have := hf.uniq n' hn' n hn he.1
        subst this
        exact .inr (.inl ⟨hm, ht, _, hsp⟩)
      · exact .inr (.inr (.inl ⟨p, lm', h⟩))
    · exact .inr (.inr (.inr (by simpa using h)))
  addExcludedSub := by
    intro O s name p lm parent h _ _ _ hh
    exact h.add hh (more_schedule _ _ _) (fun _ h => h) (fun _ _ _ h => h)
      (fun _ => .inl (scanned_schedule _ _ _)) (fun _ => .inl ⟨p, lm, List.mem_cons_self ..⟩)
      (by simp [excludedNode])
  addMissing := by
    intro O s name p lm h hh _ _
    exact h.add hh (more_schedule _ _ _) (fun _ h => h) (fun _ _ _ h => h)
      (fun _ => .inl (scanned_schedule _ _ _)) (fun _ => .inl ⟨p, lm, List.mem_cons_self ..⟩)
      (by simp [missingNode])
  addSwig := by
    intro O s p lm n imp h hh _ hx hi
    refine h.add hh (.refl _) (fun _ h => h) (fun _ _ _ h => h)
      (fun _ => .inr (.inr ⟨hx, _, hi, rpartition_last _⟩)) (fun _ => .inl ⟨p, lm, List.mem_cons_self ..⟩) ?_
    intro t ht
    rcases ht with ht | ht <;> simp [Node.isExtension, ht] at hx
  popExcluded := by
    intro O s name p lm h hh _
    exact (h.more (more_popLazy s name)).add (by exact hh) (more_schedule _ _ _) (fun _ h => h) (fun _ _ _ h => h)
      (fun _ => .inl (scanned_schedule _ _ _)) (fun _ => .inl ⟨p, lm, List.mem_cons_self ..⟩)
      (by simp [excludedNode])
  popAlias := by
    intro O s name p lm t h hh _
    exact (h.more (more_popLazy s name)).add (by exact hh) (more_schedule _ _ _)
      (fun _ h => List.mem_cons_of_mem _ h) (fun _ _ _ h => by simpa using h)
      (fun _ => .inl (scanned_schedule _ _ _)) (fun _ => .inl ⟨p, lm, by simp [aliasNode]⟩)
      (by simp [aliasNode])
  popVirtual := by
    intro O s name p lm t h hh _
    exact (h.more (more_popLazy s name)).add (by exact hh) (more_schedule _ _ _)
      (fun _ h => List.mem_cons_of_mem _ h) (fun _ _ _ h => by simpa using h)
      (fun _ => .inl (scanned_schedule _ _ _)) (fun _ => .inl ⟨p, lm, by simp [virtualNode]⟩)
      (by simp [virtualNode])
  doneAlias := by
    intro O s name t h _ _
    refine h.obl (more_addEdge ..) (fun _ _ _ h => .inl (List.mem_cons_of_mem _ h))
      (fun _ _ _ h => .inr (.inl (by simpa using h)))
      (fun _ _ _ _ h => .inr (.inr (by simpa using h))) ?_
    intro n hn t' ht h
    rcases List.mem_cons.mp h with he | h
    · cases he
      exact .inl (addEdge_mem _ _ _ _)
    · exact .inr h
  popRefs := by
    intro O s name p lm names h _ _
    exact h.obl (more_popLazy s name) (fun _ _ _ h => .inl (by simpa using h))
      (fun _ _ _ h => .inr (.inl (by simpa using h)))
      (fun _ _ _ _ h => .inr (.inr (by simpa using h))) (fun _ _ _ _ h => .inr (by simpa using h))
  doneRef := by
    intro O s name all r rest h _ _
    exact h.obl (more_addEdge ..) (fun _ _ _ h => .inl (by simpa using h))
      (fun _ _ _ h => .inr (.inl (by simpa using h)))
      (fun _ _ _ _ h => .inr (.inr (by simpa using h))) (fun _ _ _ _ h => .inr (by simpa using h))
  doneRefs := by
    intro O s name all h _
    exact h.obl (.refl s) (fun _ _ _ h => .inl (by simpa using h))
      (fun _ _ _ h => .inr (.inl (by simpa using h)))
      (fun _ _ _ _ h => .inr (.inr (by simpa using h))) (fun _ _ _ _ h => .inr (by simpa using h))
  addAlias := by
    intro O s name p lm n imports h hh _ _ _
    exact h.add hh (more_schedule _ _ _)
      (fun _ h => List.mem_cons_of_mem _ h) (fun _ _ _ h => by simpa using h)
      (fun _ => .inl (scanned_schedule _ _ _)) (fun _ => .inl ⟨p, lm, by simp [aliasNode]⟩)
      (by simp [aliasNode])
  addTarget := by
    intro O s name n imports h hh hf _
    obtain ⟨h1, h2, h3⟩ := hf.loaded hN
    exact h.add hh (more_schedule _ _ _)
      (fun _ h => List.mem_cons_of_mem _ h) (fun _ _ _ h => by simpa using h)
      (fun _ => .inl (scanned_schedule _ _ _)) (fun _ => .inr (List.mem_cons_self ..))
      (fun t ht => absurd ht (h3 t))
  doneTarget := by
    intro O s n b h hsp hn
    refine h.obl (.refl s) (fun _ _ _ h => .inl (by simpa using h))
      (fun _ _ _ h => .inr (.inl (by simpa using h))) ?_ (fun _ _ _ _ h => .inr (by simpa using h))
    intro hf m hm hb h
    rcases h with h | h
    · exact .inr (.inr (.inl (by simpa using h)))
    · rcases List.mem_cons.mp h with he | h
      · cases he
        exact .inl ⟨_, hsp, by simp⟩
      · exact .inr (.inr (.inr h))
  doneTargetLink := by
    intro O s n p b h hsp hn hp
    refine h.obl (more_addEdge ..) (fun _ _ _ h => .inl (by simpa using h))
      (fun _ _ _ h => .inr (.inl (by simpa using h))) ?_ (fun _ _ _ _ h => .inr (by simpa using h))
    intro hf m hm hb h
    rcases h with h | h
    · exact .inr (.inr (.inl (by simpa using h)))
    · rcases List.mem_cons.mp h with he | h
      · cases he
        exact .inl ⟨_, hsp, by intro p hp; simp at hp; subst hp; exact addEdge_mem _ _ _ _⟩
      · exact .inr (.inr (.inr h))
  addLoaded := by
    intro O s p lm n imports h hh _ hf
    obtain ⟨h1, h2, h3⟩ := hf.loaded hN
    exact h.add hh (.refl _)
      (fun _ h => List.mem_cons_of_mem _ h) (fun _ _ _ h => by simpa using h)
      (fun _ => .inr (.inl ⟨imports, List.mem_cons_self ..⟩))
      (fun _ => .inl ⟨p, lm, by simp⟩) (fun t ht => absurd ht (h3 t))
  nsEdge h _ _ _ := h.more (more_addEdge ..)
  schedNode := by
    intro O s n imports h hn _
    refine h.obl (more_schedule ..) (fun _ _ _ h => .inl (by simpa using h)) ?_
      (fun _ _ _ _ h => .inr (.inr (by simpa using h))) (fun _ _ _ _ h => .inr (by simpa using h))
    intro m hm hb h
    obtain ⟨i, h⟩ := h
    rcases List.mem_cons.mp h with he | h
    · cases he
      exact .inl (scanned_schedule _ _ _)
    · exact .inr (.inl ⟨i, h⟩)
  addInvalid := by
    intro s m i h _ _ hh
    exact h.add hh (more_schedule _ _ _) (fun _ h => h) (fun _ _ _ h => h)
      (fun _ => .inl (scanned_schedule _ _ _)) (by simp [Node.namesModule, invalidRelNode, Node.isInvalidRel])
      (by simp [invalidRelNode])
  finishInvalid h _ _ _ _ _ _ := h.more ((more_addEdge ..).trans (more_event ..))
  finishImp _ h _ _ _ _ := h.more (.trans (more_addEdge ..) ⟨rfl, fun _ h => h, fun _ h => List.mem_append_left _ h⟩)
  globals _ h _ := h.more ⟨rfl, fun _ h => h, fun _ h => h⟩
  reexport h _ _ _ _ _ _ := h.more (more_addEdge ..)
  subLink h _ _ _ _ _ := h.more (more_addEdge ..)
  subEdge h _ _ _ _ _ := h.more (more_addEdge ..)
  sixEdge h _ _ _ _ _ _ _ := h.more (more_addEdge ..)
  pkgEdge h _ _ _ := h.more (more_addEdge ..)
  pkgSub h _ _ _ _ := h.more (more_addEdge ..)
  pushPkg h _ _ _ := h.more ⟨rfl, fun _ h => h, fun _ h => h⟩
  pop h _ := h.more ⟨rfl, fun _ h => h, fun _ h => List.mem_append_left _ h⟩
  enter h := h.more ⟨rfl, fun _ h => h, fun _ h => h⟩
  exit _ h _ := h.more ⟨rfl, fun _ h => h, fun _ h => h⟩
  exitE _ _ _ := trivial
  script := by
    intro s path infos file h _ hh _
    exact h.add hh (more_schedule _ _ _) (fun _ h => h) (fun _ _ _ h => h)
      (fun _ => .inl (scanned_schedule _ _ _)) (by simp [Node.namesModule, Node.isScript]) (by simp)
  addRoot h _ _ := h.more (more_addRoot ..)
  addDist := by
    intro s d h hh _
    exact h.add hh (.refl _) (fun _ h => by simp at h) (by simp) (by simp [distNode, Node.isBaseNode])
      (by simp [distNode, Node.namesModule, Node.isBaseNode]) (by simp [distNode])
  distEdge := by
    intro s d r rest h _ _
    exact h.obl (more_addEdge ..) (by simp) (by simp) (by simp) (by simp)
  doneDist := by
    intro s d h _
    exact h.obl (.refl s) (by simp) (by simp) (by simp) (by simp)
  importModule h _ _ _ := h.more (more_addEdge ..)
  exclude _ _ h := h.more (more_excludes ..)
  imply _ _ h := h.more (more_implies ..)
  missHook _ _ h := h.more ⟨rfl, fun _ h => h, fun _ h => h⟩
  postHook _ _ h := h.more ⟨rfl, fun _ h => h, fun _ h => h⟩
  apiAddNode _ h := h.elim
  apiAddEdge _ _ _ _ h _ _ := h.more (more_addEdge ..)
  apiSchedule _ _ _ h := h.more (more_schedule ..)
  mypycEdge h _ _ _ _ _ := h.more (more_addEdge ..)
  mypycSched h _ _ _ := h.more (more_schedule ..)

end Verif
