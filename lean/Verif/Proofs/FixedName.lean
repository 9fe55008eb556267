import Verif.Proofs.EdgeFacts
/-!
# Following one name through a run

`x` is excluded, an alias or virtual (`i`) and there is no node for it yet.
-/
namespace Verif
open M Spec
variable {W : Type}

/-- The kind of node a configured name turns into. -/
def kindFor : Implies → Option Kind
  | .excluded => some .excluded
  | .alias t => some (.alias t)
  | .virtual t => some (.virtual t)
  | .refs _ => none

section
variable (x : Str) (i : Implies)

structure FixCore (s : St W) : Prop where
  pp : ∀ n, (Item.pp n ∈ pending s ∨ Event.started (.pp n) ∈ s.log) → n ∈ s.nodes
  cfg : s.has x = true ∨ s.lazy x = some i
  node : ∀ m ∈ s.nodes, m.ident = x → m.namesModule = true →
    kindFor i = some m.kind ∨ PkgBlocked s.nodes x m
  scan : ∀ infos, Event.scheduled x infos ∈ s.log → infos = [] ∨
    ∃ m ∈ s.nodes, m.ident = x ∧ m.isScript = true

def FixOk : Obl → Prop
  | .load name p _ => ∃ b, splitPackage name = .ok (p, b)
  | .node n _ => n.ident ≠ x
  | _ => True

def FixJ (O : List Obl) (s : St W) : Prop := FixCore x i s ∧ ∀ o ∈ O, FixOk x o
end

variable {x : Str} {i : Implies} {s s' : St W} {O O' : List Obl}

theorem PkgBlocked.sub {l l' : List Node} (h : ∀ n ∈ l, n ∈ l') {m} (hb : PkgBlocked l x m) :
    PkgBlocked l' x m :=
  hb.imp (fun ⟨h1, q, h2, h3⟩ => ⟨h1, q, h q h2, h3⟩) (fun ⟨h1, q, h2, h3⟩ => ⟨h1, q, h q h2, h3⟩)

theorem has_sub (hn : ∀ n ∈ s.nodes, n ∈ s'.nodes) (h : s.has x = true) : s'.has x = true := by
  obtain ⟨n, h1, h2⟩ := Has_of_has h
  exact has_of_Has ⟨n, hn n h1, h2⟩

theorem FixCore.step (h : FixCore x i s) (hn : ∀ n ∈ s.nodes, n ∈ s'.nodes)
    (hnew : ∀ m ∈ s'.nodes, m ∈ s.nodes ∨ (m.ident = x → m.namesModule = true →
      kindFor i = some m.kind ∨ PkgBlocked s'.nodes x m))
    (hcfg : s.has x = false → s.lazy x = some i → s'.has x = true ∨ s'.lazy x = some i)
    (hpp : ∀ n, (Item.pp n ∈ pending s' ∨ Event.started (.pp n) ∈ s'.log) →
      (Item.pp n ∈ pending s ∨ Event.started (.pp n) ∈ s.log) ∨ n ∈ s'.nodes)
    (hsc : ∀ infos, Event.scheduled x infos ∈ s'.log → Event.scheduled x infos ∈ s.log ∨ infos = [] ∨
      ∃ m ∈ s'.nodes, m.ident = x ∧ m.isScript = true) : FixCore x i s' where
  pp n hm := (hpp n hm).elim (fun h' => hn n (h.pp n h')) id
  cfg := by
    cases hh : s.has x with
    | true => exact .inl (has_sub hn hh)
    | false =>
      rcases h.cfg with h1 | h1
      · rw [hh] at h1; cases h1
      · exact hcfg hh h1
  node m hm hid hb := (hnew m hm).elim
    (fun h' => (h.node m h' hid hb).imp id (PkgBlocked.sub hn)) (fun h' => h' hid hb)
  scan infos hev := (hsc infos hev).elim
    (fun h' => (h.scan infos h').imp id fun ⟨m, h1, h2⟩ => ⟨m, hn m h1, h2⟩) id

/-- Nothing about nodes and configuration changes; the log gets at most one other event. -/
theorem FixCore.same (h : FixCore x i s) (hn : s'.nodes = s.nodes) (hl : s'.lazy x = s.lazy x)
    (hp : ∀ it, it ∈ pending s' → it ∈ pending s ∨ ∀ n, it ≠ .pp n)
    (hlog : ∀ e ∈ s'.log, e ∈ s.log ∨ (∃ it, e = .started it ∧ it ∈ pending s) ∨
      ((∀ it, e ≠ .started it) ∧ ∀ id infos, e ≠ .scheduled id infos)) : FixCore x i s' := by
  refine h.step (by rw [hn]; exact fun _ h => h) (by rw [hn]; exact fun _ h => .inl h)
    (by rw [hl]; exact fun _ h => .inr h) ?_ ?_
  · rintro n (h1 | h1)
    · rcases hp _ h1 with h2 | h2
      · exact .inl (.inl h2)
      · exact absurd rfl (h2 n)
    · rcases hlog _ h1 with h2 | ⟨it, he, h2⟩ | ⟨h2, _⟩
      · exact .inl (.inr h2)
      · cases he; exact .inl (.inl h2)
      · exact absurd rfl (h2 _)
  · intro infos h1
    rcases hlog _ h1 with h2 | ⟨it, he, h2⟩ | ⟨_, h2⟩
    · exact .inl h2
    · cases he
    · exact absurd rfl (h2 _ _)

theorem FixCore.event (h : FixCore x i s) (e : Event) (he : (∀ it, e ≠ .started it) ∧
    ∀ id infos, e ≠ .scheduled id infos) : FixCore x i (s.event e) := by
  refine h.same rfl rfl (fun _ h => .inl h) ?_
  intro e' he'
  simp only [St.event, List.mem_append, List.mem_singleton] at he'
  rcases he' with h1 | rfl
  · exact .inl h1
  · exact .inr (.inr he)

theorem pending_addEdge (s : St W) (a b d) : pending (s.addEdge a b d) = pending s ∧
    (s.addEdge a b d).lazy = s.lazy ∧ (s.addEdge a b d).log = s.log := by
  unfold St.addEdge; split <;> exact ⟨rfl, rfl, rfl⟩

theorem FixCore.addEdge (h : FixCore x i s) (a b d) : FixCore x i (s.addEdge a b d) := by
  obtain ⟨h1, h2, h3⟩ := pending_addEdge s a b d
  refine h.same (more_addEdge s a b d).nodes (by rw [h2]) (by rw [h1]; exact fun _ h => .inl h) ?_
  rw [h3]; exact fun _ h => .inl h

theorem FixCore.addRoot (h : FixCore x i s) (a) : FixCore x i (s.addRoot a) := by
  refine h.same (more_addRoot s a).nodes ?_ ?_ ?_ <;> (unfold St.addRoot; split)
  · rfl
  · rfl
  · exact fun _ h => .inl h
  · exact fun _ h => .inl h
  · exact fun _ h => .inl h
  · exact fun _ h => .inl h

theorem schedule_lazy (s : St W) (n infos) : (s.schedule n infos).lazy = s.lazy := by
  unfold St.schedule; simp only []; split <;> rfl

theorem FixCore.schedule (h : FixCore x i s) {n} (infos) (hm : n ∈ s.nodes)
    (hs : n.ident = x → infos = [] ∨ n.isScript = true) : FixCore x i (s.schedule n infos) := by
  have hn := (more_schedule s n infos).nodes
  refine h.step (by rw [hn]; exact fun _ h => h) (by rw [hn]; exact fun _ h => .inl h)
    (by rw [schedule_lazy]; exact fun _ h => .inr h) ?_ ?_
  · intro m hit
    rw [log_schedule, schedule_pending] at hit
    simp only [List.mem_append, List.mem_singleton, reduceCtorEq, or_false] at hit
    rcases hit with ((h1 | h1) | h1) | h1
    · exact .inl (.inl h1)
    · right
      split at h1
      · simp at h1
      · simp only [List.mem_singleton, Item.pp.injEq] at h1
        subst h1
        rw [hn]; exact hm
    · simp at h1
    · exact .inl (.inr h1)
  · intro infos' hev
    rw [log_schedule] at hev
    simp only [List.mem_append, List.mem_singleton, Event.scheduled.injEq] at hev
    rcases hev with h1 | ⟨rfl, rfl⟩
    · exact .inl h1
    · rcases hs rfl with h2 | h2
      · exact .inr (.inl h2)
      · exact .inr (.inr ⟨n, hn ▸ hm, rfl, h2⟩)

theorem FixCore.addNode (h : FixCore x i s) (n : Node) (hg : n.ident = x → n.namesModule = true →
    kindFor i = some n.kind ∨ PkgBlocked (s.nodes ++ [n]) x n) : FixCore x i (s.addNode n) := by
  refine h.step (fun _ h => List.mem_append_left _ h) ?_ (fun _ h => .inr h) (fun _ h => .inl h)
    (fun _ h => .inl h)
  intro m hm
  rcases List.mem_append.mp hm with h1 | h1
  · exact .inl h1
  · simp only [List.mem_singleton] at h1
    subst h1
    exact .inr hg

/-- A new node with no imports. -/
theorem FixCore.addSched (h : FixCore x i s) (n : Node) (infos) (hg : n.ident = x →
    n.namesModule = true → kindFor i = some n.kind ∨ PkgBlocked (s.nodes ++ [n]) x n)
    (hs : n.ident = x → infos = [] ∨ n.isScript = true) :
    FixCore x i ((s.addNode n).schedule n infos) :=
  (h.addNode n hg).schedule infos (by simp [St.addNode]) hs

theorem FixCore.addGlobals (h : FixCore x i s) (a names) : FixCore x i (s.addGlobals a names) :=
  h.same rfl rfl (fun _ h => .inl h) (fun _ h => .inl h)

/-- Popping the entry of the name of a new node. -/
theorem FixCore.popSched (h : FixCore x i s) (n : Node)
    (hg : n.ident = x → kindFor i = some n.kind) :
    FixCore x i (((s.popLazy n.ident).addNode n).schedule n []) := by
  have hc : FixCore x i ((s.popLazy n.ident).addNode n) := by
    refine h.step (fun _ h => List.mem_append_left _ h) ?_ ?_ (fun _ h => .inl h) (fun _ h => .inl h)
    · intro m hm
      rcases List.mem_append.mp hm with h1 | h1
      · exact .inl h1
      · simp only [List.mem_singleton] at h1
        subst h1
        exact .inr fun h1 _ => .inl (hg h1)
    · intro _ hl
      by_cases he : n.ident = x
      · left; exact has_of_Has ⟨n, by simp [St.addNode], he⟩
      · right
        show (if x = n.ident then none else s.lazy x) = _
        rw [if_neg (fun h => he h.symm)]
        exact hl
  exact hc.schedule [] (by simp [St.addNode]) (fun _ => .inl rfl)

theorem FixJ.obl (h : FixJ x i O s) (hc : FixCore x i s') (ho : ∀ o ∈ O', o ∈ O ∨ FixOk x o) :
    FixJ x i O' s' := ⟨hc, fun o hm => (ho o hm).elim (h.2 o) id⟩
theorem FixJ.keep (h : FixJ x i O s) (hc : FixCore x i s') : FixJ x i O s' := ⟨hc, h.2⟩
theorem FixJ.tail {o} (h : FixJ x i (o :: O) s) (hc : FixCore x i s') : FixJ x i O s' :=
  ⟨hc, fun o hm => h.2 o (List.mem_cons_of_mem _ hm)⟩
theorem FixJ.push {o} (h : FixJ x i O s) (hc : FixCore x i s') (ho : FixOk x o) :
    FixJ x i (o :: O) s' := by
  refine ⟨hc, fun o' hm => ?_⟩
  rcases List.mem_cons.mp hm with rfl | hm
  · exact ho
  · exact h.2 o' hm

/-- Nothing gets loaded under the name. -/
theorem FixCore.blocked (h : FixCore x i s) {name} (hh : s.has name = false)
    (hl : s.lazy name ≠ some i) : name ≠ x := by
  rintro rfl
  rcases h.cfg with h1 | h1
  · rw [hh] at h1; cases h1
  · exact hl h1

theorem not_isLoaded_of_fixed (hi : kindFor i ≠ none) {m : Node} {l}
    (h : kindFor i = some m.kind ∨ PkgBlocked l x m) : m.isExtension = false ∧ m.isPackage = false := by
  rcases h with h | h | h
  · cases i <;> simp only [kindFor, Option.some.injEq, reduceCtorEq] at h <;>
      simp [Node.isExtension, Node.isPackage, ← h]
  · have := h.1
    cases hk : m.kind <;> simp_all [Node.isExtension, Node.isPackage, Node.isMissing]
  · have := h.1
    cases hk : m.kind <;> simp_all [Node.isExtension, Node.isPackage, Node.isExcluded]

def FixA (x : Str) (i : Implies) (o : ApiOp) : Prop := o.NoRaw ∧ o.KeepsConf x i

theorem fixCtx (env : Env W) (hK : env.OnlyAs x) (hi : kindFor i ≠ none) :
    Ctx env (FixA x i) (FixJ (W := W) x i) (FixCore x i) where
  aAddModule _ _ := ⟨trivial, trivial⟩
  toE h := h.1
  world w h := h.keep (h.1.same rfl rfl (fun _ h => .inl h) (fun _ h => .inl h))
  looked h := h.keep (h.1.event _ ⟨by simp, by simp⟩)
  asked _ _ _ h := h.keep (h.1.event _ ⟨by simp, by simp⟩)
  called _ _ h := h.keep (h.1.event _ ⟨by simp, by simp⟩)
  failed h := ⟨h.event _ ⟨by simp, by simp⟩, by simp⟩
  pushLoad _ h hsp _ := h.push h.1 ⟨_, hsp⟩
  popLoad h _ := h.tail h.1
  popLoadLink h _ _ := h.tail (h.1.addEdge ..)
  popLoadMissing h _ _ _ := h.tail h.1
  addExcludedSub := by
    intro O s name p lm parent h hp he hx hh
    obtain ⟨b, hsp⟩ := h.2 _ (List.mem_cons_self ..)
    refine h.keep (h.1.addSched _ _ ?_ (fun _ => .inl rfl))
    rintro rfl _
    subst he
    exact .inr (.inr ⟨rfl, parent, by simp [hp], hx, inPackage_of_split hsp⟩)
  addMissing := by
    intro O s name p lm h hh hc _
    obtain ⟨b, hsp⟩ := h.2 _ (List.mem_cons_self ..)
    refine h.keep (h.1.addSched _ _ ?_ (fun _ => .inl rfl))
    rintro rfl _
    rcases hc with ⟨q, h1, rfl, h3⟩ | hc
    · exact .inr (.inl ⟨rfl, q, by simp [h1], h3, inPackage_of_split hsp⟩)
    · exact absurd rfl (h.1.blocked hh (by show s.lazy name ≠ _; rw [hc]; simp))
  addSwig := by
    intro O s p lm n imp h hh hc hext hid
    obtain ⟨b, hsp⟩ := h.2 _ (List.mem_cons_self ..)
    refine h.keep (h.1.addNode _ ?_)
    intro he _
    rcases hc with ⟨q, h1, rfl, h3⟩ | hc
    · exfalso
      have hd : '.' ∉ n.ident := by
        rw [hid]
        simp only [List.mem_cons, not_or]
        refine ⟨by decide, ?_⟩
        exact rpartition_last imp
      obtain ⟨y, -, h4 | ⟨hne, h4, h5⟩⟩ := inPackage_of_split hsp
      · exact hd (h4 ▸ by simp)
      · obtain ⟨c, r, hcr⟩ := List.exists_cons_of_ne_nil hne
        exact hd (by rw [h5, hcr]; simp [h4 c (by simp [hcr])])
    · exact absurd he (h.1.blocked hh (by rw [hc]; simp))
  popExcluded := by
    intro O s name p lm h hh hl
    refine h.keep (h.1.popSched (excludedNode name) ?_)
    rintro rfl
    rcases h.1.cfg with h1 | h1
    · rw [show s.has (excludedNode name).ident = false from hh] at h1; cases h1
    · rw [show s.lazy (excludedNode name).ident = _ from hl] at h1; cases h1; rfl
  popAlias := by
    intro O s name p lm t h hh hl
    refine h.push (h.1.popSched (aliasNode name t) ?_) trivial
    rintro rfl
    rcases h.1.cfg with h1 | h1
    · rw [show s.has (aliasNode name t).ident = false from hh] at h1; cases h1
    · rw [show s.lazy (aliasNode name t).ident = _ from hl] at h1; cases h1; rfl
  popVirtual := by
    intro O s name p lm t h hh hl
    refine h.push (h.1.popSched (virtualNode name t) ?_) trivial
    rintro rfl
    rcases h.1.cfg with h1 | h1
    · rw [show s.has (virtualNode name t).ident = false from hh] at h1; cases h1
    · rw [show s.lazy (virtualNode name t).ident = _ from hl] at h1; cases h1; rfl
  doneAlias h _ _ := h.tail (h.1.addEdge ..)
  popRefs := by
    intro O s name p lm names h hh hl
    refine h.push (h.1.same (s' := s.popLazy name) rfl ?_ (fun _ h => .inl h) (fun _ h => .inl h)) trivial
    have : name ≠ x := h.1.blocked hh (by
      rw [hl]
      intro he
      cases he
      exact hi rfl)
    show (if x = name then none else s.lazy x) = s.lazy x
    rw [if_neg (fun h => this h.symm)]
  doneRef h _ _ := (h.tail h.1).push (h.1.addEdge ..) trivial
  doneRefs h _ := h.tail h.1
  addAlias := by
    intro O s name p lm n imports h hh hl hf hne
    have hx : name ≠ x := h.1.blocked hh (by rw [hl]; simp)
    exact h.push (h.1.addSched (aliasNode name n.ident) _ (fun he => absurd he hx) (fun _ => .inl rfl)) trivial
  addTarget := by
    intro O s name n imports h hh hf hne
    obtain ⟨spec, w, w', h1, h2⟩ := hf
    have hx : n.ident ≠ x := fun he => hne (he.trans (hK _ _ _ _ _ _ (locates_iff.mpr h1) h2 he).symm)
    exact h.push (h.1.addSched n _ (fun he => absurd he hx) (fun he => absurd he hx)) trivial
  doneTarget h _ _ := h.tail h.1
  doneTargetLink h _ _ _ := h.tail (h.1.addEdge ..)
  addLoaded := by
    intro O s p lm n imports h hh hl hf
    have hne : n.ident ≠ x := h.1.blocked hh (by rw [hl]; simp)
    exact h.push (h.1.addNode n (fun he => absurd he hne)) hne
  nsEdge h _ _ _ := h.keep (h.1.addEdge ..)
  schedNode h hn _ := h.tail (h.1.schedule _ hn fun he => absurd he (h.2 _ (List.mem_cons_self ..)))
  addInvalid h _ _ _ := h.keep (h.1.addSched _ _
    (fun _ hb => by simp [Node.namesModule, invalidRelNode, Node.isInvalidRel] at hb) (fun _ => .inl rfl))
  finishInvalid h _ _ _ _ _ _ := h.keep ((h.1.addEdge ..).event _ ⟨by simp, by simp⟩)
  finishImp := by
    intro s m j n offset h _ _ _ _
    have hc := h.1.addEdge m.ident n.ident (fromImportInfo j false j.importModule.asname)
    revert hc
    generalize s.addEdge m.ident n.ident (fromImportInfo j false j.importModule.asname) = s1
    intro hc
    refine h.keep (hc.same rfl rfl ?_ ?_)
    · intro it hit
      simp only [pending, List.mem_append, List.mem_singleton] at hit
      rcases hit with h3 | (h3 | h3) | h3
      · exact .inl (by simp [pending, h3])
      · exact .inl (List.mem_append_right _ (List.mem_of_mem_take h3))
      · subst h3; exact .inr (by simp)
      · exact .inl (List.mem_append_right _ (List.mem_of_mem_drop h3))
    · intro e he
      simp only [List.mem_append, List.mem_singleton] at he
      rcases he with he | rfl
      · exact .inl he
      · exact .inr (.inr ⟨by simp, by simp⟩)
  globals _ h _ := h.keep (h.1.addGlobals ..)
  reexport h _ _ _ _ _ _ := h.keep (h.1.addEdge ..)
  subLink h _ _ _ _ _ := h.keep (h.1.addEdge ..)
  subEdge h _ _ _ _ _ := h.keep (h.1.addEdge ..)
  sixEdge h _ _ _ _ _ _ _ := h.keep (h.1.addEdge ..)
  pkgEdge h _ _ _ := h.keep (h.1.addEdge ..)
  pkgSub h _ _ _ _ := h.keep (h.1.addEdge ..)
  pushPkg h _ _ _ := h.keep (h.1.same rfl rfl (by
    intro it hit
    simp only [pending, List.mem_append, List.mem_singleton] at hit ⊢
    rcases hit with h1 | h1 | rfl
    · exact .inl (.inl h1)
    · exact .inl (.inr h1)
    · exact .inr (by simp)) (fun _ h => .inl h))
  pop {s st it} h hst := by
    refine h.keep (h.1.same rfl rfl ?_ ?_)
    · intro y hy
      simp only [pending, hst] at hy ⊢
      simp at hy ⊢
      grind
    · intro e he
      simp only [List.mem_append, List.mem_singleton] at he
      rcases he with he | rfl
      · exact .inl he
      · exact .inr (.inl ⟨it, rfl, by simp [pending, hst]⟩)
  enter {s} h := h.keep (h.1.same rfl rfl (fun y hy => .inl (by simpa [pending] using hy))
    (fun _ h => .inl h))
  exit {s0 s} h0 h hh := h.keep (h.1.same rfl rfl (fun y hy => .inl (by
      simp only [pending, hh] at hy ⊢
      simpa [List.append_assoc] using hy)) (fun _ h => .inl h))
  exitE {s0 s} h0 h hh := h.same rfl rfl (fun y hy => .inl (by
      simp only [pending, hh] at hy ⊢
      simpa [List.append_assoc] using hy)) (fun _ h => .inl h)
  script h _ _ _ := h.keep (h.1.addSched _ _
    (fun _ hb => by simp [Node.namesModule, Node.isScript] at hb) (fun _ => .inr rfl))
  addRoot h _ _ := h.keep (h.1.addRoot _)
  addDist d h _ _ := h.push (h.1.addNode _
    (fun _ hb => by simp [Node.namesModule, distNode, Node.isBaseNode] at hb)) trivial
  distEdge h _ _ := (h.tail h.1).push (h.1.addEdge ..) trivial
  doneDist h _ := h.tail h.1
  importModule h _ _ _ := h.keep (h.1.addEdge ..)
  exclude {s} names hA h := by
    refine h.keep ?_
    have hA := hA.2
    simp only [ApiOp.KeepsConf] at hA
    have : ∀ (l : List Str) (s : St W), (∀ y ∈ l, i = .excluded ∨ y ≠ x) → FixCore x i s →
        FixCore x i (l.foldl addExclude s) := by
      intro l
      induction l with
      | nil => exact fun s _ hs => hs
      | cons y l ih =>
        intro s hy hs
        refine ih _ (fun z hz => hy z (List.mem_cons_of_mem _ hz)) ?_
        refine hs.step (fun _ h => h) (fun _ h => .inl h) ?_ (fun _ h => .inl h) (fun _ h => .inl h)
        intro _ hl
        right
        simp only [addExclude]
        split
        · rename_i e
          rcases hy y (List.mem_cons_self ..) with h1 | h1
          · rw [h1]
          · exact absurd e.symm h1
        · exact hl
    refine this names s ?_ h.1
    intro y hy
    rcases hA with h1 | h1
    · exact .inl h1
    · exact .inr (fun e => h1 (e ▸ hy))
  imply {s} l hA h := by
    refine h.keep ?_
    have hA := hA.2
    simp only [ApiOp.KeepsConf] at hA
    have : ∀ (l : List (Str × Implies)) (s : St W), (i = .excluded ∨ ∀ j, (x, j) ∈ l → j = i) →
        FixCore x i s → FixCore x i (l.foldl addImply s) := by
      intro l
      induction l with
      | nil => exact fun s _ hs => hs
      | cons y l ih =>
        intro s hy hs
        refine ih _ (hy.imp id fun h j hj => h j (List.mem_cons_of_mem _ hj)) ?_
        unfold addImply
        split
        · exact hs
        · rename_i hne
          refine hs.step (fun _ h => h) (fun _ h => .inl h) ?_ (fun _ h => .inl h) (fun _ h => .inl h)
          intro _ hl
          right
          simp only []
          split
          · rename_i e
            rcases hy with h1 | h1
            · rw [← e, hl, h1] at hne; exact absurd rfl hne
            · rw [h1 y.2 (by rw [e]; exact List.mem_cons_self ..)]
          · exact hl
    exact this l s hA h.1
  missHook _ _ h := h.keep (h.1.same rfl rfl (fun _ h => .inl h) (fun _ h => .inl h))
  postHook _ _ h := h.keep (h.1.same rfl rfl (fun _ h => .inl h) (fun _ h => .inl h))
  apiAddNode _ hA := hA.1.elim
  apiAddEdge _ _ _ _ h _ _ := h.keep (h.1.addEdge ..)
  apiSchedule _ _ hA := hA.1.elim
  mypycEdge h _ _ _ _ _ := h.keep (h.1.addEdge ..)
  mypycSched := by
    intro s n imports h hst _ hk
    have hn := h.1.pp n (.inr hst)
    refine h.keep (h.1.schedule _ hn ?_)
    intro he
    exfalso
    have hb : n.namesModule = true := by
      cases hkk : n.kind <;>
        simp_all [Node.isExtension, Node.isPackage, Node.namesModule, Node.isBaseNode, Node.isScript,
          Node.isInvalidRel]
    have := not_isLoaded_of_fixed hi (h.1.node n hn he hb)
    simp [this] at hk

/-! ## A name with implied references -/

section
variable (x : Str) (names : List Str)

/-- Nothing happened yet; or the edges of `names` without `rest` are there. -/
structure RefJ (O : List Obl) (s : St W) : Prop where
  split : ∀ name p lm, Obl.load name p lm ∈ O → ∃ b, splitPackage name = .ok (p, b)
  phase : (s.lazy x = some (.refs names) ∧
      ∀ m ∈ s.nodes, m.ident = x → m.namesModule = true → PkgBlocked s.nodes x m) ∨
    (s.lazy x = none ∧ ((∃ rest, Obl.refs x names rest ∈ O ∧
        ∀ r ∈ names, r ∈ rest ∨ (x, r, defaultDep) ∈ s.edges) ∨
      ∀ r ∈ names, (x, r, defaultDep) ∈ s.edges))

def RefsJ (O : List Obl) (s : St W) : Prop := Event.failed ∈ s.log ∨ RefJ x names O s
end

variable {names : List Str}

/-- A step that keeps the configuration of `x`. -/
theorem RefsJ.step (h : RefsJ x names O s)
    (hlog : ∀ e ∈ s.log, e ∈ s'.log) (hlz : RefJ x names O s → s'.lazy x = s.lazy x)
    (hn : ∀ n ∈ s.nodes, n ∈ s'.nodes)
    (hnew : RefJ x names O s → s.lazy x = some (.refs names) → ∀ m ∈ s'.nodes, m ∈ s.nodes ∨
      (m.ident = x → m.namesModule = true → PkgBlocked s'.nodes x m))
    (he : ∀ e ∈ s.edges, e ∈ s'.edges)
    (ho : ∀ o ∈ O, o ∈ O' ∨ ∀ a b c, o ≠ .refs a b c)
    (hsp : ∀ name p lm, Obl.load name p lm ∈ O' → Obl.load name p lm ∈ O ∨
      ∃ b, splitPackage name = .ok (p, b)) : RefsJ x names O' s' := by
  rcases h with h | h
  · exact .inl (hlog _ h)
  · right
    refine ⟨fun a b c hm => (hsp a b c hm).elim (h.split a b c) id, ?_⟩
    rw [hlz h]
    refine h.phase.imp ?_ ?_
    · rintro ⟨h1, h2⟩
      refine ⟨h1, fun m hm hid hb => (hnew h h1 m hm).elim (fun h' => (h2 m h' hid hb).sub hn)
        (fun h' => h' hid hb)⟩
    · rintro ⟨h1, h2⟩
      refine ⟨h1, h2.imp ?_ (fun h3 r hr => he _ (h3 r hr))⟩
      rintro ⟨rest, h3, h4⟩
      refine ⟨rest, ?_, fun r hr => (h4 r hr).imp id (he _)⟩
      rcases ho _ h3 with h5 | h5
      · exact h5
      · exact absurd rfl (h5 _ _ _)

/-- The same obligations, nodes and configuration. -/
theorem RefsJ.same (h : RefsJ x names O s) (hm : More s s') (hlz : s'.lazy x = s.lazy x) :
    RefsJ x names O s' :=
  h.step hm.log (fun _ => hlz) (by rw [hm.nodes]; exact fun _ h => h)
    (by rw [hm.nodes]; exact fun _ _ _ h => .inl h) hm.edges (fun _ h => .inl h) (fun _ _ _ h => .inl h)

theorem RefsJ.obl (h : RefsJ x names O s) (ho : ∀ o ∈ O, o ∈ O' ∨ ∀ a b c, o ≠ .refs a b c)
    (hsp : ∀ name p lm, Obl.load name p lm ∈ O' → Obl.load name p lm ∈ O ∨
      ∃ b, splitPackage name = .ok (p, b)) : RefsJ x names O' s :=
  h.step (fun _ h => h) (fun _ => rfl) (fun _ h => h) (fun _ _ _ h => .inl h) (fun _ h => h) ho hsp

theorem RefsJ.tail {o} (h : RefsJ x names (o :: O) s) (hr : ∀ a b c, o ≠ .refs a b c) :
    RefsJ x names O s :=
  h.obl (by
    intro o' hm
    rcases List.mem_cons.mp hm with rfl | hm
    · exact .inr hr
    · exact .inl hm) (fun _ _ _ h => .inl (List.mem_cons_of_mem _ h))

theorem RefsJ.push {o} (h : RefsJ x names O s)
    (ho : ∀ name p lm, o = .load name p lm → ∃ b, splitPackage name = .ok (p, b)) :
    RefsJ x names (o :: O) s :=
  h.obl (fun _ hm => .inl (List.mem_cons_of_mem _ hm)) (by
    intro a b c hm
    rcases List.mem_cons.mp hm with h1 | h1
    · exact .inr (ho a b c h1.symm)
    · exact .inl h1)

theorem addEdge_lazy (s : St W) (a b d) : (s.addEdge a b d).lazy = s.lazy := (pending_addEdge s a b d).2.1

theorem RefsJ.addEdge (h : RefsJ x names O s) (a b d) : RefsJ x names O (s.addEdge a b d) :=
  h.same (more_addEdge s a b d) (by rw [addEdge_lazy])

theorem RefsJ.addNode (h : RefsJ x names O s) (n : Node)
    (hg : RefJ x names O s → s.lazy x = some (.refs names) → n.ident = x → n.namesModule = true →
      PkgBlocked (s.nodes ++ [n]) x n) : RefsJ x names O (s.addNode n) := by
  refine h.step (fun _ h => h) (fun _ => rfl) (fun _ h => List.mem_append_left _ h) ?_
    (fun _ h => h) (fun _ h => .inl h) (fun _ _ _ h => .inl h)
  intro hj hl m hm
  rcases List.mem_append.mp hm with h1 | h1
  · exact .inl h1
  · simp only [List.mem_singleton] at h1
    subst h1
    exact .inr (hg hj hl)

theorem RefsJ.schedule (h : RefsJ x names O s) (n infos) : RefsJ x names O (s.schedule n infos) :=
  h.same (more_schedule ..) (by rw [schedule_lazy])

theorem RefsJ.popOther (h : RefsJ x names O s) {name} (hne : RefJ x names O s → name ≠ x) :
    RefsJ x names O (s.popLazy name) :=
  h.step (fun _ h => h) (fun hj => if_neg (fun e => hne hj e.symm)) (fun _ h => h)
    (fun _ _ _ h => .inl h) (fun _ h => h) (fun _ h => .inl h) (fun _ _ _ h => .inl h)

theorem RefJ.lazy_eq (h : RefJ x names O s) {j} (hl : s.lazy x = some j) : j = .refs names := by
  rcases h.phase with ⟨h1, _⟩ | ⟨h1, _⟩
  · rw [hl] at h1; simpa using h1
  · rw [hl] at h1; cases h1

theorem refsCtx (env : Env W) (hK : env.OnlyAs x) :
    Ctx env (ApiOp.Ignores x) (RefsJ (W := W) x names) (fun _ => True) where
  aAddModule _ _ := trivial
  toE _ := trivial
  world w h := h.same ⟨rfl, fun _ h => h, fun _ h => h⟩ rfl
  looked h := h.same (more_event ..) rfl
  asked _ _ _ h := h.same (more_event ..) rfl
  called _ _ h := h.same (more_event ..) rfl
  failed _ := .inl (by simp [St.event])
  pushLoad {O s name p b} _ h hsp _ := h.push (by rintro _ _ _ ⟨⟩; exact ⟨_, hsp⟩)
  popLoad h _ := h.tail (by simp)
  popLoadLink h _ _ := (h.tail (by simp)).addEdge ..
  popLoadMissing h _ _ _ := h.tail (by simp)
  addExcludedSub := by
    intro O s name p lm parent h hp he hx hh
    refine (h.addNode _ ?_).schedule ..
    rintro hj _ rfl _
    obtain ⟨b, hsp⟩ := hj.split _ _ _ (List.mem_cons_self ..)
    subst he
    exact .inr ⟨rfl, parent, by simp [hp], hx, inPackage_of_split hsp⟩
  addMissing := by
    intro O s name p lm h hh hc _
    refine (h.addNode _ ?_).schedule ..
    rintro hj hl rfl _
    obtain ⟨b, hsp⟩ := hj.split _ _ _ (List.mem_cons_self ..)
    rcases hc with ⟨q, h1, rfl, h3⟩ | hc
    · exact .inl ⟨rfl, q, by simp [h1], h3, inPackage_of_split hsp⟩
    · rw [show s.lazy (missingNode name).ident = none from hc] at hl; cases hl
  addSwig := by
    intro O s p lm n imp h hh hc hext hid
    refine h.addNode _ ?_
    rintro hj hl rfl _
    obtain ⟨b, hsp⟩ := hj.split _ _ _ (List.mem_cons_self ..)
    rcases hc with ⟨q, h1, rfl, h3⟩ | hc
    · exfalso
      have hd : '.' ∉ n.ident := by
        rw [hid]
        simp only [List.mem_cons, not_or]
        exact ⟨by decide, rpartition_last imp⟩
      obtain ⟨y, -, h4 | ⟨hne, h4, h5⟩⟩ := inPackage_of_split hsp
      · exact hd (h4 ▸ by simp)
      · obtain ⟨c, r, hcr⟩ := List.exists_cons_of_ne_nil hne
        exact hd (by rw [h5, hcr]; simp [h4 c (by simp [hcr])])
    · rw [hc] at hl; cases hl
  popExcluded := by
    intro O s name p lm h hh hl
    have hne : RefJ x names (.load name p lm :: O) s → name ≠ x := by
      rintro hj rfl
      exact absurd (hj.lazy_eq hl) (by simp)
    rcases h with h | h
    · exact .inl ((more_schedule ..).log _ h)
    · refine ((RefsJ.popOther (.inr h) hne).addNode _ ?_).schedule ..
      exact fun _ _ e _ => absurd e (hne h)
  popAlias := by
    intro O s name p lm t h hh hl
    have hne : RefJ x names (.load name p lm :: O) s → name ≠ x := by
      rintro hj rfl
      exact absurd (hj.lazy_eq hl) (by simp)
    rcases h with h | h
    · exact .inl ((more_schedule ..).log _ h)
    · refine (((RefsJ.popOther (.inr h) hne).addNode _ ?_).schedule ..).push (by simp)
      exact fun _ _ e _ => absurd e (hne h)
  popVirtual := by
    intro O s name p lm t h hh hl
    have hne : RefJ x names (.load name p lm :: O) s → name ≠ x := by
      rintro hj rfl
      exact absurd (hj.lazy_eq hl) (by simp)
    rcases h with h | h
    · exact .inl ((more_schedule ..).log _ h)
    · refine (((RefsJ.popOther (.inr h) hne).addNode _ ?_).schedule ..).push (by simp)
      exact fun _ _ e _ => absurd e (hne h)
  doneAlias h _ _ := (h.tail (by simp)).addEdge ..
  popRefs := by
    intro O s name p lm names' h hh hl
    by_cases hne : name = x
    · subst hne
      rcases h with h | h
      · exact .inl h
      · right
        have he := h.lazy_eq hl
        cases he
        refine ⟨?_, .inr ⟨by simp [St.popLazy], .inl ⟨names, List.mem_cons_self .., fun r hr => .inl hr⟩⟩⟩
        intro a b c hm
        rcases List.mem_cons.mp hm with h1 | h1
        · cases h1
        · exact h.split a b c h1
    · exact (h.popOther (fun _ => hne)).push (by simp)
  doneRef := by
    intro O s name all r rest h _ _
    rcases h with h | h
    · exact .inl ((more_addEdge ..).log _ h)
    · right
      refine ⟨?_, ?_⟩
      · intro a b c hm
        rcases List.mem_cons.mp hm with h1 | h1
        · cases h1
        · exact h.split a b c (List.mem_cons_of_mem _ h1)
      · rw [addEdge_lazy, (more_addEdge s name r defaultDep).nodes]
        refine h.phase.imp id ?_
        rintro ⟨h1, h2⟩
        refine ⟨h1, ?_⟩
        have hsub := (more_addEdge s name r defaultDep).edges
        rcases h2 with ⟨rest', h3, h4⟩ | h2
        · left
          rcases List.mem_cons.mp h3 with h5 | h5
          · cases h5
            refine ⟨rest, List.mem_cons_self .., fun y hy => ?_⟩
            rcases h4 y hy with h6 | h6
            · rcases List.mem_cons.mp h6 with rfl | h6
              · exact .inr (addEdge_mem ..)
              · exact .inl h6
            · exact .inr (hsub _ h6)
          · exact ⟨rest', List.mem_cons_of_mem _ h5, fun y hy => (h4 y hy).imp id (hsub _)⟩
        · exact .inr fun y hy => hsub _ (h2 y hy)
  doneRefs := by
    intro O s name all h _
    rcases h with h | h
    · exact .inl h
    · right
      refine ⟨fun a b c hm => h.split a b c (List.mem_cons_of_mem _ hm), h.phase.imp id ?_⟩
      rintro ⟨h1, h2⟩
      refine ⟨h1, ?_⟩
      rcases h2 with ⟨rest', h3, h4⟩ | h2
      · rcases List.mem_cons.mp h3 with h5 | h5
        · cases h5
          right
          intro y hy
          rcases h4 y hy with h6 | h6
          · simp at h6
          · exact h6
        · exact .inl ⟨rest', h5, h4⟩
      · exact .inr h2
  addAlias := by
    intro O s name p lm n imports h hh hl hf hne
    refine ((h.addNode (aliasNode name n.ident) ?_).schedule ..).push (by simp)
    rintro _ h1 rfl _
    rw [show s.lazy (aliasNode name n.ident).ident = none from hl] at h1; cases h1
  addTarget := by
    intro O s name n imports h hh hf hne
    obtain ⟨spec, w, w', h1, h2⟩ := hf
    refine ((h.addNode n ?_).schedule ..).push (by simp)
    intro _ _ he
    exact absurd (he.trans (hK _ _ _ _ _ _ (locates_iff.mpr h1) h2 he).symm) hne
  doneTarget h _ _ := h.tail (by simp)
  doneTargetLink h _ _ _ := (h.tail (by simp)).addEdge ..
  addLoaded := by
    intro O s p lm n imports h hh hl hf
    refine (h.addNode n ?_).push (by simp)
    rintro _ h1 rfl _
    rw [hl] at h1; cases h1
  nsEdge h _ _ _ := h.addEdge ..
  schedNode h hn _ := (h.tail (by simp)).schedule ..
  addInvalid h _ _ _ := (h.addNode _
    (fun _ _ _ hb => by simp [Node.namesModule, invalidRelNode, Node.isInvalidRel] at hb)).schedule ..
  finishInvalid h _ _ _ _ _ _ := (h.addEdge ..).same (more_event ..) rfl
  finishImp _ h _ _ _ _ := (h.addEdge ..).same
    ⟨rfl, fun _ h => h, fun _ h => List.mem_append_left _ h⟩ rfl
  globals _ h _ := h.same ⟨rfl, fun _ h => h, fun _ h => h⟩ rfl
  reexport h _ _ _ _ _ _ := h.addEdge ..
  subLink h _ _ _ _ _ := h.addEdge ..
  subEdge h _ _ _ _ _ := h.addEdge ..
  sixEdge h _ _ _ _ _ _ _ := h.addEdge ..
  pkgEdge h _ _ _ := h.addEdge ..
  pkgSub h _ _ _ _ := h.addEdge ..
  pushPkg h _ _ _ := h.same ⟨rfl, fun _ h => h, fun _ h => h⟩ rfl
  pop h _ := h.same ⟨rfl, fun _ h => h, fun _ h => List.mem_append_left _ h⟩ rfl
  enter h := h.same ⟨rfl, fun _ h => h, fun _ h => h⟩ rfl
  exit _ h _ := h.same ⟨rfl, fun _ h => h, fun _ h => h⟩ rfl
  exitE _ _ _ := trivial
  script h _ _ _ := (h.addNode _
    (fun _ _ _ hb => by simp [Node.namesModule, Node.isScript] at hb)).schedule ..
  addRoot {O s id} h _ _ := h.same (more_addRoot ..) (by unfold St.addRoot; split <;> rfl)
  addDist d h _ _ := (h.addNode _
    (fun _ _ _ hb => by simp [Node.namesModule, distNode, Node.isBaseNode] at hb)).push (by simp)
  distEdge h _ _ := ((h.tail (by simp)).addEdge ..).push (by simp)
  doneDist h _ := h.tail (by simp)
  importModule h _ _ _ := h.addEdge ..
  exclude {s} l hA h := h.same (more_excludes ..) (by
    have : ∀ (l : List Str) (s : St W), x ∉ l → (l.foldl addExclude s).lazy x = s.lazy x := by
      intro l
      induction l with
      | nil => exact fun s _ => rfl
      | cons y l ih =>
        intro s hy
        simp only [List.mem_cons, not_or] at hy
        rw [List.foldl_cons, ih _ hy.2]
        exact if_neg hy.1
    exact this l s hA)
  imply {s} l hA h := h.same (more_implies ..) (by
    have : ∀ (l : List (Str × Implies)) (s : St W), (∀ j, (x, j) ∉ l) →
        (l.foldl addImply s).lazy x = s.lazy x := by
      intro l
      induction l with
      | nil => exact fun s _ => rfl
      | cons y l ih =>
        intro s hy
        rw [List.foldl_cons, ih _ (fun j hj => hy j (List.mem_cons_of_mem _ hj))]
        unfold addImply
        split
        · rfl
        · refine if_neg ?_
          intro e
          exact hy y.2 (by rw [e]; exact List.mem_cons_self ..)
    exact this l s hA)
  missHook _ _ h := h.same ⟨rfl, fun _ h => h, fun _ h => h⟩ rfl
  postHook _ _ h := h.same ⟨rfl, fun _ h => h, fun _ h => h⟩ rfl
  apiAddNode _ hA := hA.elim
  apiAddEdge _ _ _ _ h _ _ := h.addEdge ..
  apiSchedule _ _ _ h := h.schedule ..
  mypycEdge h _ _ _ _ _ := h.addEdge ..
  mypycSched h _ _ _ := h.schedule ..

end Verif
