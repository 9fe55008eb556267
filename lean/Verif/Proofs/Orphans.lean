import Verif.Proofs.Brings
import Verif.Proofs.Completed
import Verif.Props.FromImport
/-!
# Every node is reachable from a root or from a module that was only tried
-/
namespace Verif
open M Spec
variable {W : Type} {α β : Type}

/-- A root, or a missing module that was only tried. -/
def Anchor (s : St W) (a : Str) : Prop := a ∈ s.roots ∨ OnlyTried (view s) s.gw s.log a

/-- Every node can be reached from an anchor, and work items are about nodes of the graph. -/
structure Grounded (s : St W) : Prop where
  nodes : ∀ x ∈ s.nodes, ∃ a, Anchor s a ∧ Path s.edges a x.ident
  items : ∀ it ∈ s.stack, ItemKnown s it

/-- Something went wrong: a call failed, or a list of names has a name with a dot in it. -/
def Spoilt (log : List Event) : Prop :=
  Event.failed ∈ log ∨ ∃ a b i, Event.started (.nl a b i) ∈ log ∧ ∃ nm ∈ i.importNames, '.' ∈ nm.name

theorem Spoilt.mono {l l' : List Event} (h : l <+: l') (hs : Spoilt l) : Spoilt l' := by
  rcases hs with hs | ⟨a, b, i, hs, hd⟩
  · exact .inl (h.subset hs)
  · exact .inr ⟨a, b, i, h.subset hs, hd⟩

def GoodOrSpoilt (s : St W) : Prop := Spoilt s.log ∨ Grounded s

theorem Anchor.mono {s s' : St W} (h : Grew s s') (hr : ∀ r ∈ s.roots, r ∈ s'.roots) {a}
    (ha : Anchor s a) : Anchor s' a := by
  rcases ha with ha | ⟨y, hy, h1, h2, p, hp, h3, a', b, i, h4, nm, h5, h6, h7⟩
  · exact .inl (hr a ha)
  · refine .inr ⟨y, h.nodes.subset hy, h1, h2, p, h.nodes.subset hp, h3, a', b, i, h.log.subset h4, nm, h5, h6,
      h7.imp (h.gw _ (has_of_Has ⟨p, hp, rfl⟩) _) id⟩

section
variable {s s' s1 s2 : St W} {r : Node}

/-- The general step. -/
theorem Grounded.step (h : Grounded s) (hg : Grew s s') (hr : ∀ r ∈ s.roots, r ∈ s'.roots)
    (hn : ∀ x ∈ s'.nodes, x ∈ s.nodes ∨ ∃ a, Anchor s' a ∧ Path s'.edges a x.ident)
    (hi : ∀ it ∈ s'.stack, it ∈ s.stack ∨ ItemKnown s' it) : Grounded s' := by
  refine ⟨fun x hx => ?_, fun it hit => ?_⟩
  · rcases hn x hx with hx | hx
    · obtain ⟨a, ha, hp⟩ := h.nodes x hx
      exact ⟨a, ha.mono hg hr, hp.mono hg.edges⟩
    · exact hx
  · exact (hi it hit).elim (fun hit => (h.items it hit).mono fun _ hx => hg.nodes.subset hx) id

/-- Nothing is added to the graph. -/
theorem Grounded.same (h : Grounded s) (hg : Grew s s') (hr : s'.roots = s.roots) (hn : s'.nodes = s.nodes)
    (hi : ∀ it ∈ s'.stack, it ∈ s.stack ∨ ItemKnown s' it) : Grounded s' :=
  h.step hg (fun r h => by rw [hr]; exact h) (fun x hx => by rw [hn] at hx; exact .inl hx) hi

theorem Grounded.has (h : Grounded s) {x} (hx : s.has x = true) : ∃ a, Anchor s a ∧ Path s.edges a x := by
  obtain ⟨n, hn, rfl⟩ := Has_of_has hx
  exact h.nodes n hn

theorem Loads.grew (h : Loads s s') : Grew s s' :=
  ⟨h.nodes, h.edges, h.log, fun id hi x hx => by rw [h.gw id hi]; exact hx,
    fun _ hr => by rw [h.roots]; exact hr⟩

/-- A module was loaded and then linked. -/
theorem Grounded.load (h : Grounded s) (hh : Held s [r.ident] s1) (hl : Loads s s1) (hg : Grew s1 s2)
    (hr : ∀ r ∈ s1.roots, r ∈ s2.roots) (hn : s2.nodes = s1.nodes)
    (hi : ∀ it ∈ s2.stack, it ∈ s1.stack ∨ ItemKnown s2 it)
    (ha : ∃ a, Anchor s2 a ∧ Path s2.edges a r.ident) : Grounded s2 := by
  refine h.step (hl.grew.trans hg) (fun r hh => hr r (by rw [hl.roots]; exact hh)) (fun x hx => ?_)
    (fun it hit => ?_)
  · rw [hn] at hx
    refine (hh.nodes x hx).imp id fun ⟨y, hy, hp⟩ => ?_
    obtain ⟨a, ha, hp'⟩ := ha
    cases List.mem_singleton.mp hy
    exact ⟨a, ha, hp'.trans (hp.mono hg.edges)⟩
  · rcases hi it hit with hit | hit
    · exact (hh.items it hit).imp id (ItemKnown.mono fun _ hx => hg.nodes.subset hx)
    · exact .inr hit

theorem Grounded.addEdge (h : Grounded s) (a b d) : Grounded (s.addEdge a b d) :=
  h.same (grew_addEdge ..) (addEdge_roots ..) (addEdge_nodes ..)
    (fun it hit => by rw [addEdge_stack] at hit; exact .inl hit)

/-- A module was loaded and linked to a node that was in the graph before. -/
theorem Grounded.loadEdge (h : Grounded s) (hh : Held s [r.ident] s1) (hl : Loads s s1) {a d}
    (ha : s.has a = true) : Grounded (s1.addEdge a r.ident d) := by
  refine h.load hh hl (grew_addEdge ..) (by rw [addEdge_roots]; exact fun _ h => h) (addEdge_nodes ..)
    (fun it hit => by rw [addEdge_stack] at hit; exact .inl hit) ?_
  obtain ⟨b, hb, hp⟩ := h.has ha
  have hg := hl.grew.trans (grew_addEdge s1 a r.ident d)
  exact ⟨b, hb.mono hg (by rw [addEdge_roots, hl.roots]; exact fun _ h => h),
    .step (hp.mono hg.edges) (addEdge_mem ..)⟩

theorem mem_addRoot (s : St W) (a : Str) : a ∈ (s.addRoot a).roots := by
  unfold St.addRoot
  split
  · assumption
  · simp

theorem addRoot_sub (s : St W) (a : Str) : ∀ r ∈ s.roots, r ∈ (s.addRoot a).roots := by
  unfold St.addRoot
  split
  · exact fun _ h => h
  · exact fun _ h => List.mem_append_left _ h

theorem addRoot_nodes' (s : St W) (a : Str) : (s.addRoot a).nodes = s.nodes := by
  unfold St.addRoot; split <;> rfl

theorem addRoot_stack' (s : St W) (a : Str) : (s.addRoot a).stack = s.stack := by
  unfold St.addRoot; split <;> rfl

theorem Grounded.loadRoot (h : Grounded s) (hh : Held s [r.ident] s1) (hl : Loads s s1) :
    Grounded (s1.addRoot r.ident) := by
  refine h.load hh hl (grew_addRoot ..) (addRoot_sub _ _) (addRoot_nodes' ..)
    (fun it hit => by rw [addRoot_stack'] at hit; exact .inl hit) ?_
  exact ⟨_, .inl (mem_addRoot ..), .refl⟩

theorem Grounded.addRoot (h : Grounded s) (a) : Grounded (s.addRoot a) :=
  h.step (grew_addRoot ..) (addRoot_sub _ _) (fun x hx => by rw [addRoot_nodes'] at hx; exact .inl hx)
    (fun it hit => by rw [addRoot_stack'] at hit; exact .inl hit)

theorem schedule_items (s : St W) (n : Node) (infos) (h : s.has n.ident = true) :
    ∀ it ∈ (s.schedule n infos).stack, it ∈ s.stack ∨ ItemKnown (s.schedule n infos) it := by
  intro it hit
  have hn : (s.schedule n infos).has n.ident = true := by rw [has_schedule]; exact h
  unfold St.schedule at hit
  simp only [] at hit
  split at hit
  · rcases List.mem_append.mp hit with hit | hit
    · exact .inl hit
    · obtain ⟨i, -, rfl⟩ := List.mem_map.mp hit
      exact .inr hn
  · rcases List.mem_append.mp hit with hit | hit
    · rcases List.mem_append.mp hit with hit | hit
      · exact .inl hit
      · cases List.mem_singleton.mp hit
        exact .inr hn
    · obtain ⟨i, -, rfl⟩ := List.mem_map.mp hit
      exact .inr hn

theorem Grounded.schedule (h : Grounded s) (n : Node) (infos) (hn : s.has n.ident = true) :
    Grounded (s.schedule n infos) :=
  h.same (grew_schedule ..) (schedule_roots ..) (schedule_nodes ..) (schedule_items s n infos hn)

end

/-! ## Names of submodules -/

theorem split_sub {P x pkg b : Str} (hx : '.' ∉ x) (h : splitPackage (P ++ '.' :: x) = .ok (some pkg, b)) :
    pkg = P ∨ ∃ e, splitPackage pkg = .error e := by
  obtain ⟨y, hy, h1 | ⟨hne, hd, -⟩⟩ := inPackage_of_split h
  · left
    have h2 := rfindSplit_some.mpr ⟨h1, hy⟩
    rw [rfindSplit_some.mpr ⟨rfl, hx⟩] at h2
    simp only [Option.some.injEq, Prod.mk.injEq] at h2
    exact h2.1.symm
  · right
    have he : pkg = List.replicate pkg.length '.' ++ [] := by
      simpa using List.eq_replicate_iff.mpr ⟨rfl, hd⟩
    have : lstrip '.' pkg = [] := by
      rw [he]
      exact lstrip_replicate '.' _ [] (by simp)
    unfold splitPackage
    simp [this]

/-! ## The walk -/

section
variable {env : Env W} (hM : ∀ k i n, (env.userMissing k i n).Passive) {s s' : St W}

/-- Nothing that matters for the graph changes. -/
theorem Grounded.quiet (h : Grounded s) (hg : Grew s s') (hr : s'.roots = s.roots) (hn : s'.nodes = s.nodes)
    (hs : s'.stack = s.stack) : Grounded s' :=
  h.same hg hr hn (fun it hit => .inl (by rw [hs] at hit; exact hit))

include hM in
theorem find_held {n : Nat} {i name} {s s' : St W} {r : Node}
    (h : (calls env n).findOrLoad i name true s = (.ok r, s')) :
    r.ident = name ∧ r ∈ s'.nodes ∧ Loads s s' ∧ Held s [r.ident] s' := by
  obtain ⟨h1, h2, h3⟩ := Props.find_sub hM (.inl rfl) h
  exact ⟨h1, h2, h3, (calls_br hM n).findOrLoad [] i name s s r s' (.refl s) h⟩

include hM in
theorem processImport_grounded {n : Nat} {m : Node} {info : ImportInfo} (hs : Grounded s)
    (hm : s.has m.ident = true) {u} (h : processImport (calls env n) m info s = (.ok u, s')) : Grounded s' := by
  unfold processImport at h
  obtain ⟨a, s1, h1, k1⟩ := M.bind_ok h
  clear h
  obtain ⟨-, rfl⟩ := M.ofExcept_ok h1
  cases a with
  | none =>
    obtain ⟨r, s2, h2, k2⟩ := M.bind_ok k1
    clear k1 h1
    obtain ⟨rfl, rfl, -⟩ := M.findModule_ok h2
    obtain ⟨node, s3, h3, k3⟩ := M.bind_ok k2
    clear k2 h2
    obtain ⟨_, s4, h4, k4⟩ := M.bind_ok k3
    clear k3
    obtain ⟨-, hb, rfl⟩ := M.addEdge_ok h4
    clear h4
    have k5 : s' = (s3.addEdge m.ident node.ident (fromImportInfo info false none)).event
      (.imported m.ident info node.ident) := (congrArg Prod.snd k4).symm
    have key : Grounded (s3.addEdge m.ident node.ident (fromImportInfo info false none)) := by
      cases hf : s2.find (List.replicate info.importLevel '.' ++ info.importModule.name) with
      | some x =>
        rw [hf] at h3
        obtain ⟨_, _, h5, h6⟩ := M.bind_ok h3
        obtain ⟨-, rfl⟩ := M.assert_ok h5
        obtain ⟨rfl, rfl⟩ := M.pure_ok h6
        exact hs.addEdge ..
      | none =>
        rw [hf] at h3
        obtain ⟨_, s5, h5, h6⟩ := M.bind_ok h3
        clear h3
        obtain ⟨hno, rfl⟩ := M.addNode_ok h5
        obtain ⟨_, s6, h7, h8⟩ := M.bind_ok h6
        clear h6 h5
        have h7' : s6 = (s2.addNode (invalidRelNode (List.replicate info.importLevel '.' ++
          info.importModule.name))).schedule (invalidRelNode (List.replicate info.importLevel '.' ++
          info.importModule.name)) [] := (congrArg Prod.snd h7).symm
        clear h7
        obtain ⟨rfl, rfl⟩ := M.pure_ok h8
        clear h8
        subst h7'
        generalize hnode : invalidRelNode _ = node at *
        have hg0 := grew_addNode hno
        have hg1 := grew_schedule (s2.addNode node) node []
        have hg2 := grew_addEdge ((s2.addNode node).schedule node []) m.ident node.ident
          (fromImportInfo info false none)
        have hg := (hg0.trans hg1).trans hg2
        have hr : ∀ r ∈ s2.roots, r ∈ (((s2.addNode node).schedule node []).addEdge m.ident node.ident
            (fromImportInfo info false none)).roots := by
          rw [addEdge_roots, schedule_roots]; exact fun _ h => h
        refine hs.step hg hr (fun x hx => ?_) (fun it hit => ?_)
        · rw [addEdge_nodes, schedule_nodes] at hx
          rcases List.mem_append.mp hx with hx | hx
          · exact .inl hx
          · cases List.mem_singleton.mp hx
            obtain ⟨a, ha, hp⟩ := hs.has hm
            exact .inr ⟨a, ha.mono hg hr, .step (hp.mono hg.edges) (addEdge_mem ..)⟩
        · rw [addEdge_stack] at hit
          refine (schedule_items (s2.addNode node) node [] ?_ it hit).imp id (ItemKnown.mono ?_)
          · rw [has_addNode]; simp
          · rw [addEdge_nodes]; exact fun _ h => h
    rw [k5]
    exact key.quiet (grew_event ..) rfl rfl rfl
  | some name =>
    obtain ⟨st, s2, h2, k2⟩ := M.bind_ok k1
    clear k1 h1
    have : s2 = s1 := (congrArg Prod.snd h2).symm
    subst this
    obtain ⟨node, s3, h3, k3⟩ := M.bind_ok k2
    clear k2 h2
    obtain ⟨hid, hmem, hl, hh⟩ := find_held hM h3
    obtain ⟨_, s4, h4, k4⟩ := M.bind_ok k3
    clear k3
    obtain ⟨-, hb, rfl⟩ := M.addEdge_ok h4
    have k5 := (congrArg Prod.snd k4).symm
    simp only [M.modify] at k5
    clear k4
    subst k5
    have h5 := hs.loadEdge hh hl (d := fromImportInfo info false info.importModule.asname) hm
    refine h5.same ⟨List.prefix_rfl, fun _ h => h, by simp, fun _ _ _ h => h, fun _ h => h⟩ rfl rfl fun it hit => ?_
    simp only [List.append_assoc, List.mem_append, List.mem_singleton] at hit
    rcases hit with hit | rfl | hit
    · exact .inl (List.mem_of_mem_take hit)
    · refine .inr ⟨?_, ?_⟩
      · exact has_of_Has ((by
          have := Has_of_has (hl.has hm)
          obtain ⟨y, hy, hi⟩ := this
          exact ⟨y, by rw [addEdge_nodes]; exact hy, hi⟩ : Has (s3.addEdge m.ident node.ident _) m.ident))
      · show node ∈ (s3.addEdge _ _ _).nodes
        rw [addEdge_nodes]; exact hmem
    · exact .inl (List.mem_of_mem_drop hit)

include hM in
theorem processName_grounded {n : Nat} {importing imported : Node} {info : ImportInfo} {nm : ImpName}
    (hs : Grounded s) (hm : s.has importing.ident = true) (hi : imported ∈ s.nodes)
    (hst : ∃ a b, Event.started (.nl a b info) ∈ s.log ∧ (b = imported ∨ b.kind = .alias imported.ident))
    (hstar : info.starImport = false)
    (hpm : imported.isPackage = true ∨ imported.isNamespacePkg = true ∨ imported.isModule = true)
    (hnm : nm ∈ info.importNames) (hd : '.' ∉ nm.name) {u}
    (h : processName env (calls env n) importing imported info nm s = (.ok u, s')) : Grounded s' := by
  have sub : ∀ {u}, ¬ imported.isModule = true → (M.bind ((calls env n).findOrLoad (some importing) (imported.ident ++ '.' :: nm.name) false)
      fun sub =>
    M.bind M.get fun s =>
    let link : M W Unit :=
      M.bind (M.addEdge sub.ident imported.ident defaultDep) fun _ =>
      M.addEdge importing.ident sub.ident (fromImportInfo info true nm.asname)
    if sub.isMissing then
      match imported.kind with
      | .package _ init _ _ _ =>
        if init.name = c!"@@SIX_MOVES@@" then
          match sixMove nm.name with
          | some target =>
            M.bind ((calls env n).findOrLoad (some importing) target true) fun depNode =>
            M.addEdge importing.ident depNode.ident defaultDep
          | none => link
        else if (s.globalsWritten imported).contains nm.name then M.pure ()
        else link
      | _ => link
    else link) s = (.ok u, s') → Grounded s' := by
    intro u hmod h
    obtain ⟨sub, s1, h1, k1⟩ := M.bind_ok h
    clear h
    obtain ⟨a0, b0, hst1, hst2⟩ := hst
    have ht : Tried s.nodes s.log (imported.ident ++ '.' :: nm.name) := by
      refine ⟨a0, b0, imported, info, nm, hst1, hstar, hnm, ?_, by simp_all, rfl⟩
      rcases hst2 with rfl | h
      · exact .inl rfl
      · exact .inr ⟨h, hi⟩
    obtain ⟨hid, hmem, hl⟩ := Props.find_sub hM (.inr ht) h1
    have hh : Held s [sub.ident] s1 := findOrLoad_try hM n h1 fun pkg b hsp => by
      rcases split_sub hd hsp with rfl | he
      · left
        cases hf : s.find imported.ident with
        | some p => exact ⟨p, rfl⟩
        | none =>
          have := find_none hf
          rw [has_of_Has ⟨imported, hi, rfl⟩] at this
          cases this
      · exact .inr he
    obtain ⟨st, s2, h2, k2⟩ := M.bind_ok k1
    clear k1
    have : s2 = s1 ∧ st = s1 := by
      unfold M.get at h2
      simp only [Prod.mk.injEq, Except.ok.injEq] at h2
      exact ⟨h2.2.symm, h2.1.symm⟩
    obtain ⟨rfl, rfl⟩ := this
    clear h2
    have link : ∀ {u}, (M.bind (M.addEdge sub.ident imported.ident defaultDep) fun _ =>
      M.addEdge importing.ident sub.ident (fromImportInfo info true nm.asname)) st = (.ok u, s') →
        Grounded s' := by
      intro u h
      obtain ⟨_, s3, h3, h4⟩ := M.bind_ok h
      obtain ⟨-, -, rfl⟩ := M.addEdge_ok h3
      obtain ⟨-, -, rfl⟩ := M.addEdge_ok h4
      have hg := (grew_addEdge st sub.ident imported.ident defaultDep).trans
        (grew_addEdge _ importing.ident sub.ident (fromImportInfo info true nm.asname))
      refine hs.load hh hl hg (by rw [addEdge_roots, addEdge_roots]; exact fun _ h => h)
        (by rw [addEdge_nodes, addEdge_nodes])
        (fun it hit => by rw [addEdge_stack, addEdge_stack] at hit; exact .inl hit) ?_
      obtain ⟨a, ha, hp⟩ := hs.has hm
      exact ⟨a, ha.mono (hl.grew.trans hg) (by rw [addEdge_roots, addEdge_roots, hl.roots]; exact fun _ h => h),
        .step (hp.mono (hl.grew.trans hg).edges) (addEdge_mem ..)⟩
    -- the missing submodule was only tried
    have tried : sub.isMissing = true → imported.isPackage = true →
        (nm.name ∈ st.gw imported.ident ∨ IsSixMoves imported) → Grounded st := by
      intro hmiss hpk hor
      refine hs.load hh hl (.refl _) (fun _ h => h) rfl (fun _ h => .inl h) ⟨_, .inr ?_, .refl⟩
      exact ⟨sub, hmem, rfl, hmiss, imported, hl.nodes.subset hi, hpk, a0, b0, info, hl.log.subset hst1, nm,
        hnm, hid, hor⟩
    simp only [] at k2
    by_cases hmiss : sub.isMissing = true
    · rw [if_pos hmiss] at k2
      cases hk : imported.kind with
      | package a init b c d =>
        rw [hk] at k2
        simp only [] at k2
        have hpk : imported.isPackage = true := by simp [Node.isPackage, hk]
        by_cases h6 : init.name = c!"@@SIX_MOVES@@"
        · rw [if_pos h6] at k2
          cases hmv : sixMove nm.name with
          | none => rw [hmv] at k2; exact link k2
          | some target =>
            rw [hmv] at k2
            obtain ⟨dep, s3, h3, h4⟩ := M.bind_ok k2
            obtain ⟨-, -, rfl⟩ := M.addEdge_ok h4
            obtain ⟨-, -, hl3, hh3⟩ := find_held hM h3
            exact (tried hmiss hpk (.inr ⟨a, init, b, c, d, hk, h6⟩)).loadEdge hh3 hl3 (hl.has hm)
        · rw [if_neg h6] at k2
          by_cases hg : (st.globalsWritten imported).contains nm.name = true
          · rw [if_pos hg] at k2
            obtain ⟨-, rfl⟩ := M.pure_ok k2
            refine tried hmiss hpk (.inl ?_)
            unfold St.globalsWritten at hg
            split at hg
            · cases hg
            · simpa using hg
          · rw [if_neg hg] at k2
            exact link k2
      | _ =>
        rw [hk] at k2
        exact link k2
    · rw [if_neg hmiss] at k2
      exact link k2
  unfold processName at h
  rw [M.bind_get] at h
  simp only [] at h
  by_cases hc : (s.globalsWritten imported).contains nm.name = true
  · rw [if_pos hc] at h
    cases hr : reexported env s imported nm.name with
    | some t =>
      rw [hr] at h
      obtain ⟨-, -, rfl⟩ := M.addEdge_ok h
      exact hs.addEdge ..
    | none =>
      rw [hr] at h
      simp only [] at h
      by_cases hmod : imported.isModule = true
      · rw [if_pos hmod] at h
        obtain ⟨-, rfl⟩ := M.pure_ok h
        exact hs
      · rw [if_neg hmod] at h
        exact sub hmod h
  · rw [if_neg hc] at h
    by_cases hmod : imported.isModule = true
    · rw [if_pos hmod] at h
      obtain ⟨-, rfl⟩ := M.pure_ok h
      exact hs
    · rw [if_neg hmod] at h
      exact sub hmod h

/-- Whatever a step does, the state grows. -/
theorem grew_of_pres {n : Nat} {m : M W α} (s : St W)
    (h : Good (fun _ => True) (fun _ => Grew s) (fun _ => Grew s) (fun _ => True) (calls env n) →
      PIb (fun _ => Grew s) [] m) : Grew s (m s).2 :=
  (h ((grewClosed s).good env n) s (.refl s)).2

theorem processName_grew {n : Nat} (a b : Node) (info : ImportInfo) (nm : ImpName) (s : St W) :
    Grew s (processName env (calls env n) a b info nm s).2 :=
  grew_of_pres s fun h => processName_pres (grewClosed s).closed h a b info nm []

include hM in
theorem processNames_grounded {n : Nat} {importing imported : Node} {info : ImportInfo}
    (hs : Grounded s) (hm : s.has importing.ident = true) (hi : imported ∈ s.nodes)
    (hst : ∃ a b, Event.started (.nl a b info) ∈ s.log ∧ (b = imported ∨ b.kind = .alias imported.ident))
    (hstar : info.starImport = false)
    (hpm : imported.isPackage = true ∨ imported.isNamespacePkg = true ∨ imported.isModule = true)
    (hd : ∀ nm ∈ info.importNames, '.' ∉ nm.name) {u}
    (h : processNames env (calls env n) importing imported info s = (.ok u, s')) : Grounded s' := by
  unfold processNames at h
  rw [M.bind_modify] at h
  have key : ∀ (l : List ImpName) (_ : ∀ nm ∈ l, nm ∈ info.importNames) (s1 : St W) (_ : Grounded s1)
      (_ : s1.has importing.ident = true) (_ : imported ∈ s1.nodes)
      (_ : ∃ a b, Event.started (.nl a b info) ∈ s1.log ∧ (b = imported ∨ b.kind = .alias imported.ident)) {u},
      M.forEach l (fun nm => processName env (calls env n) importing imported info nm) s1 = (.ok u, s') →
      Grounded s' := by
    intro l
    induction l with
    | nil =>
      intro _ s1 h1 _ _ _ u h
      obtain ⟨-, rfl⟩ := M.pure_ok h
      exact h1
    | cons x l ih =>
      intro hsub s1 h1 hm1 hi1 ht1 u h
      obtain ⟨_, s2, h2, h3⟩ := M.bind_ok h
      change processName env (calls env n) importing imported info x s1 = _ at h2
      have hg := processName_grew (env := env) (n := n) importing imported info x s1
      rw [h2] at hg
      refine ih (fun nm h => hsub nm (List.mem_cons_of_mem _ h)) s2 ?_ (hg.has hm1) (hg.nodes.subset hi1) ?_ h3
      · exact processName_grounded hM h1 hm1 hi1 ht1 hstar hpm (hsub x (List.mem_cons_self ..))
          (hd x (hsub x (List.mem_cons_self ..))) h2
      · obtain ⟨a, b, h4, h5⟩ := ht1
        exact ⟨a, b, hg.log.subset h4, h5⟩
  refine key info.importNames (fun _ h => h)
    (s.addGlobals importing.ident (info.importNames.map ImpName.name)) ?_ hm hi hst h
  exact hs.quiet (grew_addGlobals ..) rfl rfl rfl

include hM in
theorem processNamelist_grounded {n : Nat} {importing imported : Node} {info : ImportInfo}
    (hs : Grounded s) (hm : s.has importing.ident = true) (hi : imported ∈ s.nodes)
    (hst : Event.started (.nl importing imported info) ∈ s.log)
    (hd : ∀ nm ∈ info.importNames, '.' ∉ nm.name) {u}
    (h : processNamelist env (calls env n) importing imported info s = (.ok u, s')) : Grounded s' := by
  unfold processNamelist at h
  obtain ⟨_, s1, h1, k1⟩ := M.bind_ok h
  clear h
  obtain ⟨-, rfl⟩ := M.assert_ok h1
  clear h1
  by_cases hstar : info.starImport = true
  · rw [if_pos hstar] at k1
    split at k1
    · have : s' = s1.addGlobals importing.ident (s1.gw imported.ident) := (congrArg Prod.snd k1).symm
      subst this
      exact hs.quiet (grew_addGlobals ..) rfl rfl rfl
    · obtain ⟨-, rfl⟩ := M.pure_ok k1
      exact hs
  · rw [if_neg hstar] at k1
    split at k1
    · cases hk : imported.kind with
      | alias actual =>
        rw [hk] at k1
        simp only [] at k1
        rw [M.bind_modify] at k1
        obtain ⟨r, s2, h2, k2⟩ := M.bind_ok k1
        clear k1
        obtain ⟨rfl, hr, -⟩ := M.findModule_ok h2
        have hs2 : Grounded (s1.addGlobals importing.ident (info.importNames.map ImpName.name)) :=
          hs.quiet (grew_addGlobals ..) rfl rfl rfl
        cases r with
        | none => cases k2
        | some node =>
          obtain ⟨hn1, hn2⟩ := find_some hr.symm
          simp only [] at k2
          split at k2
          · exact processNames_grounded hM hs2 hm hn1 ⟨importing, imported, hst, .inr (by rw [hn2]; exact hk)⟩
              (by simpa using hstar) (by simp_all [or_assoc])
              hd k2
          · obtain ⟨-, rfl⟩ := M.pure_ok k2
            exact hs2
      | _ =>
        rw [hk] at k1
        exact processNames_grounded hM hs hm hi ⟨importing, imported, hst, .inl rfl⟩
          (by simpa using hstar) (by simp_all [Node.isAlias, or_assoc]) hd k1
    · obtain ⟨-, rfl⟩ := M.pure_ok k1
      exact hs

/-! ## The recursion -/

structure OrphRes (rec : Calls W) : Prop where
  runStack : ∀ s u s', GoodOrSpoilt s → rec.runStack s = (.ok u, s') → GoodOrSpoilt s'
  callPost : ∀ k m s u s', GoodOrSpoilt s → rec.callPost k m s = (.ok u, s') → GoodOrSpoilt s'
  op : ∀ o s, o.Links → GoodOrSpoilt s → GoodOrSpoilt (rec.op o s).2

theorem interp_orph {rec : Calls W} (ih : OrphRes rec) {h : Hook W} (hh : h.Only ApiOp.Links) :
    ∀ s, GoodOrSpoilt s → GoodOrSpoilt (interp rec h s).2 := by
  induction hh with
  | ret r => exact fun s hs => hs
  | raise e => exact fun s hs => hs
  | look _ ihk =>
    intro s hs
    refine ihk s _ ?_
    rcases hs with hs | hs
    · exact .inl (hs.mono (grew_event ..).log)
    · exact .inr (hs.quiet (grew_event ..) rfl rfl rfl)
  | setWorld _ ihk =>
    intro s hs
    refine ihk _ ?_
    rcases hs with hs | hs
    · exact .inl hs
    · exact .inr (hs.quiet ⟨List.prefix_rfl, fun _ h => h, List.prefix_rfl, fun _ _ _ h => h, fun _ h => h⟩ rfl rfl rfl)
  | @call o k ho _ ihk =>
    intro s hs
    have h1 := ih.op o s ho hs
    cases hm : rec.op o s with
    | mk r s1 =>
      rw [hm] at h1
      rcases M.attempt_cases hm with ⟨rfl, ha⟩ | ha
      · change GoodOrSpoilt (M.bind (M.attempt (rec.op o)) _ s).2
        rw [M.bind_of_error ha]
        exact h1
      · change GoodOrSpoilt (M.bind (M.attempt (rec.op o)) _ s).2
        rw [M.bind_of_ok ha]
        exact ihk r s1 h1

theorem GoodOrSpoilt.map {s s' : St W} (h : GoodOrSpoilt s) (hg : s.log <+: s'.log)
    (hk : Grounded s → Grounded s') : GoodOrSpoilt s' :=
  h.imp (·.mono hg) hk

theorem Grew.ofWorld (s : St W) (w : W) : Grew s { s with world := w } :=
  ⟨List.prefix_rfl, fun _ h => h, List.prefix_rfl, fun _ _ _ h => h, fun _ h => h⟩

theorem GoodOrSpoilt.world {s : St W} (h : GoodOrSpoilt s) (w : W) :
    GoodOrSpoilt { s with world := w } :=
  h.map List.prefix_rfl fun h => h.quiet (.ofWorld s w) rfl rfl rfl

theorem mypycHook_orph {rec : Calls W} (ih : OrphRes rec) {m : Node} {s s' : St W} {u}
    (hs : GoodOrSpoilt s) (h : mypycHook env rec m s = (.ok u, s')) : GoodOrSpoilt s' := by
  unfold mypycHook at h
  have hp : ∀ {s s' : St W} {u}, GoodOrSpoilt s → (M.pure () : M W Unit) s = (.ok u, s') → GoodOrSpoilt s' := by
    intro s s' u hs h
    obtain ⟨-, rfl⟩ := M.pure_ok h
    exact hs
  cases h1 : mypycFile m with
  | none => rw [h1] at h; exact hp hs h
  | some file =>
    rw [h1] at h
    cases h2 : m.distribution with
    | none => rw [h2] at h; exact hp hs h
    | some dist =>
      rw [h2] at h
      cases file with
      | none => exact hp hs h
      | some file =>
        simp only [] at h
        cases h3 : dist.importNames.find? (endsWith c!"__mypyc") with
        | none => rw [h3] at h; exact hp hs h
        | some helper =>
          rw [h3] at h
          obtain ⟨b, s1, h4, k1⟩ := M.bind_ok h
          clear h
          obtain ⟨-, rfl⟩ := M.ext_ok h4
          have hs1 := hs.world (env.isFile (sourceNextTo file) s.world).2
          generalize hgs : ({ s with world := (env.isFile (sourceNextTo file) s.world).2 } : St W) = s1 at *
          clear h4
          by_cases hb : (!b) = true
          · rw [if_pos hb] at k1; exact hp hs1 k1
          · rw [if_neg hb] at k1
            obtain ⟨r, s2, h5, k2⟩ := M.bind_ok k1
            clear k1
            have hs2 := ih.op (.addModule helper) s1 trivial hs1
            rw [h5] at hs2
            cases r with
            | none => cases k2
            | some x =>
              obtain ⟨_, s3, h6, k3⟩ := M.bind_ok k2
              clear k2
              obtain ⟨hm, -, rfl⟩ := M.addEdge_ok h6
              have hs3 : GoodOrSpoilt (s2.addEdge m.ident x.ident defaultDep) :=
                hs2.map (grew_addEdge ..).log fun h => h.addEdge ..
              have hm3 : (s2.addEdge m.ident x.ident defaultDep).has m.ident = true := by
                rw [has_addEdge]; exact hm
              generalize (s2.addEdge m.ident x.ident defaultDep) = s3 at *
              obtain ⟨code, s4, h7, k4⟩ := M.bind_ok k3
              clear k3 h6
              obtain ⟨-, rfl⟩ := M.ext_ok h7
              have hs4 := hs3.world (env.readBytes (sourceNextTo file) s3.world).2
              have hm4 : ({ s3 with world := (env.readBytes (sourceNextTo file) s3.world).2 } : St W).has
                m.ident = true := hm3
              generalize ({ s3 with world := (env.readBytes (sourceNextTo file) s3.world).2 } : St W) = s4 at *
              clear h7
              obtain ⟨r, s5, h8, k5⟩ := M.bind_ok k4
              clear k4
              have h9 : s5 = { s4 with world := (env.compileAst code s4.world).2 } := by
                unfold M.attempt M.ext at h8
                split at h8 <;> simp_all
              have hs5 : GoodOrSpoilt s5 := by rw [h9]; exact hs4.world _
              have hm5 : s5.has m.ident = true := by rw [h9]; exact hm4
              cases r with
              | error e =>
                cases e <;> first | exact hp hs5 k5 | cases k5
              | ok imports =>
                simp only [] at k5
                by_cases hi : imports.isEmpty = true
                · rw [if_pos hi] at k5; exact hp hs5 k5
                · rw [if_neg hi] at k5
                  rw [M.bind_schedule] at k5
                  exact ih.runStack _ _ _ (hs5.map (grew_schedule ..).log fun h => h.schedule _ _ hm5) k5

theorem callPost_orph (hP : ∀ k n, (env.userPost k n).Only ApiOp.Links) {rec : Calls W} (ih : OrphRes rec)
    {k : Nat} {m : Node} {s s' : St W} {u}
    (hs : GoodOrSpoilt s) (h : callPostBody env rec k m s = (.ok u, s')) : GoodOrSpoilt s' := by
  unfold callPostBody at h
  rw [M.bind_get] at h
  cases hk : s.postHooks[k]? with
  | none => rw [hk] at h; obtain ⟨-, rfl⟩ := M.pure_ok h; exact hs
  | some x =>
    rw [hk] at h
    simp only [] at h
    rw [M.bind_modify] at h
    have hs1 : GoodOrSpoilt (s.event (.called x m.ident)) :=
      hs.map (grew_event ..).log fun h => h.quiet (grew_event ..) rfl rfl rfl
    obtain ⟨_, s2, h2, k2⟩ := M.bind_ok h
    clear h
    refine ih.callPost _ _ _ _ _ ?_ k2
    cases x with
    | mypyc => exact mypycHook_orph ih hs1 h2
    | user j =>
      obtain ⟨_, s3, h3, k3⟩ := M.bind_ok h2
      obtain ⟨-, rfl⟩ := M.pure_ok k3
      have := interp_orph ih (hP j m) _ hs1
      rw [h3] at this
      exact this

include hM in
theorem runStack_orph {n : Nat} (ih : OrphRes (calls env n)) {s s' : St W} {u}
    (hs : GoodOrSpoilt s) (h : runStackBody env (calls env n) s = (.ok u, s')) : GoodOrSpoilt s' := by
  rcases hs with hs | hs
  · have hg := ((grewClosed s).good env (n + 1)).runStack [] trivial s (.refl s)
    change Out _ _ _ _ (runStackBody env (calls env n) s) at hg
    rw [h] at hg
    exact .inl (hs.mono hg.2.log)
  unfold runStackBody at h
  obtain ⟨it, s1, h1, k1⟩ := M.bind_ok h
  clear h
  unfold popItem at h1
  cases hl : s.stack.getLast? with
  | none =>
    rw [hl] at h1
    cases h1
    obtain ⟨-, rfl⟩ := M.pure_ok k1
    exact .inr hs
  | some it' =>
    rw [hl] at h1
    cases h1
    obtain ⟨_, s2, h2, k2⟩ := M.bind_ok k1
    clear k1
    refine ih.runStack _ _ _ ?_ k2
    have hmem : it' ∈ s.stack := List.mem_of_getLast? hl
    have hk := hs.items _ hmem
    have hg : Grew s ({ s with stack := s.stack.dropLast, log := s.log ++ [.started it'] } : St W) :=
      ⟨List.prefix_rfl, fun _ h => h, by simp, fun _ _ _ h => h, fun _ h => h⟩
    have hs1 := hs.same hg rfl rfl fun x hx => .inl ((List.dropLast_sublist _).subset hx)
    have hst : Event.started it' ∈
        ({ s with stack := s.stack.dropLast, log := s.log ++ [.started it'] } : St W).log := by simp
    have hk1 := hk.mono (s' := { s with stack := s.stack.dropLast, log := s.log ++ [.started it'] })
      fun _ h => h
    generalize ({ s with stack := s.stack.dropLast, log := s.log ++ [.started it'] } : St W) = s1 at *
    cases it' with
    | pp m => exact ih.callPost _ _ _ _ _ (.inr hs1) h2
    | imp m info => exact .inr (processImport_grounded hM hs1 hk1 h2)
    | nl a b info =>
      by_cases hd : ∀ nm ∈ info.importNames, '.' ∉ nm.name
      · exact .inr (processNamelist_grounded hM hs1 hk1.1 hk1.2 hst hd h2)
      · have hg2 : Grew s1 (processNamelist env (calls env n) a b info s1).2 :=
          grew_of_pres s1 fun h => processNamelist_pres (grewClosed s1).closed h a b info []
        change processNamelist env (calls env n) a b info s1 = _ at h2
        rw [h2] at hg2
        refine .inl (Spoilt.mono hg2.log (.inr ⟨a, b, info, hst, ?_⟩))
        simpa using hd
    | pkg m name => exact hk.elim

include hM in
theorem addModule_orph {n : Nat} (ih : OrphRes (calls env n)) {name : Str} {s s' : St W} {r}
    (hs : GoodOrSpoilt s) (h : addModule (calls env n) name s = (.ok r, s')) : GoodOrSpoilt s' := by
  unfold addModule at h
  obtain ⟨q, s1, h1, k1⟩ := M.bind_ok h
  clear h
  obtain ⟨rfl, hq, -⟩ := M.findModule_ok h1
  clear h1
  obtain ⟨node, s2, h2, k2⟩ := M.bind_ok k1
  clear k1
  obtain ⟨_, s3, h3, k3⟩ := M.bind_ok k2
  clear k2
  obtain ⟨hm, rfl⟩ := M.addRoot_ok h3
  obtain ⟨_, s4, h4, k4⟩ := M.bind_ok k3
  clear k3
  obtain ⟨-, rfl⟩ := M.pure_ok k4
  refine ih.runStack _ _ _ ?_ h4
  cases q with
  | some x =>
    obtain ⟨rfl, rfl⟩ := M.pure_ok h2
    exact hs.map (grew_addRoot ..).log fun h => h.addRoot _
  | none =>
    obtain ⟨-, -, hl, hh⟩ := find_held hM h2
    exact hs.map (hl.grew.trans (grew_addRoot ..)).log fun h => h.loadRoot hh hl

theorem forEach_orph {l : List α} {f : α → M W Unit}
    (hf : ∀ a ∈ l, ∀ s u s', GoodOrSpoilt s → f a s = (.ok u, s') → GoodOrSpoilt s') :
    ∀ s u s', GoodOrSpoilt s → M.forEach l f s = (.ok u, s') → GoodOrSpoilt s' := by
  induction l with
  | nil =>
    intro s u s' hs h
    obtain ⟨-, rfl⟩ := M.pure_ok h
    exact hs
  | cons a l ih =>
    intro s u s' hs h
    obtain ⟨_, s1, h1, h2⟩ := M.bind_ok h
    exact ih (fun b hb => hf b (List.mem_cons_of_mem _ hb)) _ _ _
      (hf a (List.mem_cons_self ..) _ _ _ hs h1) h2

include hM in
theorem addDistribution_orph {n : Nat} (ih : OrphRes (calls env n)) {d : Dist} {s s' : St W} {r}
    (hs : GoodOrSpoilt s) (h : addDistribution (calls env n) d s = (.ok r, s')) : GoodOrSpoilt s' := by
  unfold addDistribution at h
  rw [M.bind_findNode] at h
  cases hf : s.find d.identifier with
  | some x =>
    rw [hf] at h
    obtain ⟨_, _, h1, h2⟩ := M.bind_ok h
    obtain ⟨-, rfl⟩ := M.assert_ok h1
    obtain ⟨-, rfl⟩ := M.pure_ok h2
    exact hs
  | none =>
    rw [hf] at h
    obtain ⟨_, s1, h1, k1⟩ := M.bind_ok h
    clear h
    obtain ⟨hno, rfl⟩ := M.addNode_ok h1
    obtain ⟨_, s2, h2, k2⟩ := M.bind_ok k1
    clear k1
    obtain ⟨hm, rfl⟩ := M.addRoot_ok h2
    have hg := (grew_addNode hno).trans (grew_addRoot (s.addNode (distNode d)) d.identifier)
    have hs2 : GoodOrSpoilt ((s.addNode (distNode d)).addRoot d.identifier) := by
      refine hs.map hg.log fun hs => ?_
      refine hs.step hg (fun r h => addRoot_sub _ _ r h) (fun x hx => ?_)
        (fun it hit => by rw [addRoot_stack'] at hit; exact .inl hit)
      rw [addRoot_nodes'] at hx
      rcases List.mem_append.mp hx with hx | hx
      · exact .inl hx
      · cases List.mem_singleton.mp hx
        exact .inr ⟨d.identifier, .inl (mem_addRoot ..), .refl⟩
    have hm2 : ((s.addNode (distNode d)).addRoot d.identifier).has d.identifier = true := by
      obtain ⟨y, hy, hi⟩ := Has_of_has hm
      exact has_of_Has ⟨y, by rw [addRoot_nodes']; exact hy, hi⟩
    generalize ((s.addNode (distNode d)).addRoot d.identifier) = s2 at *
    clear h1 h2
    obtain ⟨_, s3, h3, k3⟩ := M.bind_ok k2
    clear k2
    obtain ⟨_, s4, h4, k4⟩ := M.bind_ok k3
    clear k3
    obtain ⟨-, rfl⟩ := M.pure_ok k4
    refine ih.runStack _ _ _ ?_ h4
    have key : ∀ (l : List Str) (s2 : St W) (u) (s3 : St W), s2.has d.identifier = true → GoodOrSpoilt s2 →
        M.forEach l (fun name =>
          M.bind ((calls env n).findOrLoad none name true) fun node =>
          M.addEdge d.identifier node.ident defaultDep) s2 = (.ok u, s3) → GoodOrSpoilt s3 := by
      intro l
      induction l with
      | nil =>
        intro s2 u s3 _ hs h
        obtain ⟨-, rfl⟩ := M.pure_ok h
        exact hs
      | cons x l ihl =>
        intro s2 u s3 hm hs h
        obtain ⟨_, s5, h5, h6⟩ := M.bind_ok h
        obtain ⟨node, s7, h7, h8⟩ := M.bind_ok h5
        clear h h5
        obtain ⟨-, -, hl, hh⟩ := find_held hM h7
        obtain ⟨-, -, rfl⟩ := M.addEdge_ok h8
        refine ihl _ _ _ ?_ ?_ h6
        · rw [has_addEdge]; exact hl.has hm
        · exact hs.map (hl.grew.trans (grew_addEdge ..)).log fun h => h.loadEdge hh hl hm
    exact key _ _ _ _ hm2 hs2 h3

include hM in
theorem api_orph {n : Nat} (ih : OrphRes (calls env n)) {o : ApiOp} (ho : o.Links) {s s' : St W} {r}
    (hs : GoodOrSpoilt s) (h : apiBody env (calls env n) o s = (.ok r, s')) : GoodOrSpoilt s' := by
  cases o with
  | addScript path =>
    obtain ⟨_, _, h1, k1⟩ := M.bind_ok h
    obtain ⟨-, rfl⟩ := M.pure_ok k1
    clear h k1
    unfold addScript at h1
    obtain ⟨q, s1, h2, k2⟩ := M.bind_ok h1
    clear h1
    obtain ⟨rfl, -, -⟩ := M.findModule_ok h2
    cases q with
    | some x => cases k2
    | none =>
      obtain ⟨p, s2, h3, k3⟩ := M.bind_ok k2
      clear k2
      obtain ⟨-, rfl⟩ := M.ext_ok h3
      have hs2 := hs.world (env.loadScript path s1.world).2
      generalize ({ s1 with world := (env.loadScript path s1.world).2 } : St W) = s2 at *
      clear h3 h2
      simp only [] at k3
      generalize hnode : ({ ident := path, kind := .script, filename := some p.2 } : Node) = node at *
      obtain ⟨_, s3, h4, k4⟩ := M.bind_ok k3
      clear k3
      obtain ⟨hno, rfl⟩ := M.addNode_ok h4
      rw [M.bind_schedule] at k4
      obtain ⟨_, s4, h5, k5⟩ := M.bind_ok k4
      clear k4
      obtain ⟨hm, rfl⟩ := M.addRoot_ok h5
      obtain ⟨_, s5, h6, k6⟩ := M.bind_ok k5
      clear k5
      obtain ⟨-, rfl⟩ := M.pure_ok k6
      refine ih.runStack _ _ _ ?_ h6
      have hg := ((grew_addNode hno).trans (grew_schedule (s2.addNode node) node p.1)).trans
        (grew_addRoot _ path)
      refine hs2.map hg.log fun hs => ?_
      refine hs.step hg (fun r h => addRoot_sub _ _ r (by rw [schedule_roots]; exact h)) (fun x hx => ?_)
        (fun it hit => ?_)
      · rw [addRoot_nodes', schedule_nodes] at hx
        rcases List.mem_append.mp hx with hx | hx
        · exact .inl hx
        · cases List.mem_singleton.mp hx
          exact .inr ⟨path, .inl (mem_addRoot ..), by rw [← hnode]; exact .refl⟩
      · rw [addRoot_stack'] at hit
        refine (schedule_items _ node p.1 ?_ it hit).imp id (ItemKnown.mono ?_)
        · rw [has_addNode]; simp
        · rw [addRoot_nodes']; exact fun _ h => h
  | addModule name =>
    obtain ⟨_, _, h1, k1⟩ := M.bind_ok h
    obtain ⟨-, rfl⟩ := M.pure_ok k1
    exact addModule_orph hM ih hs h1
  | addDependenciesForSource src =>
    obtain ⟨_, _, h1, k1⟩ := M.bind_ok h
    obtain ⟨-, rfl⟩ := M.pure_ok k1
    clear h k1
    unfold addDependenciesForSource at h1
    obtain ⟨infos, s2, h2, k2⟩ := M.bind_ok h1
    obtain ⟨-, rfl⟩ := M.ext_ok h2
    refine forEach_orph ?_ _ _ _ (hs.world _) k2
    intro info _ s u s' hs h
    obtain ⟨_, _, h3, k3⟩ := M.bind_ok h
    refine forEach_orph ?_ _ _ _ (addModule_orph hM ih hs h3) k3
    intro nm _ s u s' hs h
    obtain ⟨_, _, h4, k4⟩ := M.bind_ok h
    obtain ⟨-, rfl⟩ := M.pure_ok k4
    exact addModule_orph hM ih hs h4
  | addDistribution d =>
    obtain ⟨_, _, h1, k1⟩ := M.bind_ok h
    obtain ⟨-, rfl⟩ := M.pure_ok k1
    exact addDistribution_orph hM ih hs h1
  | addDistributionNamed name =>
    obtain ⟨_, _, h1, k1⟩ := M.bind_ok h
    obtain ⟨-, rfl⟩ := M.pure_ok k1
    clear h k1
    unfold addDistributionNamed at h1
    obtain ⟨q, s2, h2, k2⟩ := M.bind_ok h1
    obtain ⟨-, rfl⟩ := M.ext_ok h2
    cases q with
    | none => cases k2
    | some d => exact addDistribution_orph hM ih (hs.world _) k2
  | importModule m name => exact ho.elim
  | importPackage m name => exact ho.elim
  | runStack =>
    obtain ⟨_, _, h1, k1⟩ := M.bind_ok h
    obtain ⟨-, rfl⟩ := M.pure_ok k1
    exact ih.runStack _ _ _ hs h1
  | addMissingHook x =>
    have : s' = { s with missHooks := x :: s.missHooks } := (congrArg Prod.snd h).symm
    subst this
    exact hs.map List.prefix_rfl fun h =>
      h.quiet ⟨List.prefix_rfl, fun _ h => h, List.prefix_rfl, fun _ _ _ h => h, fun _ h => h⟩ rfl rfl rfl
  | addPostHook x =>
    have : s' = { s with postHooks := x :: s.postHooks } := (congrArg Prod.snd h).symm
    subst this
    exact hs.map List.prefix_rfl fun h =>
      h.quiet ⟨List.prefix_rfl, fun _ h => h, List.prefix_rfl, fun _ _ _ h => h, fun _ h => h⟩ rfl rfl rfl
  | addExcludes names =>
    have : s' = names.foldl addExclude s := (congrArg Prod.snd h).symm
    subst this
    refine foldl_pres (P := GoodOrSpoilt) (f := addExclude) (fun s a h => ?_) names s hs
    exact h.map List.prefix_rfl fun h =>
      h.quiet ⟨List.prefix_rfl, fun _ h => h, List.prefix_rfl, fun _ _ _ h => h, fun _ h => h⟩ rfl rfl rfl
  | addExcludesStr _ => cases h
  | addImplies l =>
    have : s' = l.foldl addImply s := (congrArg Prod.snd h).symm
    subst this
    refine foldl_pres (P := GoodOrSpoilt) (f := addImply) (fun s a h => ?_) l s hs
    unfold addImply
    split
    · exact h
    · exact h.map List.prefix_rfl fun h =>
        h.quiet ⟨List.prefix_rfl, fun _ h => h, List.prefix_rfl, fun _ _ _ h => h, fun _ h => h⟩ rfl rfl rfl
  | addNode _ => exact ho.elim
  | addEdge a b d =>
    obtain ⟨_, _, h1, k1⟩ := M.bind_ok h
    obtain ⟨-, rfl⟩ := M.pure_ok k1
    obtain ⟨-, -, rfl⟩ := M.addEdge_ok h1
    exact hs.map (grew_addEdge ..).log fun h => h.addEdge ..
  | addRoot a =>
    obtain ⟨_, _, h1, k1⟩ := M.bind_ok h
    obtain ⟨-, rfl⟩ := M.pure_ok k1
    obtain ⟨-, rfl⟩ := M.addRoot_ok h1
    exact hs.map (grew_addRoot ..).log fun h => h.addRoot _
  | processImportList _ _ => exact ho.elim

include hM in
theorem calls_orph (hP : ∀ k n, (env.userPost k n).Only ApiOp.Links) (n : Nat) : OrphRes (calls env n) := by
  induction n with
  | zero =>
    exact ⟨fun _ _ _ _ h => by (cases h), fun _ _ _ _ _ _ h => by (cases h), fun _ _ _ h => h⟩
  | succ n ih =>
    refine ⟨fun s u s' hs h => runStack_orph hM ih hs h, fun k m s u s' hs h => callPost_orph hP ih hs h, ?_⟩
    intro o s ho hs
    change GoodOrSpoilt (opBody env (calls env n) o s).2
    unfold opBody
    cases h : apiBody env (calls env n) o s with
    | mk r s1 =>
      cases r with
      | ok a => exact api_orph hM ih ho hs h
      | error e => exact .inl (.inl (by simp [St.event]))

end
end Verif
