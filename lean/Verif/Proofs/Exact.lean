import Verif.Proofs.SixTable
import Verif.Proofs.ExactNames
import Verif.Proofs.CtxWalk
import Verif.Props.Builtin
import Verif.Props.FromImport
/-!
# Everything in a graph is needed

The invariant of C61: nodes, edges, roots and queue contain only what the description allows.
-/
namespace Verif
open M Spec
variable {W : Type}

section
variable (S : Setup)

def XItem (s : St W) : Item → Prop
  | .pp n => n ∈ s.nodes
  | .imp m i => m ∈ s.nodes ∧ S.Needs (.statement m i)
  | .nl a b i => a ∈ s.nodes ∧ b ∈ s.nodes ∧ S.Needs (.statement a i) ∧ Refers a i b.ident
  | .pkg _ _ => False

def XObl : Obl → Prop
  | .load name p lm => S.Needs (.module name (!lm)) ∧ ∃ b, splitPackage name = .ok (p, b)
  | .alias name t => S.NeedsModule name ∧
      ∃ n, S.NodeFor name n ∧ (n.kind = .alias t ∨ n.kind = .virtual t)
  | .refs name all rest => S.NeedsModule name ∧ S.Needs (.module name false) ∧ S.Open name ∧
      S.conf name = some (.refs all) ∧ ∀ r ∈ rest, r ∈ all
  | .node n imports => S.NeedsModule n.ident ∧ S.NodeFor n.ident n ∧
      S.mods n.ident = some (n, imports)
  | .target n => S.Needs (.module n.ident false)
  | .dist d rest => S.asksDist d ∧ ∀ r ∈ rest, r ∈ d.importNames

structure XCore (s : St W) : Prop where
  nodes : ∀ n ∈ s.nodes, S.HasNode n
  edges : ∀ a b d, (a, b, d) ∈ s.edges → S.HasEdge a b d
  roots : ∀ r ∈ s.roots, S.HasRoot r
  gw : ∀ k nm, nm ∈ s.gw k → S.MayDefine k nm
  static : ∀ n ∈ s.nodes, ∀ nm ∈ n.globalsWritten, nm ∈ s.gw n.ident
  lazy : ∀ x, s.lazy x = S.conf x ∨
    (s.lazy x = none ∧ (s.has x = true ∨ ∃ l, S.conf x = some (.refs l)))
  items : ∀ it, (it ∈ pending s ∨ Event.started it ∈ s.log) → XItem S s it

def XJ (O : List Obl) (s : St W) : Prop := XCore S s ∧ ∀ o ∈ O, XObl S o
end

section
variable {S : Setup} {s s' : St W} {O O' : List Obl}

theorem XItem.mono {it} (h : XItem S s it) (hn : ∀ n ∈ s.nodes, n ∈ s'.nodes) : XItem S s' it := by
  cases it with
  | pp n => exact hn _ h
  | imp m i => exact ⟨hn _ h.1, h.2⟩
  | nl a b i => exact ⟨hn _ h.1, hn _ h.2.1, h.2.2⟩
  | pkg _ _ => exact h

/-- The same graph and configuration; only known items. -/
theorem XCore.same (h : XCore S s) (hn : s'.nodes = s.nodes) (he : s'.edges = s.edges)
    (hr : s'.roots = s.roots) (hg : s'.gw = s.gw) (hl : s'.lazy = s.lazy)
    (hp : ∀ it, it ∈ pending s' → it ∈ pending s)
    (hlog : s'.log = s.log ∨ ∃ e, s'.log = s.log ++ [e] ∧ ∀ it, e = .started it → it ∈ pending s) :
    XCore S s' := by
  refine ⟨by rw [hn]; exact h.nodes, by rw [he]; exact h.edges, by rw [hr]; exact h.roots,
    by rw [hg]; exact h.gw, by rw [hn, hg]; exact h.static, ?_, ?_⟩
  · intro x
    have : s'.has x = s.has x := by unfold St.has; rw [hn]
    rw [hl, this]
    exact h.lazy x
  · intro it hit
    refine XItem.mono (h.items it ?_) (by rw [hn]; exact fun _ h => h)
    rcases hit with hit | hit
    · exact .inl (hp it hit)
    · rcases hlog with h' | ⟨e, h', h2⟩ <;> rw [h'] at hit
      · exact .inr hit
      · rcases List.mem_append.mp hit with h3 | h3
        · exact .inr h3
        · simp only [List.mem_singleton] at h3
          exact .inl (h2 it h3.symm)

theorem XCore.event (h : XCore S s) (e : Event) (he : ∀ it, e ≠ .started it) : XCore S (s.event e) :=
  h.same rfl rfl rfl rfl rfl (fun _ h => h) (.inr ⟨e, rfl, fun it h' => absurd h' (he it)⟩)

theorem XJ.keep (h : XJ S O s) (hc : XCore S s') : XJ S O s' := ⟨hc, h.2⟩
theorem XJ.tail {o} (h : XJ S (o :: O) s) (hc : XCore S s') : XJ S O s' :=
  ⟨hc, fun o hm => h.2 o (List.mem_cons_of_mem _ hm)⟩
theorem XJ.push {o} (h : XJ S O s) (hc : XCore S s') (ho : XObl S o) : XJ S (o :: O) s' := by
  refine ⟨hc, fun o' hm => ?_⟩
  rcases List.mem_cons.mp hm with rfl | hm
  · exact ho
  · exact h.2 o' hm
theorem XJ.head {o} (h : XJ S (o :: O) s) : XObl S o := h.2 o (List.mem_cons_self ..)

theorem XCore.addEdge (h : XCore S s) {a b d} (he : S.HasEdge a b d) : XCore S (s.addEdge a b d) := by
  have hm : ∀ e, e ∈ (s.addEdge a b d).edges ↔ e ∈ s.edges ∨ e = (a, b, d) := mem_addEdge s a b d
  have hs : (s.addEdge a b d).nodes = s.nodes ∧ (s.addEdge a b d).roots = s.roots ∧
      (s.addEdge a b d).gw = s.gw ∧ (s.addEdge a b d).lazy = s.lazy ∧
      pending (s.addEdge a b d) = pending s ∧ (s.addEdge a b d).log = s.log ∧
      (s.addEdge a b d).has = s.has := by
    unfold St.addEdge
    split <;> exact ⟨rfl, rfl, rfl, rfl, rfl, rfl, rfl⟩
  revert hm hs
  generalize s.addEdge a b d = s'
  rintro hm ⟨h1, h2, h3, h4, h5, h6, h7⟩
  refine ⟨by rw [h1]; exact h.nodes, ?_, by rw [h2]; exact h.roots, by rw [h3]; exact h.gw,
    by rw [h1, h3]; exact h.static, by rw [h4, h7]; exact h.lazy, ?_⟩
  · intro a' b' d' hmem
    rcases (hm _).mp hmem with h' | h'
    · exact h.edges _ _ _ h'
    · cases h'; exact he
  · intro it hit
    rw [h5, h6] at hit
    exact (h.items it hit).mono (by rw [h1]; exact fun _ h => h)

theorem XCore.addRoot (h : XCore S s) {r} (hr : S.HasRoot r) : XCore S (s.addRoot r) := by
  unfold St.addRoot
  split
  · exact h
  · refine ⟨h.nodes, h.edges, ?_, h.gw, h.static, h.lazy, h.items⟩
    intro x hx
    rcases List.mem_append.mp hx with h' | h'
    · exact h.roots x h'
    · simp only [List.mem_singleton] at h'
      subst h'; exact hr

/-- A new node, possibly with its configuration entry popped. -/
theorem XCore.addNode (h : XCore S s) {s0 : St W} {n : Node} (h0 : s0 = s ∨ s0 = s.popLazy n.ident)
    (hh : s.has n.ident = false) (hn : S.HasNode n) : XCore S (s0.addNode n) := by
  have hfr : ∀ m ∈ s.nodes, m.ident ≠ n.ident := by
    intro m hm he
    rw [has_of_Has ⟨m, hm, he⟩] at hh; cases hh
  have hs : s0.nodes = s.nodes ∧ s0.edges = s.edges ∧ s0.roots = s.roots ∧ s0.gw = s.gw ∧
      pending s0 = pending s ∧ s0.log = s.log := by
    rcases h0 with rfl | rfl <;> exact ⟨rfl, rfl, rfl, rfl, rfl, rfl⟩
  have hlz : ∀ x, s0.lazy x = s.lazy x ∨ (s0.lazy x = none ∧ x = n.ident) := by
    intro x
    rcases h0 with rfl | rfl
    · exact .inl rfl
    · by_cases he : x = n.ident
      · exact .inr ⟨if_pos he, he⟩
      · exact .inl (if_neg he)
  obtain ⟨h1, h2, h3, h4, h5, h6⟩ := hs
  have hsub : ∀ m ∈ s.nodes, m ∈ (s0.addNode n).nodes := by
    intro m hm
    exact List.mem_append_left _ (h1 ▸ hm)
  have hmem : n ∈ (s0.addNode n).nodes := by simp [St.addNode]
  refine ⟨?_, by rw [show (s0.addNode n).edges = s0.edges from rfl, h2]; exact h.edges,
    by rw [show (s0.addNode n).roots = s0.roots from rfl, h3]; exact h.roots, ?_, ?_, ?_, ?_⟩
  · intro m hm
    rcases List.mem_append.mp hm with h' | h'
    · exact h.nodes m (h1 ▸ h')
    · simp only [List.mem_singleton] at h'
      subst h'; exact hn
  · intro k nm hnm
    change nm ∈ (if k = n.ident then n.globalsWritten else s0.gw k) at hnm
    split at hnm
    · rename_i hk
      subst hk
      exact .own hn hnm
    · rw [h4] at hnm
      exact h.gw k nm hnm
  · intro m hm nm hnm
    change nm ∈ (if m.ident = n.ident then n.globalsWritten else s0.gw m.ident)
    rcases List.mem_append.mp hm with h' | h'
    · rw [if_neg (hfr m (h1 ▸ h')), h4]
      exact h.static m (h1 ▸ h') nm hnm
    · simp only [List.mem_singleton] at h'
      subst h'
      rw [if_pos rfl]; exact hnm
  · intro x
    change s0.lazy x = _ ∨ (s0.lazy x = none ∧ _)
    rcases hlz x with hx | ⟨hx, rfl⟩
    · rw [hx]
      refine (h.lazy x).imp id fun ⟨h7, h8⟩ => ⟨h7, h8.imp (fun h9 => ?_) id⟩
      obtain ⟨m, hm, hmi⟩ := (has_iff s x).mp h9
      exact has_of_Has ⟨m, hsub m hm, hmi⟩
    · exact .inr ⟨hx, .inl (has_of_Has ⟨n, hmem, rfl⟩)⟩
  · intro it hit
    change it ∈ pending s0 ∨ Event.started it ∈ s0.log at hit
    rw [h5, h6] at hit
    exact (h.items it hit).mono hsub

theorem XCore.schedule (h : XCore S s) {n infos} (hn : n ∈ s.nodes)
    (hi : ∀ i ∈ infos, S.Needs (.statement n i)) :
    XCore S (s.schedule n infos) := by
  have hp := schedule_pending s n infos
  have hl := log_schedule s n infos
  have hs' : (s.schedule n infos).nodes = s.nodes ∧ (s.schedule n infos).edges = s.edges ∧
      (s.schedule n infos).roots = s.roots ∧ (s.schedule n infos).gw = s.gw ∧
      (s.schedule n infos).lazy = s.lazy ∧ (s.schedule n infos).has = s.has := by
    unfold St.schedule
    simp only []
    split <;> exact ⟨rfl, rfl, rfl, rfl, rfl, rfl⟩
  revert hp hl hs'
  generalize s.schedule n infos = s'
  rintro hp hl ⟨h1, h2, h3, h4, h5, h6⟩
  refine ⟨by rw [h1]; exact h.nodes, by rw [h2]; exact h.edges, by rw [h3]; exact h.roots,
    by rw [h4]; exact h.gw, by rw [h1, h4]; exact h.static, by rw [h5, h6]; exact h.lazy, ?_⟩
  · intro it hit
    rw [hp, hl] at hit
    simp only [List.mem_append, List.mem_singleton, reduceCtorEq, or_false] at hit
    have hk : ∀ it, XItem S s it → XItem S s' it := fun it h => h.mono (by rw [h1]; exact fun _ h => h)
    rcases hit with ((h7 | h7) | h7) | h7
    · exact hk _ (h.items it (.inl h7))
    · split at h7
      · simp at h7
      · simp only [List.mem_singleton] at h7
        subst h7
        exact hk (.pp n) hn
    · obtain ⟨i, hii, rfl⟩ := List.mem_map.mp h7
      exact hk (.imp n i) ⟨hn, hi i hii⟩
    · exact hk _ (h.items it (.inr h7))

theorem XCore.addSched (h : XCore S s) {s0 : St W} {n : Node} {infos}
    (h0 : s0 = s ∨ s0 = s.popLazy n.ident) (hh : s.has n.ident = false) (hn : S.HasNode n)
    (hi : ∀ i ∈ infos, S.Needs (.statement n i)) :
    XCore S ((s0.addNode n).schedule n infos) :=
  (h.addNode h0 hh hn).schedule (by simp [St.addNode]) hi

theorem XCore.addGlobals (h : XCore S s) {a names} (hg : ∀ nm ∈ names, S.MayDefine a nm) :
    XCore S (s.addGlobals a names) := by
  have hm : ∀ k nm, nm ∈ (s.addGlobals a names).gw k → nm ∈ s.gw k ∨ (k = a ∧ nm ∈ names) := by
    intro k nm hnm
    simp only [St.addGlobals] at hnm
    split at hnm
    · rename_i hk
      rcases List.mem_append.mp hnm with h' | h'
      · exact .inl h'
      · exact .inr ⟨hk, (List.mem_filter.mp h').1⟩
    · exact .inl hnm
  have hk : ∀ k nm, nm ∈ s.gw k → nm ∈ (s.addGlobals a names).gw k := by
    intro k nm hnm
    simp only [St.addGlobals]
    split
    · exact List.mem_append_left _ hnm
    · exact hnm
  refine ⟨h.nodes, h.edges, h.roots, ?_, fun n hn nm hnm => hk _ _ (h.static n hn nm hnm), h.lazy,
    h.items⟩
  intro k nm hnm
  rcases hm k nm hnm with h' | ⟨rfl, h'⟩
  · exact h.gw k nm h'
  · exact hg nm h'

/-! ## What is known about names -/

theorem XCore.conf (h : XCore S s) {x i} (hl : s.lazy x = some i) : S.conf x = some i := by
  rcases h.lazy x with h' | ⟨h', _⟩
  · rw [← h', hl]
  · rw [hl] at h'; cases h'

theorem XCore.unconf (h : XCore S s) {x} (hl : s.lazy x = none) (hh : s.has x = false) :
    S.conf x = none ∨ ∃ l, S.conf x = some (.refs l) := by
  rcases h.lazy x with h' | ⟨_, h' | h'⟩
  · exact .inl (by rw [← h', hl])
  · rw [hh] at h'; cases h'
  · exact .inr h'

theorem Spec.Setup.Open.node {x n} (h : S.Open x) (ho : S.Own x n) : S.NodeFor x n := by
  rcases h with h | ⟨p, q, h1, h2, h3, h4⟩
  · exact .top h ho
  · exact .sub h1 h2 h3 h4 ho

theorem XCore.node (h : XCore S s) (hT : S.Tame) {n} (hn : n ∈ s.nodes) (hx : S.NeedsModule n.ident) :
    S.NodeFor n.ident n := (h.nodes n hn).nodeFor hT hx

theorem XCore.free (h : XCore S s) (hT : S.Tame) {x p b} (hx : S.NeedsModule x)
    (hs : splitPackage x = .ok (p, b)) (hf : Free s p) : S.Open x := by
  rcases hf with rfl | ⟨q, hq, rfl, h1, h2⟩
  · exact .inl (dotless_of_split hs)
  · have hp := hasPackage_of_split (hT.noDot x hx) hs
    obtain ⟨tr, hx⟩ := hx
    exact .inr ⟨q.ident, q, hp, h.node hT hq ⟨_, .package hx hp⟩, h1, h2⟩

theorem XCore.parent (h : XCore S s) (hT : S.Tame) {x b} {q : Node} (hx : S.NeedsModule x) (hq : q ∈ s.nodes)
    (hs : splitPackage x = .ok (some q.ident, b)) : HasPackage x q.ident ∧ S.NodeFor q.ident q := by
  have hp := hasPackage_of_split (hT.noDot x hx) hs
  obtain ⟨tr, hx⟩ := hx
  exact ⟨hp, h.node hT hq ⟨_, .package hx hp⟩⟩

theorem FromSpec.mods {env : Env W} (hD : S.Describes env) {x n imports} (h : FromSpec env x n imports) :
    S.mods x = some (n, imports) := by
  obtain ⟨spec, w, w', h1, h2⟩ := h
  exact hD.found x spec w w' _ (locates_iff.mpr h1) h2

theorem XCore.nl (h : XCore S s) (hT : S.Tame) {a b c i} (hst : Event.started (.nl a b i) ∈ s.log)
    (hc : NlTarget s b c) : S.Needs (.statement a i) ∧ Refers a i b.ident ∧ S.NodeFor b.ident b ∧
      S.Source b c ∧ c ∈ s.nodes := by
  obtain ⟨h1, h2, h3, h4⟩ := h.items _ (.inr hst)
  have hb := h.node hT h2 ⟨_, .target h3 h4⟩
  refine ⟨h3, h4, hb, ?_⟩
  rcases hc with ⟨rfl, hc⟩ | ⟨hc, hm⟩
  · refine ⟨.inl ⟨rfl, ?_⟩, h2⟩
    intro t ht
    simp [Node.isAlias, ht] at hc
  · exact ⟨.inr ⟨hc, h.node hT hm ⟨_, .alias (.target h3 h4) hb (.inl hc)⟩⟩, hm⟩

theorem XCore.fromImport (h : XCore S s) (hT : S.Tame) {a b c i nm}
    (hst : Event.started (.nl a b i) ∈ s.log) (hc : NlTarget s b c) (hs : i.starImport = false)
    (hn : nm ∈ i.importNames) : S.FromImport a i c nm ∧ c ∈ s.nodes := by
  obtain ⟨h1, h2, h3, h4, h5⟩ := h.nl hT hst hc
  exact ⟨.intro h1 h2 h3 h4 hs hn, h5⟩

theorem XCore.subLinked (h : XCore S s) (hT : S.Tame) {a c i nm} (hf : S.FromImport a i c nm)
    (hc : c ∈ s.nodes) (hp : c.isPackage = true ∨ c.isNamespacePkg = true)
    (hl : SubLinked s c nm.name) : S.IsSubmodule c nm.name := by
  obtain ⟨sub, h1, h2, h3⟩ := hl
  by_cases hm : sub.isMissing = true
  · rcases h3 hm with h4 | ⟨h7, h4 | h4⟩
    · exact .inr (.inl ⟨h4.1, Props.sixMove_none.mp h4.2⟩)
    · rw [h4] at hp
      exact .inr (.inr ⟨h7, .inl (by simpa using hp)⟩)
    · exact .inr (.inr ⟨h7, .inr fun h5 => h4 (h.static c hc _ h5)⟩)
  · have := h.node hT h1 ⟨_, h2 ▸ hf.tried hp⟩
    rw [h2] at this
    exact .inl ⟨sub, this, by simpa using hm⟩

theorem XCore.sent (h : XCore S s) (hT : S.Tame) {a c i nm r} (hf : S.FromImport a i c nm)
    (hsix : SixMoves c) (hr : sixMove nm.name = some r) (hm : SubMissing s c nm.name) : S.Sent c nm.name r := by
  obtain ⟨sub, h1, h2, h3⟩ := hm
  have hp : c.isPackage = true := by
    obtain ⟨_, _, _, _, _, hk, _⟩ := hsix
    simp [Node.isPackage, hk]
  have := h.node hT h1 ⟨_, h2 ▸ hf.tried (.inl hp)⟩
  rw [h2] at this
  exact ⟨hsix, Props.sixMove_iff.mp hr, sub, this, h3⟩

end

/-! ## Modules compiled with mypyc -/

theorem Spec.MypycModule.same {n : Node} {file helper file' helper' : Str} (h : MypycModule n file helper)
    (h' : MypycModule n file' helper') : file = file' ∧ helper = helper' := by
  obtain ⟨h1, d, h2, h3⟩ := Props.mypycModule_iff.mp h
  obtain ⟨h4, d', h5, h6⟩ := Props.mypycModule_iff.mp h'
  rw [h1] at h4; rw [h2] at h5
  cases h4; cases h5
  rw [h3] at h6
  cases h6
  exact ⟨rfl, rfl⟩

theorem MypycAt.said {env : Env W} {S : Setup} (hD : S.Describes env) {n : Node} {file helper : Str}
    (hn : S.HasNode n) (h : MypycAt env n file helper) : ∃ infos, S.compiled n = some (helper, infos) ∧
      ∀ w w' code l, (env.readBytes (sourceNextTo file) w).1 = .ok code →
        (env.compileAst code w').1 = .ok l → l = infos := by
  have hm : MypycModule n file helper := Props.mypycModule_iff.mpr ⟨h.compiled, h.dist⟩
  have same : ∀ {f h'}, MypycModule n f h' → f = file ∧ h' = helper := fun hm' => hm'.same hm
  cases hD.compiled n hn with
  | no h1 => exact absurd hm (h1 _ _)
  | noSource h1 h2 _ h4 =>
    obtain ⟨rfl, rfl⟩ := same h1
    obtain ⟨w, hw⟩ := h.source
    rw [Props.sourceNextTo_eq h2] at hw
    exact absurd hw (h4 w)
  | source h1 h2 h3 _ h5 =>
    obtain ⟨rfl, rfl⟩ := same h1
    rw [Props.sourceNextTo_eq h2]
    exact ⟨_, h3, h5⟩

theorem mypycFile_kind {n : Node} {file : Option Str} (h : mypycFile n = some file) :
    n.isExtension = true ∨ n.isPackage = true := by
  have := h
  unfold mypycFile at this
  unfold Node.isExtension Node.isPackage
  split at this <;> simp_all

theorem MypycAt.kind {env : Env W} {n : Node} {file helper : Str} (h : MypycAt env n file helper) :
    n.isExtension = true ∨ n.isPackage = true := mypycFile_kind h.compiled

theorem Spec.Setup.HasNode.needed {S : Setup} {n : Node} (h : S.HasNode n)
    (hk : n.isExtension = true ∨ n.isPackage = true) : ∃ x tr, S.Needs (.module x tr) ∧ S.NodeFor x n := by
  cases h with
  | module h1 h2 =>
    obtain ⟨tr, h1⟩ := h1
    exact ⟨_, tr, h1, h2⟩
  | _ => simp [Node.isExtension, Node.isPackage, Setup.scriptNode, Setup.distributionNode] at hk

/-- What the client asks for, and the helper modules of modules compiled with mypyc. -/
def Spec.Setup.MayAsk (S : Setup) : ApiOp → Prop
  | .addModule x => S.asksModule x ∨ ∃ n infos, S.HasNode n ∧ S.compiled n = some (x, infos) ∧
      S.Needs (.module x false)
  | o => S.Asks o

theorem Spec.Setup.mayAsk (S : Setup) {o : ApiOp} (ho : S.Asks o) : S.MayAsk o := by
  cases o <;> first | exact .inl ho | exact ho

theorem Spec.Setup.Describes.hasMypyc {env : Env W} {S : Setup} (hD : S.Describes env) {n : Node}
    (hn : S.HasNode n) (hc : S.compiled n ≠ none) : S.HasMypyc := by
  cases hD.compiled n hn with
  | no _ h => exact absurd h hc
  | noSource _ _ h => exact absurd h hc
  | source h => exact ⟨n, _, _, hn, h⟩

theorem Spec.Setup.may (S : Setup) {p : Hook W} (h : p.Only S.Asks) : p.Only S.MayAsk :=
  h.mono fun _ => S.mayAsk

theorem exactCtx (env : Env W) (hO : env.OrderExact) {S : Setup} (hT : S.Tame) (hD : S.Describes env) :
    RCtx env S.MayAsk (fun name lm => S.Needs (.module name (!lm))) (XJ (W := W) S) (XCore S) where
  aAddModule := by
    intro s n file helper h hst hm
    have hn := h.1.nodes n (h.1.items _ (.inr hst))
    obtain ⟨infos, h1, _⟩ := hm.said hD hn
    obtain ⟨x, tr, h2, h3⟩ := hn.needed hm.kind
    exact .inr ⟨n, infos, hn, h1, .helper h2 h3 h1⟩
  whyPackage hw hs := .package hw (hasPackage_of_split (hT.noDot _ ⟨_, hw⟩) hs)
  whyAlias h := by
    obtain ⟨⟨tr, h1⟩, n, h2, h3⟩ := h.head
    exact .alias h1 h2 h3
  whySelf h := h.head.2.1
  whyRef h := by
    obtain ⟨-, h1, h2, h3, h4⟩ := h.head
    exact .implied h1 h2 h3 (h4 _ (List.mem_cons_self ..))
  whyNs {O s n imports fr init sp hd ns} h hk := by
    obtain ⟨⟨tr, h1⟩, h2, h3⟩ := h.head
    have := Setup.Needs.explicitNamespace h1 h2 hk
    cases ns <;> exact this
  whyTarget h hs := by
    have h1 : S.Needs (.module _ false) := h.head
    exact .package h1 (hasPackage_of_split (hT.noDot _ ⟨_, h1⟩) hs)
  whyDist h := .distribution h.head.1 (h.head.2 _ (List.mem_cons_self ..))
  whyImport h hst ha := by
    obtain ⟨h1, h2⟩ := h.1.items _ (.inr hst)
    exact .target h2 (refers_of_absoluteName ha)
  whyFrom h hst hc hs hp hn := ((h.1.fromImport hT hst hc hs hn).1).tried hp
  whySix h hst hc hs hn hsix ht hm := by
    have hf := (h.1.fromImport hT hst hc hs hn).1
    obtain ⟨h1, h2, h3, h4, h5⟩ := h.1.nl hT hst hc
    exact .sixMoves h1 h2 h3 h4 hs hn (h.1.sent hT hf hsix ht hm)
  whyAsked hA ha ho := by
    cases ha with
    | module =>
      rcases hA with hA | ⟨_, _, _, _, h⟩
      · exact .asked hA
      · exact h
    | source hp hi => exact .asked (hA _ (hD.source _ _ _ hp) _ ⟨_, hi, .inl rfl⟩)
    | sourceName hp hi hn => exact .asked (hA _ (hD.source _ _ _ hp) _ ⟨_, hi, .inr ⟨_, hn, rfl⟩⟩)
    | _ => exact ho.elim
  whyModule h := h.elim
  whyPkg h hst := by
    rcases hst with hst | hst
    · exact (h.1.items _ (.inr hst)).elim
    · exact hst.elim
  whyPkgSub h _ _ hst := by
    rcases hst with hst | hst
    · exact (h.1.items _ (.inr hst)).elim
    · exact hst.elim
  toE h := h.1
  world w h := h.keep (h.1.same rfl rfl rfl rfl rfl (fun _ h => h) (.inl rfl))
  looked h := h.keep (h.1.event _ (by simp))
  asked _ _ _ h := h.keep (h.1.event _ (by simp))
  called _ _ h := h.keep (h.1.event _ (by simp))
  failed h := ⟨h.event _ (by simp), by simp⟩
  pushLoad _ h hsp _ hw := h.push h.1 ⟨hw, _, hsp⟩
  popLoad h _ := h.tail h.1
  popLoadLink := by
    intro O s name p lm h hn hp hlm
    obtain ⟨h1, b, h2⟩ := h.head
    have hP := hasPackage_of_split (hT.noDot _ ⟨_, h1⟩) h2
    refine h.tail (h.1.addEdge ?_)
    cases lm with
    | true => exact .package h1 hP
    | false =>
      rcases hlm with hlm | ⟨n, h3, rfl, h4⟩
      · cases hlm
      · exact .packageOfFound h1 (h.1.node hT h3 ⟨_, h1⟩) h4 hP
  popLoadMissing h _ _ _ := h.tail h.1
  addExcludedSub := by
    intro O s name p lm parent h hp he hx hh
    subst he
    obtain ⟨h1, b, h2⟩ := h.head
    obtain ⟨h3, h4⟩ := h.1.parent hT ⟨_, h1⟩ hp h2
    exact h.keep (h.1.addSched (.inl rfl) hh (.module ⟨_, h1⟩ (.inExcluded h3 h4 hx)) (by simp))
  addMissing := by
    intro O s name p lm h hh hm _
    obtain ⟨h1, b, h2⟩ := h.head
    refine h.keep (h.1.addSched (.inl rfl) hh (.module ⟨_, h1⟩ (x := name) ?_) (by simp))
    rcases hm with ⟨q, hq, rfl, hqm⟩ | ⟨hl, hf, w, hw⟩
    · obtain ⟨h3, h4⟩ := h.1.parent hT ⟨_, h1⟩ hq h2
      exact .inMissing h3 h4 hqm
    · exact (h.1.free hT ⟨_, h1⟩ h2 hf).node (.absent (h.1.unconf hl hh) (hD.absent name w fun _ h => hw _ (locates_iff.mp h)))
  addSwig n imp h _ _ _ _ hg := by
    obtain ⟨s0, h0, h1⟩ := hg
    exact absurd (h0.1.gw _ _ h1) (hT.noSwig _)
  popExcluded := by
    intro O s name p lm h hh hl hf
    obtain ⟨h1, b, h2⟩ := h.head
    exact h.keep (h.1.addSched (n := excludedNode name) (.inr rfl) hh (.module ⟨_, h1⟩
      ((h.1.free hT ⟨_, h1⟩ h2 hf).node (.excluded (h.1.conf hl)))) (by simp))
  popAlias := by
    intro O s name p lm t h hh hl hf
    obtain ⟨h1, b, h2⟩ := h.head
    have hn := (h.1.free hT ⟨_, h1⟩ h2 hf).node (.alias (h.1.conf hl))
    exact h.push (h.1.addSched (n := aliasNode name t) (.inr rfl) hh (.module ⟨_, h1⟩ hn) (by simp)) ⟨⟨_, h1⟩, _, hn, .inl rfl⟩
  popVirtual := by
    intro O s name p lm t h hh hl hf
    obtain ⟨h1, b, h2⟩ := h.head
    have hn := (h.1.free hT ⟨_, h1⟩ h2 hf).node (.virtual (h.1.conf hl))
    exact h.push (h.1.addSched (n := virtualNode name t) (.inr rfl) hh (.module ⟨_, h1⟩ hn) (by simp)) ⟨⟨_, h1⟩, _, hn, .inr rfl⟩
  doneAlias h _ _ := by
    obtain ⟨h1, n, h2, h3⟩ := h.head
    exact h.tail (h.1.addEdge (.alias h1 h2 h3))
  popRefs := by
    intro O s name p lm names h hh hl hf
    obtain ⟨h1, b, h2⟩ := h.head
    have hc := h.1.conf hl
    have ho := h.1.free hT ⟨_, h1⟩ h2 hf
    refine h.push ?_ ⟨⟨_, h1⟩, ?_, ho, hc, fun _ h => h⟩
    · refine ⟨h.1.nodes, h.1.edges, h.1.roots, h.1.gw, h.1.static, ?_, h.1.items⟩
      intro x
      by_cases hx : x = name
      · subst hx
        exact .inr ⟨if_pos rfl, .inr ⟨_, hc⟩⟩
      · rw [show (s.popLazy name).lazy x = s.lazy x from if_neg hx]
        exact h.1.lazy x
    · cases lm with
      | true => exact h1
      | false => exact .implying h1 ho hc
  doneRef h _ _ := by
    obtain ⟨h1, h2, h3, h4, h5⟩ := h.head
    exact (h.tail h.1).push (h.1.addEdge (.implied h1 h3 h4 (h5 _ (List.mem_cons_self ..))))
      ⟨h1, h2, h3, h4, fun r hr => h5 r (List.mem_cons_of_mem _ hr)⟩
  doneRefs h _ := h.tail h.1
  addAlias := by
    intro O s name p lm n imports h hh hl hf hs hne
    obtain ⟨h1, b, h2⟩ := h.head
    have hn := (h.1.free hT ⟨_, h1⟩ h2 hf).node (.foundAs (h.1.unconf hl hh) (hs.mods hD) hne)
    exact h.push (h.1.addSched (n := aliasNode name n.ident) (.inl rfl) hh (.module ⟨_, h1⟩ hn) (by simp)) ⟨⟨_, h1⟩, _, hn, .inl rfl⟩
  addTarget := by
    intro O s name n imports h hh hs hne
    obtain ⟨⟨tr, h1⟩, m, h2, h3⟩ := h.head
    obtain ⟨h4, h5, h6, h7⟩ := hT.otherName name n imports (hs.mods hD) hne
    have h8 := Setup.Needs.alias h1 h2 h3
    exact h.push (h.1.addSched (.inl rfl) hh (.module ⟨_, h8⟩ h6) (fun i hi => .inModule h8 h6 h5 hi)) h8
  doneTarget h _ _ := h.tail h.1
  doneTargetLink h hs _ _ := by
    have h1 : S.Needs (.module _ false) := h.head
    exact h.tail (h.1.addEdge (.package h1 (hasPackage_of_split (hT.noDot _ ⟨_, h1⟩) hs)))
  addLoaded := by
    intro O s p lm n imports h hh hl hf hs
    obtain ⟨h1, b, h2⟩ := h.head
    have hn := (h.1.free hT ⟨_, h1⟩ h2 hf).node (.found (h.1.unconf hl hh) (hs.mods hD) rfl)
    exact h.push (h.1.addNode (.inl rfl) hh (.module ⟨_, h1⟩ hn)) ⟨⟨_, h1⟩, hn, hs.mods hD⟩
  nsEdge {O s n imports fr init sp hd ns} h hk _ _ := by
    obtain ⟨h1, h2, h3⟩ := h.head
    have := Setup.HasEdge.explicitNamespace h1 h2 hk
    cases ns <;> exact h.keep (h.1.addEdge this)
  schedNode h hn _ := by
    obtain ⟨⟨tr, h1⟩, h2, h3⟩ := h.head
    exact h.tail (h.1.schedule hn (fun i hi => .inModule h1 h2 h3 hi))
  addInvalid h hst ha hh := by
    obtain ⟨h1, h2⟩ := h.1.items _ (.inr hst)
    exact h.keep (h.1.addSched (.inl rfl) hh (.invalid h2 (outside_of_absoluteName ha)) (by simp))
  finishInvalid := by
    intro s m i n h hst ha hn hb hid hm
    obtain ⟨h1, h2⟩ := h.1.items _ (.inr hst)
    rw [hid]
    exact h.keep ((h.1.addEdge (.invalid h2 (outside_of_absoluteName ha))).event _ (by simp))
  finishImp := by
    intro s m i n offset h hst ha hn hm
    obtain ⟨h1, h2⟩ := h.1.items _ (.inr hst)
    have hr := refers_of_absoluteName ha
    have he : S.HasEdge m.ident n.ident (fromImportInfo i false i.importModule.asname) :=
      .statement h2 hr
    have hc := h.1.addEdge he
    have hm' := more_addEdge s m.ident n.ident (fromImportInfo i false i.importModule.asname)
    revert hc hm'
    generalize s.addEdge m.ident n.ident (fromImportInfo i false i.importModule.asname) = s1
    intro hc hm'
    refine h.keep ⟨hc.nodes, hc.edges, hc.roots, hc.gw, hc.static, hc.lazy, ?_⟩
    · intro it hit
      simp only [pending, List.mem_append, List.mem_singleton, reduceCtorEq, or_false] at hit
      rcases hit with (h3 | (h3 | h3) | h3) | h3
      · exact hc.items it (.inl (by simp [pending, h3]))
      · exact hc.items it (.inl (List.mem_append_right _ (List.mem_of_mem_take h3)))
      · subst h3
        exact ⟨hm'.nodes ▸ h1, hm'.nodes ▸ hn, h2, hr⟩
      · exact hc.items it (.inl (List.mem_append_right _ (List.mem_of_mem_drop h3)))
      · exact hc.items it (.inr h3)
  globals := by
    intro s a b i names h hst hn
    obtain ⟨h1, h2, h3, h4⟩ := h.1.items _ (.inr hst)
    refine h.keep (h.1.addGlobals ?_)
    intro nm hnm
    rcases hn with rfl | ⟨h5, _, rfl⟩
    · obtain ⟨x, hx, rfl⟩ := List.mem_map.mp hnm
      exact .byName h3 hx
    · exact .byStar h3 h5 h4 (h.1.gw _ _ hnm)
  reexport := by
    intro s a b c i nm t h hst hc hs hn hg hr _ _
    have hf := (h.1.fromImport hT hst hc hs hn).1
    have hg' : c.isNamespacePkg = false ∧ nm.name ∈ s.gw c.ident := by
      unfold St.globalsWritten at hg
      split at hg
      · simp at hg
      · exact ⟨by simp_all, hg⟩
    obtain ⟨d, h1, h2⟩ := Props.reexported_some hO hr
    have he := h.1.edges _ _ _ h1
    have := hT.passedOn a i c nm hf (h.1.gw _ _ hg'.2) hg'.1 _ _ he h2
    exact h.keep (h.1.addEdge (.passedOn hf this.1 this.2.1 he h2))
  subLink := by
    intro s a b c i nm h hst hc hs hp hn hl _
    obtain ⟨h1, h2⟩ := h.1.fromImport hT hst hc hs hn
    exact h.keep (h.1.addEdge (.fromPackage h1 hp (h.1.subLinked hT h1 h2 hp hl)))
  subEdge := by
    intro s a b c i nm h hst hc hs hp hn hl _
    obtain ⟨h1, h2⟩ := h.1.fromImport hT hst hc hs hn
    exact h.keep (h.1.addEdge (.fromName h1 hp (h.1.subLinked hT h1 h2 hp hl)))
  sixEdge h hst hc hs hn ht _ _ hsix hm := by
    have hf := (h.1.fromImport hT hst hc hs hn).1
    exact h.keep (h.1.addEdge (.sixMoves hf (h.1.sent hT hf hsix ht hm)))
  pkgEdge h hst _ _ := by
    rcases hst with hst | hst
    · exact (h.1.items _ (.inr hst)).elim
    · exact hst.elim
  pkgSub h _ _ hst _ := by
    rcases hst with hst | hst
    · exact (h.1.items _ (.inr hst)).elim
    · exact hst.elim
  pushPkg h _ _ hst := by
    rcases hst with hst | hst
    · exact (h.1.items _ (.inr hst)).elim
    · exact hst.elim
  pop {s st it} h hst := by
    refine h.keep (h.1.same rfl rfl rfl rfl rfl ?_ (.inr ⟨_, rfl, ?_⟩))
    · intro x hx
      simp only [pending, hst] at hx ⊢
      simp at hx ⊢
      grind
    · intro x hx
      cases hx
      simp [pending, hst]
  enter {s} h := h.keep (h.1.same rfl rfl rfl rfl rfl (fun x hx => by simpa [pending] using hx) (.inl rfl))
  exit {s0 s} h0 h hh := h.keep (h.1.same rfl rfl rfl rfl rfl (fun x hx => by
      simp only [pending, hh] at hx ⊢
      simpa [List.append_assoc] using hx) (.inl rfl))
  exitE {s0 s} h0 h hh := h.same rfl rfl rfl rfl rfl (fun x hx => by
      simp only [pending, hh] at hx ⊢
      simpa [List.append_assoc] using hx) (.inl rfl)
  script := by
    intro s path infos file h hA hh hl
    obtain ⟨w, hw⟩ := hl
    have hs := hD.script path w _ hw
    exact h.keep (h.1.addSched (.inl rfl) hh (.script hA hs) (fun i hi => .inScript hA hs hi))
  addRoot h hr _ := by
    obtain ⟨o, hA, ho⟩ := hr
    refine h.keep (h.1.addRoot ?_)
    cases ho with
    | module =>
      rcases hA with hA | ⟨n, infos, h1, h2, _⟩
      · exact .inl (.inl hA)
      · exact .inr ⟨n, infos, h1, h2⟩
    | script => exact .inl (.inr (.inl hA))
    | dist d => exact .inl (.inr (.inr ⟨d, hA, rfl⟩))
    | distNamed hp => exact .inl (.inr (.inr ⟨_, hA _ (hD.distribution _ _ _ hp), rfl⟩))
    | source hp hi => exact .inl (.inl (hA _ (hD.source _ _ _ hp) _ ⟨_, hi, .inl rfl⟩))
    | sourceName hp hi hn => exact .inl (.inl (hA _ (hD.source _ _ _ hp) _ ⟨_, hi, .inr ⟨_, hn, rfl⟩⟩))
    | root => exact hA.elim
  addDist d h hh hA := by
    have hd : S.asksDist d := by
      rcases hA with hA | ⟨nm, hA, w, hw⟩
      · exact hA
      · exact hA d (hD.distribution _ _ _ hw)
    exact h.push (h.1.addNode (.inl rfl) hh (.distribution hd)) ⟨hd, fun _ h => h⟩
  distEdge h _ _ :=
    (h.tail h.1).push (h.1.addEdge (.distribution h.head.1 (h.head.2 _ (List.mem_cons_self ..))))
      ⟨h.head.1, fun r hr => h.head.2 r (List.mem_cons_of_mem _ hr)⟩
  doneDist h _ := h.tail h.1
  importModule _ hA := hA.elim
  exclude _ hA := hA.elim
  imply _ hA := hA.elim
  missHook _ hA := hA.elim
  postHook _ hA := hA.elim
  apiAddNode _ hA := hA.elim
  apiAddEdge _ _ _ hA := hA.elim
  apiSchedule _ _ hA := hA.elim
  mypycEdge := by
    intro s n file helper h hst hm _ _
    have hn := h.1.nodes n (h.1.items _ (.inr hst))
    obtain ⟨infos, h1, _⟩ := hm.said hD hn
    obtain ⟨x, tr, h2, h3⟩ := hn.needed hm.kind
    exact h.keep (h.1.addEdge (h3.ident ▸ .helper ⟨_, h2⟩ h3 h1))
  mypycSched := by
    intro s n file helper imports h hst hm hc _
    have hmem : n ∈ s.nodes := h.1.items _ (.inr hst)
    have hn := h.1.nodes n hmem
    obtain ⟨infos, h1, h2⟩ := hm.said hD hn
    obtain ⟨code, w, w', h3, h4⟩ := hc
    cases h2 w w' code imports h3 h4
    obtain ⟨x, tr, h5, h6⟩ := hn.needed hm.kind
    exact h.keep (h.1.schedule hmem fun i hi => .inCompiled h5 h6 h1 hi)

end Verif
