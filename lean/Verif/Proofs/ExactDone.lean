import Verif.Proofs.Exact
import Verif.Proofs.MypycDone
import Verif.Proofs.Passed
import Verif.Props.FromImportRun
import Verif.Props.Scanned
import Verif.Props.Config
/-!
# Everything needed is in the graph

The other direction of C61, for states where nothing failed and the queue is empty.
-/
namespace Verif
open M Spec
variable {W : Type}

/-- What is known about the final state. -/
structure XDone (S : Setup) (s : St W) : Prop where
  core : XCore S s
  unique : UniqueIds (view s)
  dangling : NoDangling (view s)
  roots : ∀ x, S.AsksRoot x → x ∈ s.roots
  helper : ∀ n ∈ s.nodes, ∀ h infos, S.compiled n = some (h, infos) → MypycRan s n h infos
  link : ∀ m ∈ s.nodes, m.namesModule = true →
    ∀ pkg last, m.ident = pkg ++ '.' :: last → '.' ∉ last → (∃ c ∈ pkg, c ≠ '.') →
      ((m.ident, pkg, defaultDep) ∈ s.edges ∧ ∃ q ∈ s.nodes, q.ident = pkg) ∨
      (m.isMissing = true ∧ Tried s.nodes s.log m.ident)
  alias : ∀ m ∈ s.nodes, ∀ t, (m.kind = .alias t ∨ m.kind = .virtual t) →
      (m.ident, t, defaultDep) ∈ s.edges ∧ ∃ q ∈ s.nodes, q.ident = t
  refs : ∀ x l, S.conf x = some (.refs l) → ∀ m ∈ s.nodes, m.ident = x → m.namesModule = true →
      (∀ r ∈ l, (x, r, defaultDep) ∈ s.edges) ∨ PkgBlocked s.nodes x m
  dists : ∀ {d}, Setup.distributionNode d ∈ s.nodes → ∀ x ∈ d.importNames, (d.identifier, x, defaultDep) ∈ s.edges
  ns : ∀ m ∈ s.nodes, ∀ fr init sp hd ns, m.kind = .package fr init sp hd (some ns) →
      (m.ident, Setup.nsModule ns, defaultDep) ∈ s.edges
  scan : ∀ m ∈ s.nodes, ∀ infos, S.mods m.ident = some (m, infos) →
    Event.scheduled m.ident infos ∈ s.log ∨ infos = []
  script : ∀ path infos file, Setup.scriptNode path file ∈ s.nodes →
    S.scripts path = some (infos, file) → Event.scheduled path infos ∈ s.log
  done : ∀ id infos, Event.scheduled id infos ∈ s.log → ∀ i ∈ infos, ∃ t, Event.imported id i t ∈ s.log
  passed : ¬ S.HasMypyc → ∀ id infos, Event.scheduled id infos ∈ s.log → ∀ i ∈ infos, DoneSt S s id i
  imported : ∀ a i t, Event.imported a i t ∈ s.log → ∃ m ∈ s.nodes, m.ident = a ∧
    ((Refers m i t ∧ (a, t, fromImportInfo i false i.importModule.asname) ∈ s.edges) ∨
     (PointsOutside m i ∧ t = List.replicate i.importLevel '.' ++ i.importModule.name ∧
      (∃ n ∈ s.nodes, n.ident = t ∧ n.isInvalidRel = true) ∧
      (a, t, fromImportInfo i false none) ∈ s.edges))
  names : ∀ (m src : Node) (i : ImportInfo) (nm : ImpName) (t : Str),
      Event.imported m.ident i t ∈ s.log → Props.TakesFrom s t src →
      (src.isPackage = true ∨ src.isNamespacePkg = true) →
      i.starImport = false → nm ∈ i.importNames →
      let shadowed := src.isNamespacePkg = false ∧
        (nm.name ∈ s.gw src.ident ∨ src.ident = m.ident)
      (¬ shadowed → SubmoduleLinked m src i nm s ∨ SentElsewhere m src nm s) ∧
      (shadowed → (∃ t, Reexports src t nm.name s ∧ NameEdge m i nm t s) ∨
        SubmoduleLinked m src i nm s ∨ SentElsewhere m src nm s ∨
        (SubmoduleMissing src nm s ∧ ¬ IsSixMoves src))

section
variable {S : Setup} {s : St W}

theorem XDone.end (h : XDone S s) {a b d} (he : (a, b, d) ∈ s.edges) : Has s b :=
  (h.dangling.1 a b d he).2

theorem XDone.node (h : XDone S s) (hT : S.Tame) {x n} (hx : S.NeedsModule x) (hh : Has s x)
    (hn : S.NodeFor x n) : n ∈ s.nodes := by
  obtain ⟨m, hm, rfl⟩ := hh
  cases hn.unique (h.core.node hT hm hx)
  exact hm

/-- A name that was tried. -/
theorem XDone.tried (h : XDone S s) (hT : S.Tame) {x} (ht : Tried s.nodes s.log x) :
    ∃ m i c nm, S.FromImport m i c nm ∧ x = c.ident ++ '.' :: nm.name ∧ c ∈ s.nodes ∧
      (c.isPackage = true ∨ c.isNamespacePkg = true) := by
  obtain ⟨a, b, c, i, nm, h1, h2, h3, h4, h5, h6⟩ := ht
  have hc : NlTarget s b c := by
    rcases h4 with rfl | h4
    · refine .inl ⟨rfl, ?_⟩
      unfold Node.isPackage Node.isNamespacePkg at h5
      unfold Node.isAlias
      cases hk : c.kind <;> simp_all
    · exact .inr h4
  obtain ⟨h7, h8⟩ := h.core.fromImport hT h1 hc h2 h3
  exact ⟨a, i, c, nm, h7, h6, h8, h5⟩

theorem XDone.package (h : XDone S s) (hT : S.Tame) {x p} (hx : S.NeedsModule x) (hh : Has s x)
    (hp : HasPackage x p) : Has s p ∧ ((x, p, defaultDep) ∈ s.edges ∨
      ∃ m i c nm, S.FromImport m i c nm ∧ x = c.ident ++ '.' :: nm.name ∧ p = c.ident ∧
        (c.isPackage = true ∨ c.isNamespacePkg = true) ∧ ∃ n, S.NodeFor x n ∧ n.isMissing = true) := by
  obtain ⟨n, hn, rfl⟩ := hh
  have hN := h.core.node hT hn hx
  obtain ⟨last, h1, h2⟩ := hp
  rcases h.link n hn (hN.names hT) p last h1 h2 (package_nonempty (hT.noDot _ hx) ⟨last, h1, h2⟩) with
    ⟨h3, h4⟩ | ⟨h3, h4⟩
  · exact ⟨h4, .inl h3⟩
  · obtain ⟨m, i, c, nm, h5, h6, h7, h8⟩ := h.tried hT h4
    have : p = c.ident := HasPackage.unique ⟨last, h1, h2⟩
      (h6 ▸ HasPackage.name (hT.plain m i nm h5.1 h5.2.2.1))
    exact ⟨⟨c, h7, this.symm⟩, .inr ⟨m, i, c, nm, h5, h6, this, h8, n, hN, h3⟩⟩

theorem XDone.implied (h : XDone S s) (hT : S.Tame) {x l r} (hx : S.NeedsModule x) (hh : Has s x)
    (ho : S.Open x) (hc : S.conf x = some (.refs l)) (hr : r ∈ l) : (x, r, defaultDep) ∈ s.edges := by
  obtain ⟨n, hn, rfl⟩ := hh
  have hN := h.core.node hT hn hx
  rcases h.refs _ l hc n hn rfl (hN.names hT) with h1 | h1
  · exact h1 r hr
  · exfalso
    have key : ∀ q ∈ s.nodes, InPackage n.ident q.ident → q.isMissing = false ∧ q.isExcluded = false := by
      intro q hq hi
      have hp : HasPackage n.ident q.ident := by
        obtain ⟨last, h2, h3 | ⟨h3, h4, h5⟩⟩ := hi
        · exact ⟨last, h3, h2⟩
        · exfalso
          apply hT.noDot _ hx
          cases hqi : q.ident with
          | nil => exact absurd hqi h3
          | cons c r =>
            rw [h5, hqi, h4 c (by simp [hqi])]
            rfl
      obtain ⟨tr, hx⟩ := hx
      rcases ho with h2 | ⟨p, q', h2, h3, h4, h5⟩
      · exact absurd hp.dot h2
      · cases h2.unique hp
        cases h3.unique (h.core.node hT hq ⟨_, .package hx hp⟩)
        exact ⟨h4, h5⟩
    rcases h1 with ⟨_, q, hq, h2, h3⟩ | ⟨_, q, hq, h2, h3⟩
    · rw [(key q hq h3).1] at h2; cases h2
    · rw [(key q hq h3).2] at h2; cases h2

/-- A name imported from a package. -/
theorem XDone.fromName (h : XDone S s) (hT : S.Tame) {m : Node} {i c nm t b} (hs : S.Needs (.statement m i))
    (hi : Event.imported m.ident i t ∈ s.log) (hb : b ∈ s.nodes) (hbt : S.NodeFor t b) (hr : Refers m i t)
    (hc : S.Source b c) (hp : c.isPackage = true ∨ c.isNamespacePkg = true)
    (hst : i.starImport = false) (hn : nm ∈ i.importNames) :
    Has s (c.ident ++ '.' :: nm.name) ∧
    (S.IsSubmodule c nm.name → NameEdge m i nm (c.ident ++ '.' :: nm.name) s ∧
      (c.ident ++ '.' :: nm.name, c.ident, defaultDep) ∈ s.edges) ∧
    ∀ r, S.Sent c nm.name r → (m.ident, r, defaultDep) ∈ s.edges := by
  have hf : S.FromImport m i c nm := .intro hs hr hbt hc hst hn
  have ht : Props.TakesFrom s t c := by
    rcases hc with ⟨rfl, h1⟩ | ⟨h1, h2⟩
    · exact ⟨hb, c, hb, hbt.ident, .inl ⟨rfl, h1⟩⟩
    · have := (h.alias b hb c.ident (.inl h1)).2
      refine ⟨h.node hT ⟨_, .alias (.target hs hr) hbt (.inl h1)⟩ this h2, b, hb, hbt.ident, .inr h1⟩
  obtain ⟨h1, h2⟩ := h.names m c i nm t hi ht hp hst hn
  exact submodule_done hT h.core h.core hf hp h1 h2

theorem XDone.scriptIn (h : XDone S s) (hT : S.Tame) {path infos file} (ha : S.asksScript path)
    (hs : S.scripts path = some (infos, file)) : Setup.scriptNode path file ∈ s.nodes := by
  obtain ⟨n, hn, rfl⟩ := h.dangling.2 _ (h.roots _ (.inr (.inl ha)))
  obtain ⟨h1, h2⟩ := hT.scriptName _ ha
  cases h.core.nodes n hn with
  | module h3 h4 => exact absurd (h4.ident ▸ h3) h1
  | distribution h3 => exact absurd ha (hT.distName _ h3).2.2
  | script h3 h4 =>
    have h5 : S.scripts _ = some (infos, file) := hs
    simp only [Setup.scriptNode] at h5
    rw [h4] at h5
    cases h5
    exact hn
  | invalid h3 h4 =>
    exfalso
    apply h2
    have := h4.1
    obtain ⟨k, hk⟩ : ∃ k, (‹ImportInfo›).importLevel = k + 1 := ⟨_, (Nat.succ_pred_eq_of_pos this).symm⟩
    simp [hk, List.replicate_succ]

theorem XDone.distIn (h : XDone S s) (hT : S.Tame) {d} (ha : S.asksDist d) :
    Setup.distributionNode d ∈ s.nodes := by
  obtain ⟨n, hn, he⟩ := h.dangling.2 _ (h.roots _ (.inr (.inr ⟨d, ha, rfl⟩)))
  have := (h.core.nodes n hn).unique hT (.distribution ha) he
  subst this
  exact hn

def Present (s : St W) : Setup.Thing → Prop
  | .module x _ => Has s x
  | .statement m i => m ∈ s.nodes ∧ ∃ infos, Event.scheduled m.ident infos ∈ s.log ∧ i ∈ infos

theorem XDone.statement (h : XDone S s) {m i t} (hm : m ∈ s.nodes) (hi : ∃ infos, Event.scheduled m.ident infos ∈ s.log ∧ i ∈ infos)
    (hr : Refers m i t) : Event.imported m.ident i t ∈ s.log ∧
      (m.ident, t, fromImportInfo i false i.importModule.asname) ∈ s.edges := by
  obtain ⟨infos, hi, hmem⟩ := hi
  obtain ⟨t', hi⟩ := h.done _ _ hi _ hmem
  obtain ⟨m', h1, h2, h3⟩ := h.imported _ _ _ hi
  cases Props.UniqueIds.eq h.unique h1 hm h2
  rcases h3 with ⟨h4, h5⟩ | ⟨h4, _⟩
  · cases hr.unique h4
    exact ⟨hi, h5⟩
  · exact absurd h4 hr.inside

theorem XDone.needs (h : XDone S s) (hT : S.Tame) {x} (hx : S.Needs x) : Present s x := by
  induction hx with
  | asked ha => exact h.dangling.2 _ (h.roots _ (.inl ha))
  | distribution ha hx => exact h.end (h.dists (h.distIn hT ha) _ hx)
  | package hx hp ih => exact (h.package hT ⟨_, hx⟩ ih hp).1
  | alias hx hn hk ih => exact (h.alias _ (h.node hT ⟨_, hx⟩ ih hn) _ hk).2
  | implied hx ho hc hr ih => exact h.end (h.implied hT ⟨_, hx⟩ ih ho hc hr)
  | implying _ _ _ ih => exact ih
  | explicitNamespace hx hn hk ih => exact h.end (h.ns _ (h.node hT ⟨_, hx⟩ ih hn) _ _ _ _ _ hk)
  | inScript ha hs hi =>
    have := h.scriptIn hT ha hs
    exact ⟨this, _, h.script _ _ _ this hs, hi⟩
  | inModule hx hn hm hi ih =>
    have := h.node hT ⟨_, hx⟩ ih hn
    rcases h.scan _ this _ hm with h1 | h1
    · exact ⟨this, _, h1, hi⟩
    · rw [h1] at hi; cases hi
  | helper hx hn hc ih => exact h.dangling.2 _ (h.helper _ (h.node hT ⟨_, hx⟩ ih hn) _ _ hc).root
  | inCompiled hx hn hc hi ih =>
    have := h.node hT ⟨_, hx⟩ ih hn
    rcases (h.helper _ this _ _ hc).sched with h1 | h1
    · rw [h1] at hi; cases hi
    · exact ⟨this, _, h1, hi⟩
  | target hs hr ih => exact h.end (h.statement ih.1 ih.2 hr).2
  | name hs hr hb hc hp hst hn ih =>
    obtain ⟨h1, h2⟩ := h.statement ih.1 ih.2 hr
    exact (h.fromName hT hs h1 (h.node hT ⟨_, .target hs hr⟩ (h.end h2) hb) hb hr hc hp hst hn).1
  | sixMoves hs hr hb hc hst hn hsent ih =>
    obtain ⟨h1, h2⟩ := h.statement ih.1 ih.2 hr
    exact h.end ((h.fromName hT hs h1 (h.node hT ⟨_, .target hs hr⟩ (h.end h2) hb) hb hr hc
      (.inl (IsSixMoves.package hsent.1)) hst hn).2.2 _ hsent)

theorem XDone.fromImport (h : XDone S s) (hT : S.Tame) {m i c nm} (hf : S.FromImport m i c nm)
    (hp : c.isPackage = true ∨ c.isNamespacePkg = true) :
    (S.IsSubmodule c nm.name → NameEdge m i nm (c.ident ++ '.' :: nm.name) s ∧
      (c.ident ++ '.' :: nm.name, c.ident, defaultDep) ∈ s.edges) ∧
    ∀ r, S.Sent c nm.name r → (m.ident, r, defaultDep) ∈ s.edges := by
  obtain ⟨h1, h2, h3, t, b, h4, h5, h6⟩ := hf
  have ih : Present s (.statement m i) := h.needs hT h1
  obtain ⟨h7, h8⟩ := h.statement ih.1 ih.2 h4
  exact (h.fromName hT h1 h7 (h.node hT ⟨_, .target h1 h4⟩ (h.end h8) h5) h5 h4 h6 hp h2 h3).2

theorem XDone.invalid (h : XDone S s) (hT : S.Tame) {m i} (hs : S.Needs (.statement m i))
    (ho : PointsOutside m i) :
    (∃ n ∈ s.nodes, n.ident = List.replicate i.importLevel '.' ++ i.importModule.name ∧
      n.isInvalidRel = true) ∧
    (m.ident, List.replicate i.importLevel '.' ++ i.importModule.name, fromImportInfo i false none)
      ∈ s.edges := by
  obtain ⟨hm, infos, hi, hmem⟩ : Present s (.statement m i) := h.needs hT hs
  obtain ⟨t', hi⟩ := h.done _ _ hi _ hmem
  obtain ⟨m', h1, h2, h3⟩ := h.imported _ _ _ hi
  cases Props.UniqueIds.eq h.unique h1 hm h2
  rcases h3 with ⟨h4, h5⟩ | ⟨h4, rfl, h5, h6⟩
  · exact absurd ho h4.inside
  · exact ⟨h5, h6⟩

theorem XDone.hasNode (h : XDone S s) (hT : S.Tame) {n} (hn : S.HasNode n) : n ∈ s.nodes := by
  cases hn with
  | module hx hn =>
    obtain ⟨tr, hx⟩ := hx
    exact h.node hT ⟨_, hx⟩ (h.needs hT hx) hn
  | script ha hs => exact h.scriptIn hT ha hs
  | distribution ha => exact h.distIn hT ha
  | invalid hs ho =>
    obtain ⟨q, h1, h2, h3⟩ := (h.invalid hT hs ho).1
    have h4 := h.core.nodes q h1
    cases h4 with
    | module hx hn =>
      have := hn.names hT
      simp [Node.namesModule, h3] at this
    | script => simp [Node.isInvalidRel, Setup.scriptNode] at h3
    | distribution => simp [Node.isInvalidRel, Setup.distributionNode] at h3
    | invalid h5 h6 =>
      rw [← show _ = _ from h2]
      exact h1

theorem XDone.hasEdge (h : XDone S s) (hT : S.Tame) {a b d} (he : S.HasEdge a b d) : (a, b, d) ∈ s.edges := by
  cases he with
  | statement hs hr =>
    have ih : Present s (.statement _ _) := h.needs hT hs
    exact (h.statement ih.1 ih.2 hr).2
  | invalid hs ho => exact (h.invalid hT hs ho).2
  | distribution ha hx => exact h.dists (h.distIn hT ha) _ hx
  | package hx hp =>
    rcases (h.package hT ⟨_, hx⟩ (h.needs hT hx) hp).2 with h1 | ⟨m, i, c, nm, h1, rfl, rfl, h2, _⟩
    · exact h1
    · by_cases hsub : S.IsSubmodule c nm.name
      · exact ((h.fromImport hT h1 h2).1 hsub).2
      · exact absurd hx (hT.notBoth m i c nm h1 h2 hsub)
  | packageOfFound hx hn hm hp =>
    rcases (h.package hT ⟨_, hx⟩ (h.needs hT hx) hp).2 with h1 | ⟨_, _, _, _, _, _, _, _, n', h2, h3⟩
    · exact h1
    · cases hn.unique h2
      rw [hm] at h3; cases h3
  | alias hx hn hk =>
    obtain ⟨tr, hx⟩ := hx
    have := (h.alias _ (h.node hT ⟨_, hx⟩ (h.needs hT hx) hn) _ hk).1
    rw [hn.ident] at this
    exact this
  | implied hx ho hc hr =>
    obtain ⟨tr, hx⟩ := hx
    exact h.implied hT ⟨_, hx⟩ (h.needs hT hx) ho hc hr
  | explicitNamespace hx hn hk =>
    obtain ⟨tr, hx⟩ := hx
    have := h.ns _ (h.node hT ⟨_, hx⟩ (h.needs hT hx) hn) _ _ _ _ _ hk
    rw [hn.ident] at this
    exact this
  | fromName hf hp hs => exact ((h.fromImport hT hf hp).1 hs).1
  | fromPackage hf hp hs => exact ((h.fromImport hT hf hp).1 hs).2
  | sixMoves hf hs => exact (h.fromImport hT hf (.inl (IsSixMoves.package hs.1))).2 _ hs
  | @passedOn m i c nm b d hf hc hg he ha =>
    obtain ⟨hm, infos, hi, hmem⟩ : Present s (.statement m i) := h.needs hT hf.1
    have hno : ¬ S.HasMypyc := fun hmy => by
      have hnot : c.isNamespacePkg = false := by
        unfold Node.isModule at hc
        unfold Node.isNamespacePkg
        cases hk : c.kind <;> simp_all
      have hn := h.core.nodes c ?_
      exact (hT.passedOn m i c nm hf (.own hn hg) hnot b d he ha).2.2.2.2 (.inr hmy)
      obtain ⟨_, _, h3, t, b', h4, h5, h6⟩ := hf
      have h8 := (h.statement hm ⟨_, hi, hmem⟩ h4).2
      have hb := h.node hT ⟨_, .target ‹_› h4⟩ (h.end h8) h5
      rcases h6 with ⟨rfl, _⟩ | ⟨h6, h7⟩
      · exact hb
      · exact h.node hT ⟨_, .alias (.target ‹_› h4) h5 (.inl h6)⟩ (h.alias _ hb _ (.inl h6)).2 h7
    obtain ⟨m', h1, h2, h3⟩ := h.passed hno _ _ hi _ hmem
    cases Props.UniqueIds.eq h.unique h1 hm h2
    exact h3 _ _ (.passedOn hf hc hg he ha)
  | helper hx hn hc =>
    obtain ⟨tr, hx⟩ := hx
    have := (h.helper _ (h.node hT ⟨_, hx⟩ (h.needs hT hx) hn) _ _ hc).edge
    rw [hn.ident] at this
    exact this
end
end Verif
