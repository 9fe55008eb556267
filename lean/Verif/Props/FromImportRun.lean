import Verif.Proofs.NlNodes
import Verif.Props.FromImport
import Verif.Props.Queue
/-!
# C40 for a whole run

`C40_package` and `C40_module` describe the processing of one queued name list.  Here the same is
said about the finished graph: every name list of every import statement was processed.
-/
namespace Verif.Props
open Verif Spec

variable {W : Type}

theorem UniqueIds.eq {s : St W} (h : UniqueIds (view s)) {a b : Node} (ha : a ∈ s.nodes)
    (hb : b ∈ s.nodes) (he : a.ident = b.ident) : a = b := by
  obtain ⟨i, hi, rfl⟩ := List.mem_iff_getElem.mp ha
  obtain ⟨j, hj, rfl⟩ := List.mem_iff_getElem.mp hb
  have := h i j hi hj he
  subst this
  rfl

theorem UniqueIds.find {s : St W} (h : UniqueIds (view s)) {a : Node} (ha : a ∈ s.nodes) :
    s.find a.ident = some a := by
  cases hf : s.find a.ident with
  | none => exact absurd (has_of_Has ⟨a, ha, rfl⟩) (by rw [find_none hf]; simp)
  | some b =>
    obtain ⟨h1, h2⟩ := find_some hf
    rw [UniqueIds.eq h h1 ha h2]

/-- C40, the queue: when an import statement was completed, its name list waits or was started (an
import that points outside of its package has none). -/
theorem C40_queued (env : Env W) (hM : ∀ k i n, (env.userMissing k i n).Passive) (n : Nat)
    (p : Hook W) (w : W) (stdlib : List (Str × Implies)) (builtin : Bool) :
    let s := (runClient env n p (initState w stdlib builtin)).2
    ∀ id i t, Event.imported id i t ∈ s.log →
      (∃ a b, a.ident = id ∧ b.ident = t ∧ b ∈ s.nodes ∧
        (Item.nl a b i ∈ s.stack ∨ Event.started (.nl a b i) ∈ s.log)) ∨
      ∃ b ∈ s.nodes, b.ident = t ∧ b.isInvalidRel = true := by
  intro s id i t hi
  have hN : NlNodes s := client_nlNodes env hM n p w stdlib builtin
  have hh : s.hidden = [] := by
    show (runClient env n p (initState w stdlib builtin)).2.hidden = []
    rw [client_hidden]; exact (initState_fields w stdlib builtin).1
  rcases hN.queued id i t hi with ⟨a, b, h1, h2, h3⟩ | h
  · refine .inl ⟨a, b, h1, h2, hN.node a b i h3, ?_⟩
    unfold NlSeen at h3
    rwa [show pending s = s.stack by simp [pending, hh]] at h3
  · exact .inr h

/-- What a `from` import whose module was found as node `t` takes its names from, in the finished
graph. -/
def TakesFrom (s : St W) (t : Str) (src : Node) : Prop :=
  src ∈ s.nodes ∧ ∃ b ∈ s.nodes, b.ident = t ∧
    ((b = src ∧ ∀ x, b.kind ≠ .alias x) ∨ b.kind = .alias src.ident)

theorem alias_found {env : Env W} {rec : Calls W} {a b : Node} {i : ImportInfo} {s s' : St W}
    {t : Str} (hk : b.kind = .alias t) (hstar : i.starImport = false) (hne : i.importNames ≠ [])
    (h : runItem env rec (.nl a b i) s = (.ok (), s')) : ∃ x, s.find t = some x := by
  change processNamelist env rec a b i s = _ at h
  unfold processNamelist at h
  obtain ⟨_, sa, ha, hb⟩ := M.bind_ok h
  obtain ⟨_, hsa⟩ := M.assert_ok ha
  subst hsa
  have hne' : i.importNames.isEmpty = false := by simpa using hne
  have hia : b.isAlias = true := by unfold Node.isAlias; rw [hk]
  rw [if_neg (by rw [hstar]; simp), if_pos (by simp [hne', hia]), hk] at hb
  simp only [] at hb
  rw [M.bind_modify] at hb
  obtain ⟨f, sb, hfm, h⟩ := M.bind_ok hb
  obtain ⟨rfl, rfl, _⟩ := M.findModule_ok hfm
  cases hf : sa.find t with
  | some x => exact ⟨x, rfl⟩
  | none =>
    rw [show (sa.addGlobals a.ident (i.importNames.map ImpName.name)).find t = none from hf] at h
    simp [M.throw] at h

/-- The completed processing of the name list of an import statement. -/
theorem nl_completed (env : Env W) (hM : ∀ k i n, (env.userMissing k i n).Passive) (n : Nat)
    (p : Hook W) (w : W) (stdlib : List (Str × Implies)) (builtin : Bool) :
    let s := (runClient env n p (initState w stdlib builtin)).2
    Event.failed ∉ s.log → s.stack = [] →
    ∀ id i t, Event.imported id i t ∈ s.log →
      ∀ src, TakesFrom s t src → src.isInvalidRel = false →
      i.starImport = false → i.importNames ≠ [] →
      ∃ a b s1 s2 k, a.ident = id ∧ runItem env (calls env k) (.nl a b i) s1 = (.ok (), s2) ∧
        Event.started (.nl a b i) ∈ s1.log ∧ Source s1 b src ∧ src ∈ s1.nodes ∧ Grew s2 s ∧
        UniqueIds (view s1) := by
  intro s hf hst id i t hi src hT hinv hstar hne
  obtain ⟨hsrc, b', hb', hbt, hk⟩ := hT
  obtain ⟨hK, hC⟩ := client_completed env n p w stdlib builtin
  change NlKnown s at hK
  rcases C40_queued env hM n p w stdlib builtin id i t hi with ⟨a, b, h1, h2, h3, h4⟩ | ⟨b, h3, h2, h4⟩
  · have hbb : b = b' := UniqueIds.eq hK.uniq h3 hb' (h2.trans hbt.symm)
    subst hbb
    have hs : Event.started (.nl a b i) ∈ s.log := by
      rcases h4 with h4 | h4
      · change _ ∈ s.stack at h4; rw [hst] at h4; cases h4
      · exact h4
    obtain ⟨s1, s2, hJ1, ⟨⟨⟨k, hr⟩, pre, hpre⟩, hg12⟩, hJ2, hg⟩ :=
      (hC.resolve_left hf) (.nl a b i) rfl hs
    have hst1 : Event.started (.nl a b i) ∈ s1.log := by rw [hpre]; simp
    have hg1 : Grew s1 s := (hg12 rfl).trans hg.toGrew
    have hb1 : b ∈ s1.nodes := by
      obtain ⟨d, hd⟩ := hJ1.edge a b i (.inr hst1)
      obtain ⟨b2, hb2, he2⟩ := (hJ1.dangling.1 _ _ _ hd).2
      rw [← UniqueIds.eq hK.uniq (hg1.nodes.subset hb2) hb' he2]
      exact hb2
    refine ⟨a, b, s1, s2, k, h1, hr, hst1, ?_, ?_, hg.toGrew, hJ1.uniq⟩
    · rcases hk with hk | hk
      · exact .inl hk
      · obtain ⟨x, hx⟩ := alias_found hk hstar hne hr
        obtain ⟨hx1, hx2⟩ := find_some hx
        have := UniqueIds.eq hK.uniq (hg1.nodes.subset hx1) hsrc hx2
        subst this
        exact .inr ⟨hk, hx⟩
    · rcases hk with ⟨rfl, _⟩ | hk
      · exact hb1
      · obtain ⟨x, hx⟩ := alias_found hk hstar hne hr
        obtain ⟨hx1, hx2⟩ := find_some hx
        rw [← UniqueIds.eq hK.uniq (hg1.nodes.subset hx1) hsrc hx2]
        exact hx1
  · exfalso
    have := UniqueIds.eq hK.uniq h3 hb' (h2.trans hbt.symm)
    subst this
    rcases hk with ⟨rfl, _⟩ | hk
    · rw [hinv] at h4; cases h4
    · unfold Node.isInvalidRel at h4; rw [hk] at h4; cases h4

/-- C40, the finished graph (packages): if no call failed and the queue is empty then, for every
`from P import x` that was found anywhere: if `x` is not a global name of the package `P` (and the
statement is not in `P` itself), there is a node `P.x`, linked with `P` and by a `from` import edge
with the importing module (`six.moves` may send the import elsewhere).  Otherwise there is an edge to
a module that `P` re-exports as `x`, or the same, or the submodule `P.x` does not exist and `P` is not
`six.moves`. -/
theorem C40_run_package (env : Env W) (hM : ∀ k i n, (env.userMissing k i n).Passive)
    (hO : env.OrderExact) (n : Nat) (p : Hook W) (w : W) (stdlib : List (Str × Implies))
    (builtin : Bool) :
    let s := (runClient env n p (initState w stdlib builtin)).2
    Event.failed ∉ s.log → s.stack = [] →
    ∀ (m src : Node) (i : ImportInfo) (nm : ImpName) (t : Str),
      Event.imported m.ident i t ∈ s.log → TakesFrom s t src →
      (src.isPackage = true ∨ src.isNamespacePkg = true) →
      i.starImport = false → nm ∈ i.importNames →
      let shadowed := src.isNamespacePkg = false ∧
        (nm.name ∈ s.gw src.ident ∨ src.ident = m.ident)
      (¬ shadowed → SubmoduleLinked m src i nm s ∨
        SentElsewhere m src nm s) ∧
      (shadowed → (∃ t, Reexports src t nm.name s ∧ NameEdge m i nm t s) ∨
        SubmoduleLinked m src i nm s ∨ SentElsewhere m src nm s ∨
        (SubmoduleMissing src nm s ∧ ¬ IsSixMoves src)) := by
  intro s hf hst m src i nm t hi hT hp hstar hnm
  have hinv : src.isInvalidRel = false := by
    unfold Node.isPackage Node.isNamespacePkg at hp
    unfold Node.isInvalidRel
    cases hk : src.kind <;> simp_all
  obtain ⟨a, b, s1, s2, k, ha, hr, hl, hS, hsrc, hg, _⟩ := nl_completed env hM n p w stdlib builtin hf hst
    m.ident i t hi src hT hinv hstar (List.ne_nil_of_mem hnm)
  obtain ⟨h1, _, h3⟩ := C40_package env hM hO k a b src i nm s1 s2 hl hS hsrc hp hstar hnm hr
  have hg1 : Grew s1 s := (runItem_grew env k rfl hr).trans hg
  have e1 : SubmoduleLinked a src i nm s2 → SubmoduleLinked m src i nm s := by
    rintro ⟨⟨x, hx, hi⟩, h2, h3, h4⟩
    refine ⟨⟨x, hg.nodes.subset hx, hi⟩, ?_, hg.edges _ h3,
      fun h => (h4 h).imp (fun ⟨q, h5, h6⟩ => ⟨q, hg.nodes.subset h5, h6⟩) id⟩
    unfold NameEdge at *
    rw [← ha]; exact hg.edges _ h2
  have e2 : SubmoduleMissing src nm s2 → SubmoduleMissing src nm s := by
    rintro ⟨x, hx, hi⟩
    exact ⟨x, hg.nodes.subset hx, hi⟩
  have e3 : SentElsewhere a src nm s2 → SentElsewhere m src nm s := by
    rintro ⟨h4, h5, t', h6, h7⟩
    exact ⟨h4, e2 h5, t', h6, by rw [← ha]; exact hg.edges _ h7⟩
  have first : ¬ (src.isNamespacePkg = false ∧ (nm.name ∈ s1.gw src.ident ∨ src.ident = a.ident)) →
      SubmoduleLinked m src i nm s ∨ SentElsewhere m src nm s := by
    intro h
    rcases h1 h with h | h
    · exact .inl (e1 h)
    · exact .inr (e3 h)
  refine ⟨fun hns => first fun h => hns ⟨h.1, h.2.imp ?_ ?_⟩, fun _ => ?_⟩
  · exact hg1.gw _ (has_of_Has ⟨src, hsrc, rfl⟩) _
  · intro h; rw [h, ha]
  · by_cases hsh : src.isNamespacePkg = false ∧ (nm.name ∈ s1.gw src.ident ∨ src.ident = a.ident)
    · rcases h3 hsh with ⟨t', h4, h5⟩ | h | h | h
      · refine .inl ⟨t', Reexports.later h4 hg.edges, ?_⟩
        unfold NameEdge at *
        rw [← ha]; exact hg.edges _ h5
      · exact .inr (.inl (e1 h))
      · exact .inr (.inr (.inl (e3 h)))
      · exact .inr (.inr (.inr ⟨e2 h.1, h.2⟩))
    · rcases first hsh with h | h
      · exact .inr (.inl h)
      · exact .inr (.inr (.inl h))

/-- The hypotheses are met by `a` in `fromTable`, which does `from p import q, v, r`: `q` is not
global, `v` and `r` are. -/
example :
    let s := (Demo.run fromTable [.addModule c!"a"]).2
    Event.failed ∉ s.log ∧ s.stack = [] ∧
      Event.imported c!"a" (Demo.fromImp 0 c!"p" [c!"q", c!"v", c!"r"]) c!"p" ∈ s.log ∧
      (s.find c!"p").map Node.isPackage = some true ∧
      c!"q" ∉ s.gw c!"p" ∧ c!"v" ∈ s.gw c!"p" ∧ c!"r" ∈ s.gw c!"p" := by
  decide +kernel

end Verif.Props
