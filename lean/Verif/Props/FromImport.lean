import Verif.Spec.FromSpec
import Verif.Proofs.SixTable
import Verif.Proofs.Load
import Verif.Props.Nodes
/-!
# C40: names imported with `from module import name`

The theorems describe the processing of one queued name list (`Item.nl`) in an arbitrary state.
`hlog` says that the item was taken from the queue.
-/
namespace Verif.Props
open Verif Spec

variable {W : Type}

theorem find_sub {env : Env W} (hM : ∀ k i n, (env.userMissing k i n).Passive) {n : Nat}
    {i name lm} {s s' : St W} {m} (ht : lm = true ∨ Tried s.nodes s.log name)
    (h : (calls env n).findOrLoad i name lm s = (.ok m, s')) :
    m.ident = name ∧ m ∈ s'.nodes ∧ Loads s s' := by
  have h1 := (calls_triv env hM n).findOrLoad i name lm [] s trivial ht
  unfold Ret at h1
  rw [h] at h1
  exact ⟨h1.2.2.1, h1.2.2.2, findOrLoad_loads env hM n h⟩

/-- The part of `processName` that looks for a submodule. -/
theorem submodule_ok (env : Env W) (hM : ∀ k i n, (env.userMissing k i n).Passive)
    (n : Nat) (importing src : Node) (info : ImportInfo) (nm : ImpName) (s s' : St W)
    (ht : Tried s.nodes s.log (src.ident ++ '.' :: nm.name)) (hsrc : src ∈ s.nodes)
    (h : (M.bind ((calls env n).findOrLoad (some importing) (src.ident ++ '.' :: nm.name) false)
      fun sub => M.bind M.get fun s =>
      let link : M W Unit :=
        M.bind (M.addEdge sub.ident src.ident defaultDep) fun _ =>
        M.addEdge importing.ident sub.ident (fromImportInfo info true nm.asname)
      if sub.isMissing then
        match src.kind with
        | .package _ init _ _ _ =>
          if init.name = c!"@@SIX_MOVES@@" then
            match sixMove nm.name with
            | some target =>
              M.bind ((calls env n).findOrLoad (some importing) target true) fun depNode =>
              M.addEdge importing.ident depNode.ident defaultDep
            | none => link
          else if (s.globalsWritten src).contains nm.name then M.pure ()
          else link
        | _ => link
      else link) s = (.ok (), s')) :
    SubmoduleLinked importing src info nm s' ∨
      SentElsewhere importing src nm s' ∨
      (SubmoduleMissing src nm s' ∧ ¬ IsSixMoves src ∧ nm.name ∈ s.globalsWritten src) := by
  obtain ⟨m, s1, h1, h⟩ := M.bind_ok h
  obtain ⟨hi, hm, hL⟩ := find_sub hM (.inr ht) h1
  rw [M.bind_get] at h
  have hlink : (M.bind (M.addEdge m.ident src.ident defaultDep) fun _ =>
      M.addEdge importing.ident m.ident (fromImportInfo info true nm.asname)) s1 = (.ok (), s') →
      (IsSixMoves src → m.isMissing = false ∨ ∀ t, ¬ SixName nm.name t) →
      SubmoduleLinked importing src info nm s' := by
    intro h hk
    obtain ⟨_, s2, h2, h3⟩ := M.bind_ok h
    obtain ⟨_, _, rfl⟩ := M.addEdge_ok h2
    obtain ⟨_, _, rfl⟩ := M.addEdge_ok h3
    refine ⟨⟨m, by rw [addEdge_nodes, addEdge_nodes]; exact hm, hi⟩, ?_, ?_, fun h6 => (hk h6).imp (fun h7 =>
      ⟨m, by rw [addEdge_nodes, addEdge_nodes]; exact hm, hi, h7⟩) id⟩
    · rw [← hi]; exact (mem_addEdge ..).mpr (.inr rfl)
    · rw [← hi]; exact (mem_addEdge ..).mpr (.inl ((mem_addEdge ..).mpr (.inr rfl)))
  have notSix : (∀ a init b c d, src.kind = .package a init b c d → init.name ≠ c!"@@SIX_MOVES@@") →
      IsSixMoves src → m.isMissing = false ∨ ∀ t, ¬ SixName nm.name t := by
    rintro h ⟨a, init, b, c, d, h1, h2⟩
    exact absurd h2 (h a init b c d h1)
  split at h
  · rename_i hmiss
    cases hk : src.kind with
    | package a init b c d =>
      rw [hk] at h
      simp only [] at h
      split at h
      · rename_i hsix
        cases h6 : sixMove nm.name with
        | none => rw [h6] at h; exact .inl (hlink h fun _ => .inr (sixMove_none.mp h6))
        | some t =>
          rw [h6] at h
          obtain ⟨dn, s2, h2, h3⟩ := M.bind_ok h
          obtain ⟨hdi, _, hL2⟩ := find_sub hM (.inl rfl) h2
          obtain ⟨_, _, rfl⟩ := M.addEdge_ok h3
          refine .inr (.inl ⟨⟨a, init, b, c, d, hk, hsix⟩,
            ⟨m, by rw [addEdge_nodes]; exact hL2.nodes.subset hm, hi, hmiss⟩, t, sixMove_iff.mp h6, ?_⟩)
          rw [← hdi]; exact (mem_addEdge ..).mpr (.inr rfl)
      · rename_i hsix
        split at h
        · rename_i hg
          obtain ⟨_, rfl⟩ := M.pure_ok h
          refine .inr (.inr ⟨⟨m, hm, hi, hmiss⟩, ?_, ?_⟩)
          · rintro ⟨_, init', _, _, _, hk', h7⟩
            rw [hk] at hk'
            cases hk'
            exact hsix h7
          have hg : nm.name ∈ s1.globalsWritten src := by simpa using hg
          unfold St.globalsWritten at hg ⊢
          split
          · rename_i hns; rw [if_pos hns] at hg; exact hg
          · rename_i hns; rw [if_neg hns, hL.gw _ (has_of_Has ⟨src, hsrc, rfl⟩)] at hg; exact hg
        · refine .inl (hlink h (notSix fun _ _ _ _ _ h7 => ?_))
          rw [hk] at h7
          cases h7
          exact hsix
    | _ =>
      rw [hk] at h
      refine .inl (hlink h (notSix fun _ _ _ _ _ h7 => ?_))
      rw [hk] at h7
      cases h7
  · rename_i hmiss
    exact .inl (hlink h fun _ => .inl (by simpa using hmiss))

theorem processName_steps {R : St W → St W → Prop} (hR : LoadRel R) (env : Env W)
    (hM : ∀ k i n, (env.userMissing k i n).Passive) (n : Nat)
    (importing src : Node) (info : ImportInfo) (nm : ImpName) :
    Steps R (processName env (calls env n) importing src info nm) := by
  have hL := calls_load hR env hM n
  unfold processName
  refine .bind hR (.get hR) fun s => ?_
  have link : ∀ (m : Node), Steps R (M.bind (M.addEdge m.ident src.ident defaultDep) fun _ =>
      M.addEdge importing.ident m.ident (fromImportInfo info true nm.asname) : M W Unit) :=
    fun m => .bind hR (.addEdge hR _ _ _) fun _ => .addEdge hR _ _ _
  have sub : Steps R (M.bind ((calls env n).findOrLoad (some importing)
      (src.ident ++ '.' :: nm.name) false) fun sub => M.bind M.get fun s =>
      let link : M W Unit :=
        M.bind (M.addEdge sub.ident src.ident defaultDep) fun _ =>
        M.addEdge importing.ident sub.ident (fromImportInfo info true nm.asname)
      if sub.isMissing then
        match src.kind with
        | .package _ init _ _ _ =>
          if init.name = c!"@@SIX_MOVES@@" then
            match sixMove nm.name with
            | some target =>
              M.bind ((calls env n).findOrLoad (some importing) target true) fun depNode =>
              M.addEdge importing.ident depNode.ident defaultDep
            | none => link
          else if (s.globalsWritten src).contains nm.name then M.pure ()
          else link
        | _ => link
      else link : M W Unit) := by
    refine .bind hR (hL.findOrLoad _ _ _) fun m => .bind hR (.get hR) fun s => ?_
    split
    · split
      · split
        · split
          · exact .bind hR (hL.findOrLoad _ _ _) fun _ => .addEdge hR _ _ _
          · exact link m
        · split
          · exact .pure hR _
          · exact link m
      · exact link m
    · exact link m
  simp only []
  split
  · split
    · exact .addEdge hR _ _ _
    · split
      · exact .pure hR _
      · exact sub
  · split
    · exact .pure hR _
    · exact sub

theorem processName_loads (env : Env W) (hM : ∀ k i n, (env.userMissing k i n).Passive) (n : Nat)
    (importing src : Node) (info : ImportInfo) (nm : ImpName) :
    Steps Loads (processName env (calls env n) importing src info nm) :=
  processName_steps loads_rel env hM n importing src info nm

/-- One name. -/
theorem processName_ok (env : Env W) (hM : ∀ k i n, (env.userMissing k i n).Passive)
    (n : Nat) (importing src : Node) (info : ImportInfo) (nm : ImpName) (s s' : St W)
    (ht : src.isModule = false → Tried s.nodes s.log (src.ident ++ '.' :: nm.name)) (hsrc : src ∈ s.nodes)
    (h : processName env (calls env n) importing src info nm s = (.ok (), s')) :
    (nm.name ∈ s.globalsWritten src → ∀ t, reexported env s src nm.name = some t →
      s' = s.addEdge importing.ident t (fromImportInfo info true nm.asname)) ∧
    ((nm.name ∈ s.globalsWritten src → reexported env s src nm.name = none) →
      (src.isModule = true → s' = s) ∧
      (src.isModule = false → SubmoduleLinked importing src info nm s' ∨
        SentElsewhere importing src nm s' ∨
        (SubmoduleMissing src nm s' ∧ ¬ IsSixMoves src ∧ nm.name ∈ s.globalsWritten src))) := by
  unfold processName at h
  rw [M.bind_get] at h
  simp only [] at h
  split at h
  · rename_i hg
    have hg : nm.name ∈ s.globalsWritten src := by simpa using hg
    cases hr : reexported env s src nm.name with
    | some t =>
      rw [hr] at h
      obtain ⟨_, _, rfl⟩ := M.addEdge_ok h
      exact ⟨fun _ t' ht' => by simp at ht'; subst ht'; rfl, fun hx => absurd (hx hg) (by simp)⟩
    | none =>
      rw [hr] at h
      refine ⟨fun _ t' ht' => by simp at ht', fun _ => ?_⟩
      simp only [] at h
      split at h
      · obtain ⟨_, rfl⟩ := M.pure_ok h
        exact ⟨fun _ => rfl, fun hm => by simp_all⟩
      · exact ⟨fun hm => by simp_all, fun hm => submodule_ok env hM n importing src info nm s s' (ht hm) hsrc h⟩
  · rename_i hg
    have hg : ¬ nm.name ∈ s.globalsWritten src := by simpa using hg
    refine ⟨fun hx => absurd hx hg, fun _ => ?_⟩
    split at h
    · obtain ⟨_, rfl⟩ := M.pure_ok h
      exact ⟨fun _ => rfl, fun hm => by simp_all⟩
    · exact ⟨fun hm => by simp_all, fun hm => submodule_ok env hM n importing src info nm s s' (ht hm) hsrc h⟩

theorem forEach_mem {α} {R : St W → St W → Prop} (hR : LoadRel R) {l : List α} {f : α → M W Unit}
    (hf : ∀ a, Steps R (f a)) {s s' : St W} (h : M.forEach l f s = (.ok (), s')) {a : α} (ha : a ∈ l) :
    ∃ s1 s2, R s s1 ∧ f a s1 = (.ok (), s2) ∧ R s2 s' := by
  induction l generalizing s with
  | nil => cases ha
  | cons x l ih =>
    obtain ⟨_, s1, h1, h2⟩ := M.bind_ok h
    rcases List.mem_cons.mp ha with rfl | ha
    · refine ⟨s, s1, hR.refl s, h1, ?_⟩
      have := Steps.forEach hR hf (l := l) s1
      rw [h2] at this; exact this
    · obtain ⟨a1, a2, h3, h4, h5⟩ := ih h2 ha
      refine ⟨a1, a2, hR.trans ?_ h3, h4, h5⟩
      have := hf x s
      rw [h1] at this; exact this

theorem gw_addGlobals (s : St W) (a : Str) (names : List Str) (b x : Str) :
    x ∈ (s.addGlobals a names).gw b ↔ x ∈ s.gw b ∨ (b = a ∧ x ∈ names) := by
  unfold St.addGlobals
  simp only []
  split
  · rename_i hb
    simp only [List.mem_append, List.mem_filter, hb, true_and]
    constructor
    · rintro (h | h)
      · exact .inl h
      · exact .inr h.1
    · rintro (h | h)
      · exact .inl h
      · by_cases hx : x ∈ s.gw a
        · exact .inl hx
        · exact .inr ⟨h, by simpa using hx⟩
  · rename_i hb
    simp [hb]

/-- What `processNames` starts from. -/
theorem namelist_start {env : Env W} {rec : Calls W} {importing imported src : Node}
    {info : ImportInfo} {s s' : St W} (hS : Source s imported src)
    (hp : src.isPackage = true ∨ src.isNamespacePkg = true ∨ src.isModule = true)
    (hstar : info.starImport = false) (hne : info.importNames ≠ [])
    (h : runItem env rec (.nl importing imported info) s = (.ok (), s')) :
    ∃ s1, s1.nodes = s.nodes ∧ s1.edges = s.edges ∧ s1.log = s.log ∧ s1.world = s.world ∧
      s1.stack = s.stack ∧
      (∀ b x, x ∈ s1.gw b ↔ x ∈ s.gw b ∨
        (b = importing.ident ∧ x ∈ info.importNames.map ImpName.name)) ∧
      M.forEach info.importNames (fun nm => processName env rec importing src info nm) s1 =
        (.ok (), s') := by
  change processNamelist env rec importing imported info s = _ at h
  unfold processNamelist at h
  obtain ⟨_, sa, ha, hb⟩ := M.bind_ok h
  obtain ⟨_, hsa⟩ := M.assert_ok ha
  clear h
  subst hsa
  have h := hb
  clear hb
  rw [if_neg (by rw [hstar]; simp)] at h
  have hne' : info.importNames.isEmpty = false := by simpa using hne
  have key : ∀ sb : St W, (∀ b x, x ∈ sb.gw b ↔ x ∈ sa.gw b ∨
        (b = importing.ident ∧ x ∈ info.importNames.map ImpName.name)) ∨ sb.gw = sa.gw →
      sb.nodes = sa.nodes → sb.edges = sa.edges → sb.log = sa.log → sb.world = sa.world →
      sb.stack = sa.stack → processNames env rec importing src info sb = (.ok (), s') → ∃ s1, s1.nodes = sa.nodes ∧ s1.edges = sa.edges ∧
        s1.log = sa.log ∧ s1.world = sa.world ∧ s1.stack = sa.stack ∧
      (∀ b x, x ∈ s1.gw b ↔ x ∈ sa.gw b ∨
        (b = importing.ident ∧ x ∈ info.importNames.map ImpName.name)) ∧
      M.forEach info.importNames (fun nm => processName env rec importing src info nm) s1 =
        (.ok (), s') := by
    intro sb hb h1 h2 h3 h4 h5 h
    unfold processNames at h
    rw [M.bind_modify] at h
    refine ⟨_, ?_, ?_, ?_, ?_, ?_, ?_, h⟩
    · exact h1
    · exact h2
    · exact h3
    · exact h4
    · exact h5
    · intro b x
      rw [gw_addGlobals]
      rcases hb with hb | hb
      · rw [hb]
        constructor
        · rintro ((h | h) | h)
          · exact .inl h
          · exact .inr h
          · exact .inr h
        · rintro (h | h)
          · exact .inl (.inl h)
          · exact .inr h
      · rw [hb]
  rcases hS with ⟨rfl, hk⟩ | ⟨hk, hf⟩
  · rw [if_pos (by rcases hp with h | h | h <;> simp [hne', h])] at h
    have h : processNames env rec importing imported info sa = (.ok (), s') := by
      cases hkk : imported.kind with
      | alias t => exact absurd hkk (hk t)
      | _ => rw [hkk] at h; exact h
    exact key sa (.inr rfl) rfl rfl rfl rfl rfl h
  · have hia : imported.isAlias = true := by unfold Node.isAlias; rw [hk]
    rw [if_pos (by simp [hne', hia]), hk] at h
    simp only [] at h
    rw [M.bind_modify] at h
    obtain ⟨f, sb, hfm, h⟩ := M.bind_ok h
    obtain ⟨rfl, rfl, _⟩ := M.findModule_ok hfm
    have hf' : (sa.addGlobals importing.ident (info.importNames.map ImpName.name)).find src.ident =
        some src := hf
    rw [hf'] at h
    simp only [] at h
    rw [if_pos (by rcases hp with h | h | h <;> simp [h])] at h
    exact key (sa.addGlobals importing.ident (info.importNames.map ImpName.name))
      (.inl fun b x => gw_addGlobals ..) rfl rfl rfl rfl rfl h

theorem reexported_some {env : Env W} (hO : env.OrderExact) {s : St W} {src : Node} {nm t : Str}
    (h : reexported env s src nm = some t) : Reexports src t nm s := by
  unfold reexported at h
  have h1 := List.find?_some h
  have h2 := (hO _ _ _).mp (List.mem_of_find?_eq_some h)
  simp only [Bool.or_eq_true, List.any_eq_true, beq_iff_eq] at h1
  have h3 : ∃ d, (src.ident, t, d) ∈ s.edges := by
    unfold St.succs at h2
    rw [List.mem_eraseDups] at h2
    obtain ⟨e, he, rfl⟩ := List.mem_map.mp h2
    obtain ⟨he, hs⟩ := List.mem_filter.mp he
    obtain ⟨a, b, d⟩ := e
    have : a = src.ident := by simpa using hs
    subst this
    exact ⟨d, he⟩
  rcases h1 with ⟨d, hd, hda⟩ | h1
  · unfold St.attrs at hd
    obtain ⟨⟨a, b, d⟩, he, rfl⟩ := List.mem_map.mp hd
    obtain ⟨he', hs⟩ := List.mem_filter.mp he
    simp at hs
    obtain ⟨rfl, rfl⟩ := hs
    exact ⟨d, he', .inl hda⟩
  · obtain ⟨d, hd⟩ := h3
    exact ⟨d, hd, .inr h1⟩

theorem reexported_none {env : Env W} (hO : env.OrderExact) {s : St W} {src : Node} {nm : Str}
    (h : reexported env s src nm = none) (t) : ¬ Reexports src t nm s := by
  rintro ⟨d, hd, hr⟩
  unfold reexported at h
  rw [List.find?_eq_none] at h
  refine h t ((hO _ _ _).mpr ?_) ?_
  · unfold St.succs
    rw [List.mem_eraseDups]
    exact List.mem_map.mpr ⟨_, List.mem_filter.mpr ⟨hd, by simp⟩, rfl⟩
  · simp only [Bool.or_eq_true, List.any_eq_true, beq_iff_eq]
    rcases hr with hr | hr
    · exact .inl ⟨d, List.mem_map.mpr ⟨_, List.mem_filter.mpr ⟨hd, by simp⟩, rfl⟩, hr⟩
    · exact .inr hr

theorem Reexports.later {src : Node} {t nm : Str} {s s' : St W} (h : Reexports src t nm s)
    (hL : ∀ e ∈ s.edges, e ∈ s'.edges) : Reexports src t nm s' := by
  obtain ⟨d, hd, hr⟩ := h
  exact ⟨d, hL _ hd, hr⟩
theorem NameEdge.later {m : Node} {info nm t} {s s' : St W} (h : NameEdge m info nm t s)
    (hL : Loads s s') : NameEdge m info nm t s' := hL.edges _ h
theorem SubmoduleLinked.later {m src : Node} {info nm} {s s' : St W}
    (h : SubmoduleLinked m src info nm s) (hL : Loads s s') : SubmoduleLinked m src info nm s' := by
  obtain ⟨⟨x, hx, hi⟩, h2, h3, h4⟩ := h
  exact ⟨⟨x, hL.nodes.subset hx, hi⟩, NameEdge.later h2 hL, hL.edges _ h3,
    fun h => (h4 h).imp (fun ⟨q, h5, h6⟩ => ⟨q, hL.nodes.subset h5, h6⟩) id⟩
theorem SubmoduleMissing.later {src : Node} {nm} {s s' : St W}
    (h : SubmoduleMissing src nm s) (hL : Loads s s') : SubmoduleMissing src nm s' := by
  obtain ⟨x, hx, hi⟩ := h
  exact ⟨x, hL.nodes.subset hx, hi⟩

theorem SentElsewhere.later {m src : Node} {nm} {s s' : St W}
    (h : SentElsewhere m src nm s) (hL : Loads s s') : SentElsewhere m src nm s' := by
  obtain ⟨h1, h2, t, h3, h4⟩ := h
  exact ⟨h1, SubmoduleMissing.later h2 hL, t, h3, hL.edges _ h4⟩

/-- C40, packages: after the name list of `from P import x, ...` was processed, for each name `x`:
if `x` is not a global name of `P`, then there is a node `P.x`, linked with `P` and by a `from`
import edge with the importing module (`six.moves` may send the import elsewhere).  If `x` is a
global name and `P` re-exports a module as `x`, there is an edge to such a module.  In the remaining
case, a global name that is not known to be a module, the same holds unless `P.x` does not exist and `P`
is not `six.moves`.  In the `__init__` of `P` itself, the statement makes its names global. -/
theorem C40_package (env : Env W) (hM : ∀ k i n, (env.userMissing k i n).Passive)
    (hO : env.OrderExact) (n : Nat) (importing imported src : Node) (info : ImportInfo)
    (nm : ImpName) (s s' : St W) (hlog : Event.started (.nl importing imported info) ∈ s.log)
    (hS : Source s imported src) (hsrc : src ∈ s.nodes)
    (hp : src.isPackage = true ∨ src.isNamespacePkg = true)
    (hstar : info.starImport = false) (hnm : nm ∈ info.importNames)
    (h : runItem env (calls env n) (.nl importing imported info) s = (.ok (), s')) :
    let shadowed := src.isNamespacePkg = false ∧
      (nm.name ∈ s.gw src.ident ∨ src.ident = importing.ident)
    (¬ shadowed → SubmoduleLinked importing src info nm s' ∨
      SentElsewhere importing src nm s') ∧
    (shadowed → (∃ t, Reexports src t nm.name s) →
      ∃ t, Reexports src t nm.name s' ∧ NameEdge importing info nm t s') ∧
    (shadowed → (∃ t, Reexports src t nm.name s' ∧ NameEdge importing info nm t s') ∨
      SubmoduleLinked importing src info nm s' ∨ SentElsewhere importing src nm s' ∨
      (SubmoduleMissing src nm s' ∧ ¬ IsSixMoves src)) := by
  have hm : src.isModule = false := by
    unfold Node.isPackage Node.isNamespacePkg at hp
    unfold Node.isModule
    cases hk : src.kind <;> simp_all
  obtain ⟨s0, hn0, he0, hl0, _, _, hg0, hF⟩ := namelist_start hS (by rcases hp with h | h <;> simp [h])
    hstar (List.ne_nil_of_mem hnm) h
  obtain ⟨s1, s2, h1, h2, h3⟩ := forEach_mem loads_rel
    (fun a => processName_loads env hM n importing src info a) hF hnm
  have ht : Tried s1.nodes s1.log (src.ident ++ '.' :: nm.name) := by
    refine ⟨importing, imported, src, info, nm, h1.log.subset (hl0 ▸ hlog), hstar, hnm, ?_, hp, rfl⟩
    rcases hS with ⟨rfl, _⟩ | ⟨hk, _⟩
    · exact .inl rfl
    · exact .inr ⟨hk, h1.nodes.subset (hn0 ▸ hsrc)⟩
  have hs0 : s0.has src.ident = true := has_of_Has ⟨src, by rw [hn0]; exact hsrc, rfl⟩
  have hs1 : src ∈ s1.nodes := h1.nodes.subset (by rw [hn0]; exact hsrc)
  obtain ⟨ha, hb⟩ := processName_ok env hM n importing src info nm s1 s2 (fun _ => ht) hs1 h2
  have hgl : nm.name ∈ s1.globalsWritten src ↔ (src.isNamespacePkg = false ∧
      (nm.name ∈ s.gw src.ident ∨ src.ident = importing.ident)) := by
    unfold St.globalsWritten
    split
    · rename_i hns; simp [hns]
    · rename_i hns
      rw [h1.gw _ hs0, hg0]
      have : nm.name ∈ info.importNames.map ImpName.name := List.mem_map_of_mem hnm
      simp [hns, this]
  have hedge : ∀ t, reexported env s1 src nm.name = some t → nm.name ∈ s1.globalsWritten src →
      ∃ t, Reexports src t nm.name s' ∧ NameEdge importing info nm t s' := by
    intro t ht hg
    have := ha hg t ht
    refine ⟨t, Reexports.later (reexported_some hO ht) (fun e he => h3.edges e ?_), NameEdge.later ?_ h3⟩
    · rw [this]; exact (mem_addEdge ..).mpr (.inl he)
    · rw [this]; exact (mem_addEdge ..).mpr (.inr rfl)
  refine ⟨fun hns => ?_, fun hsh ⟨t, hr⟩ => ?_, fun hsh => ?_⟩
  · have hng : ¬ nm.name ∈ s1.globalsWritten src := fun hx => hns (hgl.mp hx)
    rcases (hb fun hx => absurd hx hng).2 hm with h4 | h4 | ⟨_, _, h5⟩
    · exact .inl (SubmoduleLinked.later h4 h3)
    · exact .inr (SentElsewhere.later h4 h3)
    · exact absurd h5 hng
  · cases hre : reexported env s1 src nm.name with
    | some t => exact hedge t hre (hgl.mpr hsh)
    | none =>
      refine absurd (Reexports.later (s' := s1) hr fun e he => h1.edges e ?_)
        (reexported_none hO hre t)
      rw [he0]; exact he
  · cases hre : reexported env s1 src nm.name with
    | some t => exact .inl (hedge t hre (hgl.mpr hsh))
    | none =>
      rcases (hb fun _ => hre).2 hm with h4 | h4 | ⟨h4, h5, _⟩
      · exact .inr (.inl (SubmoduleLinked.later h4 h3))
      · exact .inr (.inr (.inl (SentElsewhere.later h4 h3)))
      · exact .inr (.inr (.inr ⟨SubmoduleMissing.later h4 h3, h5⟩))

/-- C40, plain modules: names imported from a plain module lead to no new nodes, no new work, no
question to the outside world.  The only new edges go to modules that it re-exports under the
name. -/
theorem C40_module (env : Env W) (hM : ∀ k i n, (env.userMissing k i n).Passive)
    (hO : env.OrderExact) (n : Nat) (importing imported src : Node) (info : ImportInfo)
    (s s' : St W) (hlog : Event.started (.nl importing imported info) ∈ s.log)
    (hS : Source s imported src) (hsrc : src ∈ s.nodes) (hp : src.isModule = true)
    (hstar : info.starImport = false) (hne : info.importNames ≠ [])
    (h : runItem env (calls env n) (.nl importing imported info) s = (.ok (), s')) :
    s'.nodes = s.nodes ∧ s'.world = s.world ∧ s'.stack = s.stack ∧
    (∀ e ∈ s'.edges, e ∈ s.edges ∨ ∃ nm ∈ info.importNames, ∃ t,
      e = (importing.ident, t, fromImportInfo info true nm.asname) ∧ Reexports src t nm.name s') ∧
    ∀ nm ∈ info.importNames, nm.name ∈ s.gw src.ident → (∃ t, Reexports src t nm.name s) →
      ∃ t, Reexports src t nm.name s' ∧ NameEdge importing info nm t s' := by
  obtain ⟨s0, hn0, he0, hl0, hw0, hst0, hg0, hF⟩ := namelist_start hS (by simp [hp]) hstar hne h
  have hsrc0 : src ∈ s0.nodes := by rw [hn0]; exact hsrc
  rw [← hn0, ← hw0, ← hst0, ← he0]
  have hns : src.isNamespacePkg = false := by
    unfold Node.isModule at hp; unfold Node.isNamespacePkg
    cases hk : src.kind <;> simp_all
  -- one name: at most one new edge
  have one : ∀ nm ∈ info.importNames, ∀ a b : St W, src ∈ a.nodes →
      processName env (calls env n) importing src info nm a = (.ok (), b) →
      b = a ∨ ∃ t, Reexports src t nm.name a ∧
        b = a.addEdge importing.ident t (fromImportInfo info true nm.asname) := by
    intro nm _ a b hsa hpn
    obtain ⟨h1, h2⟩ := processName_ok env hM n importing src info nm a b (fun hm => by simp_all) hsa hpn
    by_cases hg : nm.name ∈ a.globalsWritten src
    · cases hr : reexported env a src nm.name with
      | none => exact .inl ((h2 fun _ => hr).1 hp)
      | some t => exact .inr ⟨t, reexported_some hO hr, h1 hg t hr⟩
    · exact .inl ((h2 fun hx => absurd hx hg).1 hp)
  have hlist := forEach_ok (l := info.importNames)
    (P := fun a : St W => a.nodes = s0.nodes ∧ a.world = s0.world ∧ a.stack = s0.stack ∧
      a.log = s0.log ∧
      (∀ e ∈ a.edges, e ∈ s0.edges ∨ ∃ nm ∈ info.importNames, ∃ t,
        e = (importing.ident, t, fromImportInfo info true nm.asname) ∧ Reexports src t nm.name a))
    (fun nm hnm a b hP hpn => by
      obtain ⟨p1, p2, p3, p4, p5⟩ := hP
      rcases one nm hnm a b (by rw [p1]; exact hsrc0) hpn with
        rfl | ⟨t, hr, rfl⟩
      · exact ⟨p1, p2, p3, p4, p5⟩
      · refine ⟨by rw [addEdge_nodes, p1], by rw [addEdge_world, p2], by rw [addEdge_stack, p3], ?_, ?_⟩
        · have : (a.addEdge importing.ident t (fromImportInfo info true nm.asname)).log = a.log := by
            unfold St.addEdge; split <;> rfl
          rw [this, p4]
        · intro e he
          have up : ∀ {t' nm'}, Reexports src t' nm' a →
              Reexports src t' nm' (a.addEdge importing.ident t (fromImportInfo info true nm.asname)) :=
            fun hx => Reexports.later hx fun e he => (mem_addEdge ..).mpr (.inl he)
          rcases (mem_addEdge ..).mp he with he | he
          · rcases p5 e he with he | ⟨nm', hnm', t', rfl, hr'⟩
            · exact .inl he
            · exact .inr ⟨nm', hnm', t', rfl, up hr'⟩
          · exact .inr ⟨nm, hnm, t, he, up hr⟩)
    ⟨rfl, rfl, rfl, rfl, fun e he => .inl he⟩ hF
  refine ⟨hlist.1, hlist.2.1, hlist.2.2.1, hlist.2.2.2.2, ?_⟩
  intro nm hnm hg ⟨t, hr⟩
  obtain ⟨s1, s2, h1, h2, h3⟩ := forEach_mem loads_rel
    (fun a => processName_loads env hM n importing src info a) hF hnm
  have hs1 : src ∈ s1.nodes := h1.nodes.subset hsrc0
  obtain ⟨ha, _⟩ := processName_ok env hM n importing src info nm s1 s2
    (fun hm => by simp_all) hs1 h2
  have hg1 : nm.name ∈ s1.globalsWritten src := by
    unfold St.globalsWritten
    rw [hns, if_neg (by simp), h1.gw _ (has_of_Has ⟨src, hsrc0, rfl⟩), hg0]
    exact .inl hg
  cases hre : reexported env s1 src nm.name with
  | none =>
    refine absurd (Reexports.later (s' := s1) hr fun e he => h1.edges e ?_)
      (reexported_none hO hre t)
    rw [he0]; exact he
  | some t =>
    have := ha hg1 t hre
    refine ⟨t, Reexports.later (reexported_some hO hre) (fun e he => h3.edges e ?_), NameEdge.later ?_ h3⟩
    · rw [this]; exact (mem_addEdge ..).mpr (.inl he)
    · rw [this]; exact (mem_addEdge ..).mpr (.inr rfl)

/-! Non-vacuity: `a` does `from p import q, v, r` where `p` is a package with a submodule `q`, a
global variable `v` and `import b as r`; and `from m import x` for a plain module `m`. -/

def fromTable : Demo.Table where
  mods := [(c!"a", Demo.src c!"a", [Demo.fromImp 0 c!"p" [c!"q", c!"v", c!"r"],
      Demo.fromImp 0 c!"m" [c!"x"]]),
    (c!"p", Demo.pkg c!"p" [] [c!"v", c!"r"],
      [createImportInfo (c!"b", some c!"r") none 0 false false false]),
    (c!"p.q", Demo.src c!"p.q", []), (c!"b", Demo.src c!"b", []), (c!"m", Demo.src c!"m", [])]

example : (Demo.env fromTable).OrderExact := fun _ _ _ => Iff.rfl

example :
    let s := (Demo.run fromTable [.addModule c!"a"]).2
    let e := s.edges.filterMap fun e => if e.2.2.inFromlist then some (e.1, e.2.1) else none
    let started := s.log.any fun e => match e with
      | .started (.nl a p i) => a.ident == c!"a" && p.ident == c!"p" && !i.starImport &&
        i.importNames.map ImpName.name == [c!"q", c!"v", c!"r"]
      | _ => false
    started = true ∧ (c!"a", c!"p.q") ∈ e ∧ (c!"a", c!"b") ∈ e ∧ e.length = 2 ∧
      (s.nodes.map Node.ident).contains c!"m.x" = false ∧
      (s.nodes.find? fun n => n.ident == c!"p.v").map Node.isMissing = some true := by
  decide +kernel

end Verif.Props
