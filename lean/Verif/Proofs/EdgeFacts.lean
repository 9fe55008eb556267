import Verif.Proofs.SixTable
import Verif.Proofs.NodeFacts
import Verif.Spec.ExplainSpec
/-!
# Every edge has an explanation
-/
namespace Verif
open M Spec
variable {W : Type}

/-! ## Names -/

theorem relativePackage_cases {m : Node} {i : ImportInfo} {r} (hl : 0 < i.importLevel)
    (h : relativePackage m i.importLevel = .ok r) :
    ∃ comps, comps ≠ [] ∧ (∀ c ∈ comps, Comp c) ∧ m.ident = dotted comps ∧
      ((comps.length ≤ dropped m i ∧ r = none) ∨
       (dropped m i < comps.length ∧
        r = some (dotted (comps.take (comps.length - dropped m i))))) := by
  obtain ⟨comps, hne, hc, hn⟩ := exists_comps m.ident
  refine ⟨comps, hne, hc, hn, ?_⟩
  unfold relativePackage at h
  rw [if_neg (by omega)] at h
  simp only [hn] at h
  change (if (rsplit '.' (dropped m i) (dotted comps)).length < dropped m i + 1 then _ else
    match rsplit '.' (dropped m i) (dotted comps) with
      | [] => Except.error Exc.indexError
      | b :: _ => Except.ok (some b)) = _ at h
  generalize dropped m i = k at h ⊢
  rw [rsplit_dotted hne hc] at h
  by_cases hk : k < comps.length
  · rw [if_pos hk, if_neg (by simp; omega)] at h
    simp only [Except.ok.injEq] at h
    exact .inr ⟨hk, h.symm⟩
  · rw [if_neg hk, if_pos (by omega)] at h
    simp only [Except.ok.injEq] at h
    exact .inl ⟨by omega, h.symm⟩

theorem refers_of_absoluteName {m : Node} {i : ImportInfo} {t} (h : absoluteName m i = .ok (some t)) :
    Refers m i t := by
  unfold absoluteName at h
  split at h
  · rename_i h0
    simp only [Except.ok.injEq, Option.some.injEq] at h
    subst h
    exact .absolute h0
  · rename_i h0
    cases hr : relativePackage m i.importLevel with
    | error e => rw [hr] at h; simp at h
    | ok r =>
      rw [hr] at h
      obtain ⟨comps, hne, hc, hn, hcs⟩ := relativePackage_cases (by omega) hr
      rcases hcs with ⟨_, rfl⟩ | ⟨hlt, rfl⟩
      · simp at h
      · simp only [] at h
        have h : t = (if i.importModule.name ≠ [] then
            dotted (comps.take (comps.length - dropped m i)) ++ '.' :: i.importModule.name
            else dotted (comps.take (comps.length - dropped m i))) := by
          revert h
          by_cases hnm : i.importModule.name = [] <;> simp only [hnm, ne_eq, not_true_eq_false,
            not_false_eq_true, if_true, if_false] <;> split <;> simp [eq_comm]
        · subst h
          have hk : comps.take (comps.length - dropped m i) ≠ [] := by
            intro he
            have := congrArg List.length he
            simp at this
            omega
          have := Refers.relative (m := m) (i := i) (comps.take (comps.length - dropped m i))
            (comps.drop (comps.length - dropped m i)) (by omega) (by rw [List.take_append_drop, hn])
            (by rw [List.take_append_drop]; exact hc) hk (by simp; omega)
          by_cases hnm : i.importModule.name = []
          · simpa [hnm] using this
          · simpa [hnm, dotted_snoc _ hk] using this

theorem outside_of_absoluteName {m : Node} {i : ImportInfo} (h : absoluteName m i = .ok none) :
    PointsOutside m i := by
  unfold absoluteName at h
  split at h
  · simp at h
  · rename_i h0
    cases hr : relativePackage m i.importLevel with
    | error e => rw [hr] at h; simp at h
    | ok r =>
      rw [hr] at h
      obtain ⟨comps, hne, hc, hn, hcs⟩ := relativePackage_cases (by omega) hr
      rcases hcs with ⟨hle, rfl⟩ | ⟨hlt, rfl⟩
      · exact ⟨by omega, comps, hne, hn, hc, hle⟩
      · simp only [] at h
        split at h <;> split at h <;> simp at h

theorem inPackage_of_split {name p b} (h : splitPackage name = .ok (some p, b)) : InPackage name p := by
  have hs : ∃ d pre last, IsSplit name d pre last := by
    refine Classical.byContradiction fun hn => ?_
    rw [splitPackage_error_iff.mpr hn] at h; cases h
  obtain ⟨d, pre, last', hs⟩ := hs
  rw [splitPackage_of_isSplit hs] at h
  obtain ⟨e, -, hl, -⟩ := hs
  simp only [Except.ok.injEq, Prod.mk.injEq] at h
  obtain ⟨h, rfl⟩ := h
  split at h
  · simp at h
  · rename_i hd
    simp only [Option.some.injEq] at h
    subst h
    refine ⟨last', hl, ?_⟩
    by_cases hp : pre = []
    · subst hp
      exact .inr ⟨by simpa [dotted] using hd, by simp [dotted], by simpa [dotted] using e⟩
    · exact .inl (by rw [e, dotted_snoc _ hp]; simp)

/-! ## The invariant -/

section
variable (A : ApiOp → Prop) (stdlib : List (Str × Implies))

/-- Some implied reference from `a` to `b` was configured. -/
def Conf (a b : Str) : Prop :=
  ∃ names, b ∈ names ∧ ((a, .refs names) ∈ stdlib ∨ ∃ l, A (.addImplies l) ∧ (a, .refs names) ∈ l)

/-- The edge has an explanation in this state. -/
def Expl (s : St W) (a b : Str) (d : DepInfo) : Prop :=
  Explained (Conf A stdlib) s.nodes s.edges s.log a b d

def ItemOk (s : St W) : Item → Prop
  | .pp n => n ∈ s.nodes
  | .imp m i => m ∈ s.nodes ∧ Found s.log m.ident i
  | .nl a b i => a ∈ s.nodes ∧ b ∈ s.nodes ∧ Found s.log a.ident i ∧
      absoluteName a i = .ok (some b.ident)
  | .pkg _ _ => False

def OblOk (s : St W) : Obl → Prop
  | .load name p _ => ∃ b, splitPackage name = .ok (p, b)
  | .alias name t => ∃ n ∈ s.nodes, n.ident = name ∧ (n.kind = .alias t ∨ n.kind = .virtual t)
  | .refs name _ rest => ∀ r ∈ rest, Conf A stdlib name r
  | .node _ _ => True
  | .target _ => True
  | .dist d rest => distNode d ∈ s.nodes ∧ ∀ r ∈ rest, r ∈ d.importNames

structure EdgeCore (s : St W) : Prop where
  edges : ∀ a b d, (a, b, d) ∈ s.edges → Expl A stdlib s a b d
  lazy : ∀ k names, s.lazy k = some (.refs names) → ∀ r ∈ names, Conf A stdlib k r
  items : ∀ it, (it ∈ pending s ∨ Event.started it ∈ s.log) → ItemOk s it
  imported : ∀ a i t, Event.imported a i t ∈ s.log → ∃ m ∈ s.nodes, m.ident = a ∧
    Found s.log a i ∧ ((Refers m i t ∧ (a, t, fromImportInfo i false i.importModule.asname) ∈ s.edges) ∨
     (PointsOutside m i ∧ t = List.replicate i.importLevel '.' ++ i.importModule.name ∧
      (∃ n ∈ s.nodes, n.ident = t ∧ n.isInvalidRel = true) ∧
      (a, t, fromImportInfo i false none) ∈ s.edges))

def EdgeJ (O : List Obl) (s : St W) : Prop :=
  EdgeCore A stdlib s ∧ ∀ o ∈ O, OblOk A stdlib s o
end

/-- More of everything that explanations use. -/
structure Fw (s s' : St W) : Prop where
  nodes : ∀ n ∈ s.nodes, n ∈ s'.nodes
  edges : ∀ e ∈ s.edges, e ∈ s'.edges
  log : ∀ e ∈ s.log, e ∈ s'.log

theorem Fw.refl (s : St W) : Fw s s := ⟨fun _ h => h, fun _ h => h, fun _ h => h⟩
theorem Fw.trans {a b c : St W} (h : Fw a b) (h' : Fw b c) : Fw a c :=
  ⟨fun n hn => h'.nodes n (h.nodes n hn), fun e he => h'.edges e (h.edges e he),
    fun e he => h'.log e (h.log e he)⟩
theorem More.fw {s s' : St W} (h : More s s') : Fw s s' :=
  ⟨fun _ hn => h.nodes ▸ hn, h.edges, h.log⟩
theorem fw_addNode (s : St W) (n) : Fw s (s.addNode n) :=
  ⟨fun _ h => List.mem_append_left _ h, fun _ h => h, fun _ h => h⟩

section
variable {A : ApiOp → Prop} {stdlib : List (Str × Implies)} {s s' : St W} {O O' : List Obl}

theorem Found.sub {l l' : List Event} (h : ∀ e ∈ l, e ∈ l') {a i} (hf : Found l a i) : Found l' a i :=
  hf.imp fun _ h1 => ⟨h _ h1.1, h1.2⟩

theorem Stands.sub {l l' : List Node} (h : ∀ e ∈ l, e ∈ l') {a b} (hf : Stands l a b) : Stands l' a b :=
  hf.imp id fun ⟨n, h1, h2⟩ => ⟨n, h n h1, h2⟩

theorem Expl.fw {a b d} (h : Expl A stdlib s a b d) (hf : Fw s s') : Expl A stdlib s' a b d := by
  cases h with
  | statement h1 h2 h3 => exact .statement (hf.nodes _ h1) (Found.sub hf.log h2) h3
  | invalid h1 h2 h3 h4 h5 h6 =>
    exact .invalid (hf.nodes _ h1) (Found.sub hf.log h2) h3 (hf.nodes _ h4) h5 h6
  | fromName h1 h2 h3 h4 h5 =>
    exact .fromName (hf.nodes _ h1) (Found.sub hf.log h2) h3 (Stands.sub hf.nodes h4) h5
  | fromPackage h1 h2 h3 h4 h5 =>
    exact .fromPackage (hf.nodes _ h1) (Found.sub hf.log h2) h3 (Stands.sub hf.nodes h4) h5
  | reexport h1 h2 h3 h4 h5 h6 h7 =>
    exact .reexport (hf.nodes _ h1) (Found.sub hf.log h2) h3 (Stands.sub hf.nodes h4) h5
      (hf.edges _ h6) h7
  | sixMoves h1 h2 h3 h4 h5 h6 h7 h8 h9 =>
    exact .sixMoves (hf.nodes _ h1) (Found.sub hf.log h2) h3 (Stands.sub hf.nodes h4)
      (hf.nodes _ h5) h6 h7 h8 h9
  | package h => exact .package h
  | alias h1 h2 => exact .alias (hf.nodes _ h1) h2
  | implied h => exact .implied h
  | explicitNamespace h1 h2 => exact .explicitNamespace (hf.nodes _ h1) h2
  | distribution h1 h2 h3 => exact .distribution (hf.nodes _ h1) h2 h3
  | mypyc h1 h2 h3 h4 => exact .mypyc (hf.nodes _ h1) h2 h3 h4

theorem ItemOk.fw {it} (h : ItemOk s it) (hf : Fw s s') : ItemOk s' it := by
  cases it with
  | pp n => exact hf.nodes _ h
  | imp m i => exact ⟨hf.nodes _ h.1, Found.sub hf.log h.2⟩
  | nl a b i => exact ⟨hf.nodes _ h.1, hf.nodes _ h.2.1, Found.sub hf.log h.2.2.1, h.2.2.2⟩
  | pkg _ _ => exact h

theorem OblOk.fw {o} (h : OblOk A stdlib s o) (hf : Fw s s') : OblOk A stdlib s' o := by
  cases o with
  | alias name t => obtain ⟨n, h1, h2⟩ := h; exact ⟨n, hf.nodes _ h1, h2⟩
  | dist d rest => exact ⟨hf.nodes _ h.1, h.2⟩
  | load _ _ _ => exact h
  | refs _ _ _ => exact h
  | node _ _ => exact h
  | target _ => exact h

/-- A step that adds at most explained edges, harmless items, and no completed imports. -/
theorem EdgeCore.step (h : EdgeCore A stdlib s) (hf : Fw s s')
    (he : ∀ a b d, (a, b, d) ∈ s'.edges → (a, b, d) ∈ s.edges ∨ Expl A stdlib s' a b d)
    (hl : ∀ k names, s'.lazy k = some (.refs names) → s.lazy k = some (.refs names) ∨
      ∀ r ∈ names, Conf A stdlib k r)
    (hi : ∀ it, (it ∈ pending s' ∨ Event.started it ∈ s'.log) →
      (it ∈ pending s ∨ Event.started it ∈ s.log) ∨ ItemOk s' it)
    (hm : ∀ a i t, Event.imported a i t ∈ s'.log → Event.imported a i t ∈ s.log ∨
      ∃ m ∈ s'.nodes, m.ident = a ∧ Found s'.log a i ∧
      ((Refers m i t ∧ (a, t, fromImportInfo i false i.importModule.asname) ∈ s'.edges) ∨
      (PointsOutside m i ∧ t = List.replicate i.importLevel '.' ++ i.importModule.name ∧
      (∃ n ∈ s'.nodes, n.ident = t ∧ n.isInvalidRel = true) ∧
      (a, t, fromImportInfo i false none) ∈ s'.edges))) :
    EdgeCore A stdlib s' where
  edges a b d hm := (he a b d hm).elim (fun h' => (h.edges a b d h').fw hf) id
  lazy k names hk := (hl k names hk).elim (h.lazy k names) id
  items it hit := (hi it hit).elim (fun h' => (h.items it h').fw hf) id
  imported a i t hev := by
    rcases hm a i t hev with h' | h'
    · obtain ⟨m, h1, h2, h3, h4⟩ := h.imported a i t h'
      refine ⟨m, hf.nodes _ h1, h2, Found.sub hf.log h3, h4.imp ?_ ?_⟩
      · exact fun ⟨x, y⟩ => ⟨x, hf.edges _ y⟩
      · exact fun ⟨x, y, ⟨n, z1, z2⟩, u⟩ => ⟨x, y, ⟨n, hf.nodes _ z1, z2⟩, hf.edges _ u⟩
    · exact h'

/-- A change of nothing that matters. -/
theorem EdgeCore.same (h : EdgeCore A stdlib s) (hn : s'.nodes = s.nodes) (he : s'.edges = s.edges)
    (hlz : s'.lazy = s.lazy) (hp : ∀ it, it ∈ pending s' → it ∈ pending s)
    (hlog : s'.log = s.log ∨ ∃ e, s'.log = s.log ++ [e] ∧ (∀ it, e = .started it → it ∈ pending s) ∧
      ∀ a i t, e ≠ .imported a i t) : EdgeCore A stdlib s' := by
  have hf : Fw s s' := by
    refine ⟨by rw [hn]; exact fun _ h => h, by rw [he]; exact fun _ h => h, ?_⟩
    rcases hlog with h' | ⟨e, h', _⟩ <;> rw [h']
    · exact fun _ h => h
    · exact fun _ h => List.mem_append_left _ h
  refine h.step hf (by rw [he]; exact fun _ _ _ h => .inl h) (by rw [hlz]; exact fun _ _ h => .inl h) ?_ ?_
  · intro it hit
    rcases hit with hit | hit
    · exact .inl (.inl (hp it hit))
    · rcases hlog with h' | ⟨e, h', h2, _⟩ <;> rw [h'] at hit
      · exact .inl (.inr hit)
      · rcases List.mem_append.mp hit with h3 | h3
        · exact .inl (.inr h3)
        · simp only [List.mem_singleton] at h3
          exact .inl (.inl (h2 it h3.symm))
  · intro a i t hev
    rcases hlog with h' | ⟨e, h', _, h2⟩ <;> rw [h'] at hev
    · exact .inl hev
    · rcases List.mem_append.mp hev with h3 | h3
      · exact .inl h3
      · simp only [List.mem_singleton] at h3
        exact absurd h3.symm (h2 a i t)

theorem EdgeJ.obl (h : EdgeJ A stdlib O s) (ho : ∀ o ∈ O', o ∈ O ∨ OblOk A stdlib s o) :
    EdgeJ A stdlib O' s :=
  ⟨h.1, fun o hm => (ho o hm).elim (h.2 o) id⟩

theorem EdgeJ.next (h : EdgeJ A stdlib O s) (hf : Fw s s') (hc : EdgeCore A stdlib s') :
    EdgeJ A stdlib O s' := ⟨hc, fun o hm => (h.2 o hm).fw hf⟩

theorem EdgeJ.tail {o} (h : EdgeJ A stdlib (o :: O) s) : EdgeJ A stdlib O s :=
  h.obl fun _ hm => .inl (List.mem_cons_of_mem _ hm)

theorem EdgeCore.addEdge (h : EdgeCore A stdlib s) {a b d} (he : Expl A stdlib s a b d) :
    EdgeCore A stdlib (s.addEdge a b d) := by
  have hf : Fw s (s.addEdge a b d) := (more_addEdge s a b d).fw
  refine h.step hf ?_ ?_ ?_ ?_
  · intro a' b' d' hm
    unfold St.addEdge at hm
    split at hm
    · exact .inl hm
    · rcases List.mem_append.mp hm with h1 | h1
      · exact .inl h1
      · simp only [List.mem_singleton] at h1
        cases h1
        exact .inr (he.fw hf)
  · unfold St.addEdge; split <;> exact fun _ _ h => .inl h
  · unfold St.addEdge; split <;> exact fun _ h => .inl h
  · unfold St.addEdge; split <;> exact fun _ _ _ h => .inl h

theorem EdgeJ.addEdge (h : EdgeJ A stdlib O s) {a b d} (he : Expl A stdlib s a b d) :
    EdgeJ A stdlib O (s.addEdge a b d) := h.next (more_addEdge s a b d).fw (h.1.addEdge he)

theorem EdgeCore.addNode (h : EdgeCore A stdlib s) (n) : EdgeCore A stdlib (s.addNode n) :=
  h.step (fw_addNode s n) (fun _ _ _ h => .inl h) (fun _ _ h => .inl h) (fun _ h => .inl h)
    (fun _ _ _ h => .inl h)

theorem EdgeCore.schedule (h : EdgeCore A stdlib s) {n} (hn : n ∈ s.nodes) (infos) :
    EdgeCore A stdlib (s.schedule n infos) := by
  have hm := more_schedule s n infos
  have hf := hm.fw
  refine h.step hf ?_ ?_ ?_ ?_
  · intro a b d hm
    refine .inl ?_
    revert hm
    unfold St.schedule; simp only []; split <;> exact id
  · intro k names hk
    refine .inl ?_
    revert hk
    unfold St.schedule; simp only []; split <;> exact id
  · intro it hit
    rw [log_schedule, schedule_pending] at hit
    simp only [List.mem_append, List.mem_singleton, reduceCtorEq, or_false] at hit
    rcases hit with ((h1 | h1) | h1) | h1
    · exact .inl (.inl h1)
    · right
      split at h1
      · simp at h1
      · simp only [List.mem_singleton] at h1
        subst h1
        exact hf.nodes _ hn
    · right
      obtain ⟨i, hi, rfl⟩ := List.mem_map.mp h1
      exact ⟨hf.nodes _ hn, infos, by rw [log_schedule]; simp, hi⟩
    · exact .inl (.inr h1)
  · intro a i t hev
    rw [log_schedule] at hev
    simp at hev
    exact .inl hev

theorem mem_addSched (s : St W) (n infos) : n ∈ ((s.addNode n).schedule n infos).nodes := by
  rw [(more_schedule ..).nodes]; simp [St.addNode]

theorem EdgeJ.addSched (h : EdgeJ A stdlib O s) (n infos) :
    EdgeJ A stdlib O ((s.addNode n).schedule n infos) :=
  h.next ((fw_addNode s n).trans (more_schedule ..).fw)
    ((h.1.addNode n).schedule (by simp [St.addNode]) infos)

theorem EdgeCore.popLazy (h : EdgeCore A stdlib s) (n) : EdgeCore A stdlib (s.popLazy n) :=
  h.step (more_popLazy s n).fw (fun _ _ _ h => .inl h) (by
    intro k names hk
    simp only [St.popLazy] at hk
    split at hk
    · simp at hk
    · exact .inl hk) (fun _ h => .inl h) (fun _ _ _ h => .inl h)

theorem NlTarget.stands {b c : Node} (h : NlTarget s b c) (hb : b ∈ s.nodes) :
    Stands s.nodes b.ident c.ident := by
  rcases h with ⟨rfl, _⟩ | ⟨h, _⟩
  · exact .inl rfl
  · exact .inr ⟨b, hb, rfl, h⟩

theorem EdgeJ.nl (h : EdgeJ A stdlib O s) {a b c i} (hst : Event.started (.nl a b i) ∈ s.log)
    (hc : NlTarget s b c) : a ∈ s.nodes ∧ Found s.log a.ident i ∧ Refers a i b.ident ∧
      Stands s.nodes b.ident c.ident ∧ c ∈ s.nodes := by
  obtain ⟨h1, h2, h3, h4⟩ := h.1.items _ (.inr hst)
  refine ⟨h1, h3, refers_of_absoluteName h4, hc.stands h2, ?_⟩
  rcases hc with ⟨rfl, _⟩ | ⟨_, hc⟩
  · exact h2
  · exact hc

end

theorem edgeCtx (env : Env W) (hO : env.OrderOk) (A : ApiOp → Prop) (stdlib : List (Str × Implies))
    (hA : ∀ o, A o → o.Declares) (hA2 : ∀ name, A (.addModule name)) :
    Ctx env A (EdgeJ (W := W) A stdlib) (EdgeCore A stdlib) where
  aAddModule name _ := hA2 name
  toE h := h.1
  world w h := h.next ⟨fun _ h => h, fun _ h => h, fun _ h => h⟩
    (h.1.same rfl rfl rfl (fun _ h => h) (.inl rfl))
  looked h := h.next (more_event ..).fw (h.1.same rfl rfl rfl (fun _ h => h) (.inr ⟨_, rfl, by simp, by simp⟩))
  asked _ _ _ h := h.next (more_event ..).fw (h.1.same rfl rfl rfl (fun _ h => h) (.inr ⟨_, rfl, by simp, by simp⟩))
  called _ _ h := h.next (more_event ..).fw (h.1.same rfl rfl rfl (fun _ h => h) (.inr ⟨_, rfl, by simp, by simp⟩))
  failed h := ⟨h.same rfl rfl rfl (fun _ h => h) (.inr ⟨_, rfl, by simp, by simp⟩), by simp⟩
  pushLoad _ h hsp _ := h.obl (by
    intro o ho
    rcases List.mem_cons.mp ho with rfl | ho
    · exact .inr ⟨_, hsp⟩
    · exact .inl ho)
  popLoad h _ := h.tail
  popLoadLink h _ _ := by
    obtain ⟨b, hsp⟩ := h.2 _ (List.mem_cons_self ..)
    exact h.tail.addEdge (.package (inPackage_of_split hsp))
  popLoadMissing h _ _ _ := h.tail
  addExcludedSub h _ _ _ _ := h.addSched _ _
  addMissing h _ _ _ := h.addSched _ _
  addSwig n _ h _ _ _ _ := h.next (fw_addNode _ n) (h.1.addNode n)
  popExcluded h _ _ := (h.next (more_popLazy ..).fw (h.1.popLazy _)).addSched _ _
  popAlias h _ _ := ((h.next (more_popLazy ..).fw (h.1.popLazy _)).addSched _ _).obl (by
    intro o ho
    rcases List.mem_cons.mp ho with rfl | ho
    · exact .inr ⟨aliasNode _ _, mem_addSched _ _ _, rfl, .inl rfl⟩
    · exact .inl ho)
  popVirtual h _ _ := ((h.next (more_popLazy ..).fw (h.1.popLazy _)).addSched _ _).obl (by
    intro o ho
    rcases List.mem_cons.mp ho with rfl | ho
    · exact .inr ⟨virtualNode _ _, mem_addSched _ _ _, rfl, .inr rfl⟩
    · exact .inl ho)
  doneAlias := by
    intro O s name t h _ _
    obtain ⟨n, h1, rfl, h2⟩ := h.2 _ (List.mem_cons_self ..)
    exact h.tail.addEdge (.alias h1 h2)
  popRefs := by
    intro O s name p lm names h _ hl
    refine (h.next (more_popLazy s name).fw (h.1.popLazy _)).obl ?_
    intro o ho
    rcases List.mem_cons.mp ho with rfl | ho
    · exact .inr (h.1.lazy _ _ hl)
    · exact .inl ho
  doneRef := by
    intro O s name all r rest h _ _
    have ho := h.2 _ (List.mem_cons_self ..)
    refine (h.addEdge (.implied (ho r (List.mem_cons_self ..)))).obl ?_
    intro o hm
    rcases List.mem_cons.mp hm with rfl | hm
    · exact .inr fun x hx => ho x (List.mem_cons_of_mem _ hx)
    · exact .inl (List.mem_cons_of_mem _ hm)
  doneRefs h _ := h.tail
  addAlias h _ _ _ _ := (h.addSched _ _).obl (by
    intro o ho
    rcases List.mem_cons.mp ho with rfl | ho
    · exact .inr ⟨aliasNode _ _, mem_addSched _ _ _, rfl, .inl rfl⟩
    · exact .inl ho)
  addTarget h _ _ _ := (h.addSched _ _).obl (by
    intro o ho
    rcases List.mem_cons.mp ho with rfl | ho
    · exact .inr trivial
    · exact .inl ho)
  doneTarget h _ _ := h.tail
  doneTargetLink h hsp _ _ := h.tail.addEdge (.package (inPackage_of_split hsp))
  addLoaded {O s p lm n imports} h _ _ _ := (h.next (fw_addNode s n) (h.1.addNode n)).obl (by
    intro o ho
    rcases List.mem_cons.mp ho with rfl | ho
    · exact .inr trivial
    · exact .inl ho)
  nsEdge h hk hn _ := h.addEdge (.explicitNamespace hn hk)
  schedNode h hn _ := h.tail.next (more_schedule ..).fw (h.1.schedule hn _)
  addInvalid h _ _ _ := h.addSched _ _
  finishInvalid := by
    intro s m i n h hst ha hn hb hid hm
    obtain ⟨h1, h2⟩ := h.1.items _ (.inr hst)
    have he : Expl A stdlib s m.ident n.ident (fromImportInfo i false none) :=
      .invalid h1 h2 (outside_of_absoluteName ha) hn hb hid
    have hc := (h.addEdge he).1
    have hm' := more_addEdge s m.ident n.ident (fromImportInfo i false none)
    refine ⟨hc.step (more_event ..).fw (fun _ _ _ h => .inl h) (fun _ _ h => .inl h) ?_ ?_, by simp⟩
    · intro it hit
      exact .inl (by simpa [St.event, pending] using hit)
    · intro a j t hev
      simp only [St.event, List.mem_append, List.mem_singleton, Event.imported.injEq] at hev
      rcases hev with hev | ⟨rfl, rfl, rfl⟩
      · exact .inl hev
      · right
        refine ⟨m, hm'.nodes ▸ h1, rfl, Found.sub (fun e he => List.mem_append_left _ (hm'.log e he)) h2,
          .inr ⟨outside_of_absoluteName ha, hid, ⟨n, hm'.nodes ▸ hn, rfl, hb⟩, addEdge_mem _ _ _ _⟩⟩
  finishImp := by
    intro s m i n offset h hst ha hn hm
    obtain ⟨h1, h2⟩ := h.1.items _ (.inr hst)
    have hr := refers_of_absoluteName ha
    have he : Expl A stdlib s m.ident n.ident (fromImportInfo i false i.importModule.asname) :=
      .statement h1 h2 hr
    have hc := (h.addEdge he).1
    have hm' := more_addEdge s m.ident n.ident (fromImportInfo i false i.importModule.asname)
    have hmem := addEdge_mem s m.ident n.ident (fromImportInfo i false i.importModule.asname)
    revert hc hm' hmem
    generalize s.addEdge m.ident n.ident (fromImportInfo i false i.importModule.asname) = s1
    intro hc hm' hmem
    refine ⟨hc.step ⟨fun _ h => h, fun _ h => h, fun _ h => List.mem_append_left _ h⟩
      (fun _ _ _ h => .inl h) (fun _ _ h => .inl h) ?_ ?_, by simp⟩
    · intro it hit
      simp only [pending, List.mem_append, List.mem_singleton, reduceCtorEq, or_false] at hit
      rcases hit with (h3 | (h3 | h3) | h3) | h3
      · exact .inl (.inl (by simp [pending, h3]))
      · exact .inl (.inl (List.mem_append_right _ (List.mem_of_mem_take h3)))
      · subst h3
        right
        exact ⟨hm'.nodes ▸ h1, hm'.nodes ▸ hn,
          Found.sub (fun e he => List.mem_append_left _ (hm'.log e he)) h2, ha⟩
      · exact .inl (.inl (List.mem_append_right _ (List.mem_of_mem_drop h3)))
      · exact .inl (.inr h3)
    · intro a j t hev
      simp only [List.mem_append, List.mem_singleton, Event.imported.injEq] at hev
      rcases hev with hev | ⟨rfl, rfl, rfl⟩
      · exact .inl hev
      · right
        exact ⟨m, hm'.nodes ▸ h1, rfl,
          Found.sub (fun e he => List.mem_append_left _ (hm'.log e he)) h2, .inl ⟨hr, hmem⟩⟩
  globals _ h _ := h.next ⟨fun _ h => h, fun _ h => h, fun _ h => h⟩
    (h.1.same rfl rfl rfl (fun _ h => h) (.inl rfl))
  reexport := by
    intro s a b c i nm t h hst hc hnm hre _ _
    obtain ⟨h1, h2, h3, h4, -⟩ := h.nl hst hc
    have hmem := List.mem_of_find?_eq_some hre
    have hprop := List.find?_some hre
    have hsucc := hO _ _ _ hmem
    have hex : ∃ d, (c.ident, t, d) ∈ s.edges ∧ (d.importedAs = some nm.name ∨ t = nm.name) := by
      simp only [Bool.or_eq_true, List.any_eq_true, beq_iff_eq] at hprop
      rcases hprop with ⟨d, hd, hda⟩ | hda
      · simp only [St.attrs, List.mem_map, List.mem_filter, Bool.and_eq_true, beq_iff_eq] at hd
        obtain ⟨⟨x, y, z⟩, ⟨he, h5, h6⟩, rfl⟩ := hd
        simp only at h5 h6 hda
        subst h5 h6
        exact ⟨z, he, .inl hda⟩
      · simp only [St.succs, List.mem_eraseDups, List.mem_map, List.mem_filter, beq_iff_eq] at hsucc
        obtain ⟨⟨x, y, z⟩, ⟨he, h5⟩, h6⟩ := hsucc
        simp only at h5 h6
        subst h5 h6
        exact ⟨z, he, .inr hda⟩
    obtain ⟨d, hd, hd2⟩ := hex
    exact h.addEdge (.reexport h1 h2 h3 h4 hnm hd hd2)
  subLink := by
    intro s a b c i nm h hst hc hnm _ _
    obtain ⟨h1, h2, h3, h4, -⟩ := h.nl hst hc
    exact h.addEdge (.fromPackage h1 h2 h3 h4 hnm)
  subEdge := by
    intro s a b c i nm h hst hc hnm _ _
    obtain ⟨h1, h2, h3, h4, -⟩ := h.nl hst hc
    exact h.addEdge (.fromName h1 h2 h3 h4 hnm)
  sixEdge := by
    intro s a b c i nm t h hst hc hnm hsm _ _ hsix
    obtain ⟨h1, h2, h3, h4, h5⟩ := h.nl hst hc
    obtain ⟨fr, init, sp, hd, ns, hk, hin⟩ := hsix
    exact h.addEdge (.sixMoves h1 h2 h3 h4 h5 hk hin hnm (Props.sixMove_iff.mp hsm))
  pkgEdge h hst _ _ := by
    rcases hst with hst | hst
    · exact (h.1.items _ (.inr hst)).elim
    · exact (hA _ hst).elim
  pkgSub h _ _ hst _ := by
    rcases hst with hst | hst
    · exact (h.1.items _ (.inr hst)).elim
    · exact (hA _ hst).elim
  pushPkg h _ _ hst := by
    rcases hst with hst | hst
    · exact (h.1.items _ (.inr hst)).elim
    · exact (hA _ hst).elim
  pop {s st it} h hst := by
    refine h.next ⟨fun _ h => h, fun _ h => h, fun _ h => List.mem_append_left _ h⟩
      (h.1.same rfl rfl rfl ?_ (.inr ⟨_, rfl, ?_, by simp⟩))
    · intro x hx
      simp only [pending, hst] at hx ⊢
      simp at hx ⊢
      grind
    · intro x hx
      cases hx
      simp [pending, hst]
  enter {s} h := h.next ⟨fun _ h => h, fun _ h => h, fun _ h => h⟩
    (h.1.same rfl rfl rfl (fun x hx => by simpa [pending] using hx) (.inl rfl))
  exit {s0 s} h0 h hh := h.next ⟨fun _ h => h, fun _ h => h, fun _ h => h⟩
    (h.1.same rfl rfl rfl (fun x hx => by
      simp only [pending, hh] at hx ⊢
      simpa [List.append_assoc] using hx) (.inl rfl))
  exitE {s0 s} h0 h hh := h.same rfl rfl rfl (fun x hx => by
      simp only [pending, hh] at hx ⊢
      simpa [List.append_assoc] using hx) (.inl rfl)
  script h _ _ _ := h.addSched _ _
  addRoot {O s id} h _ _ := by
    refine h.next (more_addRoot s id).fw ?_
    unfold St.addRoot
    split
    · exact h.1
    · exact h.1.same rfl rfl rfl (fun _ h => h) (.inl rfl)
  addDist {s} d h _ _ := ⟨h.1.addNode _, by
    intro o ho
    simp only [List.mem_singleton] at ho
    subst ho
    exact ⟨by simp [St.addNode], fun _ h => h⟩⟩
  distEdge := by
    intro s d r rest h _ _
    have ho := h.2 _ (List.mem_cons_self ..)
    refine (h.addEdge (.distribution ho.1 rfl (ho.2 r (List.mem_cons_self ..)))).obl ?_
    intro o hm
    simp only [List.mem_singleton] at hm
    subst hm
    exact .inr ⟨(more_addEdge s d.identifier r defaultDep).fw.nodes _ ho.1, fun x hx => ho.2 x (List.mem_cons_of_mem _ hx)⟩
  doneDist h _ := h.tail
  importModule _ hi _ _ := (hA _ hi).elim
  exclude {s} names _ h := by
    refine h.next (more_excludes s names).fw ?_
    have : ∀ (l : List Str) (s : St W), EdgeCore A stdlib s → EdgeCore A stdlib (l.foldl addExclude s) :=
      fun l s hs => foldl_pres (f := addExclude) (fun s a h => h.step (s' := addExclude s a)
        ⟨fun _ h => h, fun _ h => h, fun _ h => h⟩ (fun _ _ _ h => .inl h)
        (by
          intro k ns hk
          simp only [addExclude] at hk
          split at hk
          · simp at hk
          · exact .inl hk) (fun _ h => .inl h) (fun _ _ _ h => .inl h)) l s hs
    exact this names s h.1
  imply {s} l hl h := by
    refine h.next (more_implies s l).fw ?_
    have : ∀ (l' : List (Str × Implies)) (s : St W), (∀ x ∈ l', x ∈ l) → EdgeCore A stdlib s →
        EdgeCore A stdlib (l'.foldl addImply s) := by
      intro l'
      induction l' with
      | nil => exact fun s _ hs => hs
      | cons x l' ih =>
        intro s hx hs
        refine ih _ (fun y hy => hx y (List.mem_cons_of_mem _ hy)) ?_
        unfold addImply
        split
        · exact hs
        · refine hs.step ⟨fun _ h => h, fun _ h => h, fun _ h => h⟩ (fun _ _ _ h => .inl h) ?_
            (fun _ h => .inl h) (fun _ _ _ h => .inl h)
          intro k ns hk
          simp only [] at hk
          split at hk
          · rename_i hkx
            simp only [Option.some.injEq] at hk
            refine .inr fun r hr => ⟨ns, hr, .inr ⟨l, hl, ?_⟩⟩
            have := hx x (List.mem_cons_self ..)
            rw [hkx, ← hk]
            exact this
          · exact .inl hk
    exact this l s (fun _ h => h) h.1
  missHook _ _ h := h.next ⟨fun _ h => h, fun _ h => h, fun _ h => h⟩
    (h.1.same rfl rfl rfl (fun _ h => h) (.inl rfl))
  postHook _ _ h := h.next ⟨fun _ h => h, fun _ h => h, fun _ h => h⟩
    (h.1.same rfl rfl rfl (fun _ h => h) (.inl rfl))
  apiAddNode _ hi := (hA _ hi).elim
  apiAddEdge _ _ _ hi := (hA _ hi).elim
  apiSchedule _ _ hi := (hA _ hi).elim
  mypycEdge h hst hd hf _ _ := h.addEdge (.mypyc (h.1.items _ (.inr hst)) hd
    (List.mem_of_find?_eq_some hf) (List.find?_some hf))
  mypycSched h hst _ _ := h.next (more_schedule ..).fw (h.1.schedule (h.1.items _ (.inr hst)) _)

theorem Spec.Explained.mono {conf conf' : Str → Str → Prop} {nodes edges log a b d}
    (hc : ∀ a b, conf a b → conf' a b) (h : Explained conf nodes edges log a b d) :
    Explained conf' nodes edges log a b d := by
  cases h with
  | statement h1 h2 h3 => exact .statement h1 h2 h3
  | invalid h1 h2 h3 h4 h5 h6 => exact .invalid h1 h2 h3 h4 h5 h6
  | fromName h1 h2 h3 h4 h5 => exact .fromName h1 h2 h3 h4 h5
  | fromPackage h1 h2 h3 h4 h5 => exact .fromPackage h1 h2 h3 h4 h5
  | reexport h1 h2 h3 h4 h5 h6 h7 => exact .reexport h1 h2 h3 h4 h5 h6 h7
  | sixMoves h1 h2 h3 h4 h5 h6 h7 h8 h9 => exact .sixMoves h1 h2 h3 h4 h5 h6 h7 h8 h9
  | package h => exact .package h
  | alias h1 h2 => exact .alias h1 h2
  | implied h => exact .implied (hc _ _ h)
  | explicitNamespace h1 h2 => exact .explicitNamespace h1 h2
  | distribution h1 h2 h3 => exact .distribution h1 h2 h3
  | mypyc h1 h2 h3 h4 => exact .mypyc h1 h2 h3 h4

theorem initState_nodes (w : W) (l b) : (initState w l b).nodes = [] :=
  congrArg View.nodes (initState_view w l b).1
theorem initState_edges (w : W) (l b) : (initState w l b).edges = [] :=
  congrArg View.edges (initState_view w l b).1
theorem initState_log (w : W) (l b) : (initState w l b).log = [] := (initState_view w l b).2
theorem initState_stack (w : W) (l b) : (initState w l b).stack = [] := (initState_fields w l b).2.1

/-- The table of a new graph is as configured. -/
theorem initState_lazy (w : W) (l b) (k : Str) (i) (h : (initState w l b).lazy k = some i) :
    i = .excluded ∨ (k, i) ∈ l := by
  have key : ∀ (l' : List (Str × Implies)) (s : St W), (∀ x ∈ l', x ∈ l) →
      (∀ k i, s.lazy k = some i → i = .excluded ∨ (k, i) ∈ l) →
      ∀ k i, (l'.foldl addImply s).lazy k = some i → i = .excluded ∨ (k, i) ∈ l := by
    intro l'
    induction l' with
    | nil => exact fun s _ h => h
    | cons x l' ih =>
      intro s hx hs
      refine ih _ (fun y hy => hx y (List.mem_cons_of_mem _ hy)) ?_
      intro k i hk
      unfold addImply at hk
      split at hk
      · exact hs k i hk
      · simp only [] at hk
        split at hk
        · rename_i e
          simp only [Option.some.injEq] at hk
          right
          rw [e, ← hk]
          exact hx x (List.mem_cons_self ..)
        · exact hs k i hk
  refine key l { world := w, lazy := fun k => if k = c!"__main__" then some .excluded else none }
    (fun _ h => h) ?_ k i ?_
  · intro k i hk
    simp only [] at hk
    split at hk
    · simp only [Option.some.injEq] at hk; exact .inl hk.symm
    · simp at hk
  · unfold initState at h
    simp only [] at h
    split at h <;> exact h

end Verif
