import Verif.Proofs.Heaps
import Verif.Proofs.Brings
import Verif.Proofs.Scans
import Verif.Proofs.DepthFirst
import Verif.Props.FromImport
/-!
# Modules that are passed on

While the import statements of a module wait, only those of modules behind it are processed.  So what
a module passes on is known when another module imports it from there.
-/
namespace Verif
open M Spec
variable {W : Type}

section
variable {S : Setup}

theorem Spec.Setup.Leads.trans {x y z : Str} (h : S.Leads x y) (h' : S.Leads y z) : S.Leads x z := by
  induction h' with
  | here => exact h
  | on _ he ih => exact .on ih he

theorem Spec.Setup.Behind.on {c x y : Str} (h : S.Behind c x) (h' : S.Leads x y) : S.Behind c y := by
  rcases h with ⟨z, h1, h2⟩ | h
  · exact .inl ⟨z, h1, h2.trans h'⟩
  · exact .inr h

theorem Spec.Setup.Behind.self (c : Str) : S.Behind c c := .inl ⟨c, .self, .here⟩

/-- The nodes of the graph have different names. -/
theorem Spec.Setup.HasNode.unique (hT : S.Tame) {n n' : Node} (h : S.HasNode n) (h' : S.HasNode n')
    (he : n.ident = n'.ident) : n = n' := by
  have dotted : ∀ {m : Node} {i : ImportInfo}, PointsOutside m i →
      (List.replicate i.importLevel '.' ++ i.importModule.name).head? = some '.' := by
    intro m i ho
    obtain ⟨k, hk⟩ : ∃ k, i.importLevel = k + 1 := ⟨_, (Nat.succ_pred_eq_of_pos ho.1).symm⟩
    simp [hk, List.replicate_succ]
  cases h with
  | distribution h1 =>
    cases h' with
    | module h3 h4 =>
      rw [h4.ident] at he
      exact absurd (he ▸ h3 : S.NeedsModule (Setup.distributionNode _).ident) (hT.distName _ h1).1
    | script h3 h4 =>
      simp only [Setup.scriptNode, Setup.distributionNode] at he
      exact absurd (he ▸ h3) (hT.distName _ h1).2.2
    | distribution h3 => rw [hT.distSame _ _ h1 h3 he]
    | invalid h3 h4 =>
      simp only [Setup.distributionNode] at he
      exact absurd (he ▸ dotted h4) (hT.distName _ h1).2.1
  | module h1 h2 =>
    have := h'.nodeFor hT (he ▸ h2.ident.symm ▸ h1)
    rw [← he, h2.ident] at this
    exact h2.unique this
  | script h1 h2 =>
    cases h' with
    | module h3 h4 =>
      rw [h4.ident] at he
      simp only [Setup.scriptNode] at he
      exact absurd (he ▸ h3) (hT.scriptName _ h1).1
    | distribution h3 =>
      simp only [Setup.scriptNode, Setup.distributionNode] at he
      exact absurd (he ▸ h1) (hT.distName _ h3).2.2
    | script h3 h4 =>
      simp only [Setup.scriptNode] at he
      subst he
      rw [h2] at h4
      cases h4; rfl
    | invalid h3 h4 =>
      simp only [Setup.scriptNode] at he
      exact absurd (he ▸ dotted h4) (hT.scriptName _ h1).2
  | invalid h1 h2 =>
    cases h' with
    | module h3 h4 =>
      rw [h4.ident] at he
      exact absurd (he ▸ dotted h2) (hT.noDot _ h3)
    | script h3 h4 =>
      simp only [Setup.scriptNode] at he
      exact absurd (he ▸ dotted h2) (hT.scriptName _ h3).2
    | distribution h3 =>
      simp only [Setup.distributionNode] at he
      exact absurd (he ▸ dotted h2) (hT.distName _ h3).2.1
    | invalid h3 h4 => simp only at he; rw [he]

/-- Where an import statement is. -/
theorem Spec.Setup.Needs.place {m : Node} {i : ImportInfo} (h : S.Needs (.statement m i)) :
    (∃ path infos file, m = Setup.scriptNode path file ∧ S.asksScript path ∧
      S.scripts path = some (infos, file) ∧ i ∈ infos) ∨
    (∃ infos, S.NeedsModule m.ident ∧ S.NodeFor m.ident m ∧ S.mods m.ident = some (m, infos) ∧ i ∈ infos) ∨
    (∃ h infos, S.NeedsModule m.ident ∧ S.NodeFor m.ident m ∧ S.compiled m = some (h, infos) ∧ i ∈ infos) := by
  cases h with
  | inScript h1 h2 h3 => exact .inl ⟨_, _, _, rfl, h1, h2, h3⟩
  | inModule h1 h2 h3 h4 => exact .inr (.inl ⟨_, h2.ident.symm ▸ ⟨_, h1⟩, h2.ident.symm ▸ h2, h3, h4⟩)
  | inCompiled h1 h2 h3 h4 => exact .inr (.inr ⟨_, _, h2.ident.symm ▸ ⟨_, h1⟩, h2.ident.symm ▸ h2, h3, h4⟩)

theorem Spec.Setup.Needs.notMissing (hT : S.Tame) {m : Node} {i : ImportInfo} (h : S.Needs (.statement m i)) :
    m.isMissing = false := by
  rcases h.place with ⟨_, _, _, rfl, _⟩ | ⟨_, _, _, h3, _⟩ | ⟨_, _, h1, h2, h3, _⟩
  · rfl
  · have := hT.loaded _ _ _ h3
    unfold Node.isLoaded Node.isModule Node.isPackage Node.isNamespacePkg at this
    unfold Node.isMissing
    cases hk : m.kind <;> simp_all
  · have := (hT.compiledNode _ m h1 h2 (by simp [h3])).1
    unfold Node.isExtension Node.isPackage at this
    unfold Node.isMissing
    cases hk : m.kind <;> simp_all

/-- A name that is no submodule leads to its package only. -/
theorem Spec.Setup.HasEdge.ofName (hT : S.Tame) {a c : Node} {i nm b d} (hf : S.FromImport a i c nm)
    (hp : c.isPackage = true ∨ c.isNamespacePkg = true) (hs : ¬ S.IsSubmodule c nm.name)
    (he : S.HasEdge (c.ident ++ '.' :: nm.name) b d) : b = c.ident := by
  have hplain := hT.plain a i nm hf.1 hf.2.2.1
  have hx := hf.tried hp
  have hstat : ∀ {m : Node} {i}, S.Needs (.statement m i) → m.ident = c.ident ++ '.' :: nm.name → False := by
    intro m i h hm
    rcases h.place with ⟨path, _, file, rfl, h2, _⟩ | ⟨_, _, h2, h3, _⟩ | ⟨_, _, _, h2, h3, _⟩
    · have hm : path = _ := hm
      exact (hT.scriptName _ h2).1 ⟨_, hm ▸ hx⟩
    · exact hs (.inl ⟨m, hm ▸ h2, h.notMissing hT⟩)
    · exact hs (.inl ⟨m, hm ▸ h2, h.notMissing hT⟩)
  have hfound : ∀ {n : Node}, S.NodeFor (c.ident ++ '.' :: nm.name) n → n.isMissing = true := by
    intro n hn
    cases hm : n.isMissing with
    | true => rfl
    | false => exact absurd (.inl ⟨n, hn, hm⟩) hs
  generalize hxe : c.ident ++ '.' :: nm.name = x at he
  cases he with
  | statement h _ => exact (hstat h hxe.symm).elim
  | invalid h _ => exact (hstat h hxe.symm).elim
  | distribution h _ => exact absurd ⟨_, hxe ▸ hx⟩ (hT.distName _ h).1
  | package _ h => exact h.unique (hxe ▸ HasPackage.name hplain)
  | packageOfFound _ _ _ h => exact h.unique (hxe ▸ HasPackage.name hplain)
  | alias _ h1 h2 =>
    have := hfound (hxe ▸ h1)
    unfold Node.isMissing at this
    rcases h2 with h2 | h2 <;> rw [h2] at this <;> cases this
  | implied h1 h2 h3 _ =>
    obtain ⟨tr, h1⟩ := h1
    refine absurd ?_ (hT.notBoth a i c nm hf hp hs)
    rw [hxe]
    cases tr with
    | false => exact h1
    | true => exact .implying h1 h2 h3
  | explicitNamespace _ h1 h2 =>
    have := hfound (hxe ▸ h1)
    unfold Node.isMissing at this
    rw [h2] at this; cases this
  | fromName h _ _ => exact (hstat h.1 hxe.symm).elim
  | @fromPackage m' i' c' nm' h _ _ =>
    have hpl' := hT.plain _ _ _ h.1 h.2.2.1
    exact HasPackage.unique (HasPackage.name hpl') (hxe ▸ HasPackage.name hplain)
  | passedOn h _ _ _ _ => exact (hstat h.1 hxe.symm).elim
  | sixMoves h _ => exact (hstat h.1 hxe.symm).elim
  | helper h4 h5 h2 =>
    have h3 := (hT.compiledNode _ _ h4 h5 (by simp [h2])).1
    have := hfound (hxe ▸ h5)
    unfold Node.isExtension Node.isPackage at h3
    unfold Node.isMissing at this
    split at this <;> simp_all

/-- What is imported from a package is behind the importing module. -/
theorem Spec.Setup.FromImport.leads (hT : S.Tame) {a c : Node} {i nm z} (hf : S.FromImport a i c nm)
    (hp : c.isPackage = true ∨ c.isNamespacePkg = true)
    (hz : S.Leads (c.ident ++ '.' :: nm.name) z) (hne : z = c.ident ++ '.' :: nm.name → S.IsSubmodule c nm.name) :
    S.Leads a.ident z := by
  by_cases hs : S.IsSubmodule c nm.name
  · exact (Setup.Leads.on .here (.fromName hf hp hs)).trans hz
  · have hc : S.Leads a.ident c.ident := by
      obtain ⟨h1, h2, h3, t, b, h4, h5, h6⟩ := hf
      have ht : S.Leads a.ident t := .on .here (.statement h1 h4)
      rcases h6 with ⟨rfl, _⟩ | ⟨h6, h7⟩
      · rw [h5.ident]; exact ht
      · exact .on ht (.alias ⟨_, .target h1 h4⟩ h5 (.inl h6))
    have key : ∀ z, S.Leads (c.ident ++ '.' :: nm.name) z →
        z = c.ident ++ '.' :: nm.name ∨ S.Leads c.ident z := by
      intro z hz
      induction hz with
      | here => exact .inl rfl
      | on _ he ih =>
        rcases ih with rfl | ih
        · rw [he.ofName hT hf hp hs]
          exact .inr .here
        · exact .inr (.on ih he)
    rcases key z hz with h | h
    · exact absurd (hne h) hs
    · exact hc.trans h

end

section
variable {S : Setup} {env : Env W}

theorem XCore.lazyOk {s : St W} (h : XCore S s) : LazyOk S s := fun _ _ hv => h.conf hv

theorem XItem.owner {s : St W} {it : Item} (h : XItem S s it) {z} (hz : it.owner = some z) :
    ∃ m ∈ s.nodes, m.ident = z ∧ ∃ j, S.Needs (.statement m j) := by
  cases it with
  | imp m j => cases hz; exact ⟨m, h.1, rfl, j, h.2⟩
  | nl a b j => cases hz; exact ⟨a, h.1, rfl, j, h.2.2.1⟩
  | pp _ => cases hz
  | pkg _ _ => cases hz

theorem leads_of_path {s s' : St W} (h : XCore S s') (hE : ∀ e ∈ s.edges, e ∈ s'.edges) {a b : Str}
    (hp : Path s.edges a b) : S.Leads a b := by
  induction hp with
  | refl => exact .here
  | step _ he ih => exact .on ih (h.edges _ _ _ (hE _ he))

/-- What loading `x` puts on the queue. -/
structure LoadNew (S : Setup) (x r : Str) (s s' : St W) (rest : List Item) : Prop where
  stack : s'.stack = s.stack ++ rest
  nodes : ∀ n ∈ s.nodes, n ∈ s'.nodes
  edges : ∀ e ∈ s.edges, e ∈ s'.edges
  sched : ∀ n infos, Event.scheduled n infos ∈ s'.log → Event.scheduled n infos ∈ s.log ∨
    ∀ j ∈ infos, ∃ Y : Node, Y.ident = n ∧ Item.imp Y j ∈ rest
  owners : ∀ Z ∈ rest, ∀ z, Z.owner = some z → S.Draws x z ∧ Path s'.edges r z
  order : rest.Pairwise (OverItem S)
  inside : (∀ p, HasPackage x p → s.has p = true) → ∀ Z ∈ rest, ∀ z, Z.owner = some z → S.DrawsIn x z

theorem load_new (hT : S.Tame) (hD : S.Describes env) (hM : ∀ k i n, (env.userMissing k i n).Passive)
    (n : Nat) {x : Str} {i : Option Node} {lm : Bool} {s s' : St W} {r : Node} (hx : S.NeedsModule x)
    (hs : XCore S s) (hr : (calls env n).findOrLoad i x lm s = (.ok r, s'))
    (hlm : lm = true ∨ ∀ p, HasPackage x p → s.has p = true) :
    ∃ rest, LoadNew S x r.ident s s' rest := by
  obtain ⟨rest, h1, h2, h3, hin⟩ := load_over hT hD hM n hx hs.lazyOk hr
  have hL := (calls_load pushes_rel env hM n).findOrLoad i x lm s
  rw [hr] at hL
  obtain ⟨rest', l, hP⟩ := hL
  have : rest' = rest := List.append_cancel_left (hP.stack.symm.trans h1)
  subst this
  have hH : Held s [r.ident] s' := by
    cases lm with
    | true => exact (calls_br hM n).findOrLoad [] i x s s r s' (.refl s) hr
    | false =>
      refine findOrLoad_try hM n hr fun pkg b hsp => .inl ?_
      have := (hlm.resolve_left (by simp)) pkg (hasPackage_of_split (hT.noDot x hx) hsp)
      obtain ⟨q, hq, he⟩ := Has_of_has this
      cases hf : s.find pkg with
      | some p => exact ⟨p, rfl⟩
      | none => rw [find_none hf] at this; cases this
  refine ⟨rest', h1, hH.old, hH.edges, ?_, ?_, h3, hin⟩
  · intro n infos hev
    rw [hP.log] at hev
    rcases List.mem_append.mp hev with hev | hev
    · exact .inl hev
    · exact .inr (hP.pushed n infos hev)
  · intro Z hZ z hz
    obtain ⟨h4, h5⟩ := h2 Z hZ z hz
    refine ⟨h4, ?_⟩
    have hnew : ∀ m ∈ s.nodes, m.ident ≠ z := by
      intro m hm he
      rw [has_of_Has ⟨m, hm, he⟩] at h5; cases h5
    have hk : s'.has z = true := by
      rcases hH.items Z (by rw [h1]; exact List.mem_append_right _ hZ) with h6 | h6
      · obtain ⟨m, hm, he, _⟩ := (hs.items Z (.inl (by simp [pending, h6]))).owner hz
        exact absurd he (hnew m hm)
      · cases Z with
        | imp m j => cases hz; exact h6
        | nl a b j => cases hz; exact h6.1
        | pp _ => cases hz
        | pkg _ _ => cases hz
    obtain ⟨q, hq, he⟩ := Has_of_has hk
    rcases hH.nodes q hq with h6 | ⟨h, h6, h7⟩
    · exact absurd he (hnew q h6)
    · rw [List.mem_singleton.mp h6] at h7
      exact he ▸ h7

/-! ## What one item of the queue does -/

/-- `Y` may wait while `Z` is processed. -/
def Below (S : Setup) (Y Z : Item) : Prop := ∀ c z, Y.owner = some c → Z.owner = some z → S.Behind c z

theorem OverItem.below {Y Z : Item} (h : OverItem S Y Z) : Below S Y Z :=
  fun c z h1 h2 => .inl ⟨z, h c z h1 h2, .here⟩

/-- The statement `j` of the module `id` is not finished. -/
def Waits (s : St W) (id : Str) (j : ImportInfo) : Prop :=
  (∃ Y : Node, Y.ident = id ∧ Item.imp Y j ∈ s.stack) ∨
  ∃ Y b : Node, Y.ident = id ∧ Item.nl Y b j ∈ s.stack ∧
    (id, b.ident, fromImportInfo j false j.importModule.asname) ∈ s.edges

/-- The statement `j` of the module `id` has its edges. -/
def DoneSt (S : Setup) (s : St W) (id : Str) (j : ImportInfo) : Prop :=
  ∃ m ∈ s.nodes, m.ident = id ∧ ∀ b d, S.ByStatement m j b d → (id, b, d) ∈ s.edges

/-- The module `id` puts `new` on the queue. -/
structure Moved (S : Setup) (id : Option Str) (s s' : St W) (new : List Item) : Prop where
  stack : s'.stack = s.stack ++ new
  nodes : ∀ n ∈ s.nodes, n ∈ s'.nodes
  edges : ∀ e ∈ s.edges, e ∈ s'.edges
  sched : ∀ n infos, Event.scheduled n infos ∈ s'.log → Event.scheduled n infos ∈ s.log ∨
    ∀ j ∈ infos, ∃ Y : Node, Y.ident = n ∧ Item.imp Y j ∈ new
  owners : ∀ Z ∈ new, ∀ z, Z.owner = some z → ∃ a, id = some a ∧ S.Leads a z
  order : new.Pairwise (Below S)

theorem pairwise_own {id : Str} {l : List Item} (h : ∀ Z ∈ l, ∀ z, Z.owner = some z → z = id) :
    l.Pairwise (Below S) := by
  induction l with
  | nil => exact .nil
  | cons Y l ih =>
    refine .cons (fun Z hZ c z hc hz => ?_) (ih fun Z hZ => h Z (List.mem_cons_of_mem _ hZ))
    rw [h Y (List.mem_cons_self ..) c hc, h Z (List.mem_cons_of_mem _ hZ) z hz]
    exact .self id

theorem schedule_puts (s : St W) (n : Node) (l : List ImportInfo) :
    ∃ pre, (∀ Z ∈ pre, Z.owner = none) ∧ (s.schedule n l).stack = s.stack ++ (pre ++ l.map (.imp n)) := by
  unfold St.schedule
  simp only []
  split
  · exact ⟨[], by simp, by simp⟩
  · exact ⟨[.pp n], by simp [Item.owner], by simp⟩

/-- What is put on the queue for a module. -/
theorem schedule_moved {s : St W} {n : Node} {l : List ImportInfo} :
    ∃ new, Moved S (some n.ident) s (s.schedule n l) new ∧
      (l = [] → ∀ Z ∈ new, Z.owner = none) := by
  obtain ⟨pre, h1, h2⟩ := schedule_puts s n l
  have hown : ∀ Z ∈ pre ++ l.map (Item.imp n), ∀ z, Z.owner = some z → z = n.ident := by
    intro Z hZ z hz
    rcases List.mem_append.mp hZ with h | h
    · rw [h1 Z h] at hz; cases hz
    · obtain ⟨j, _, rfl⟩ := List.mem_map.mp h
      cases hz; rfl
  refine ⟨_, ⟨h2, ?_, ?_, ?_, ?_, ?_⟩, ?_⟩
  · intro m hm; rw [schedule_nodes]; exact hm
  · intro e he; rw [schedule_edges]; exact he
  · intro m infos hev
    rw [log_schedule] at hev
    rcases List.mem_append.mp hev with h | h
    · exact .inl h
    · simp only [List.mem_singleton, Event.scheduled.injEq] at h
      obtain ⟨rfl, rfl⟩ := h
      exact .inr fun j hj => ⟨n, rfl, List.mem_append_right _ (List.mem_map_of_mem hj)⟩
  · intro Z hZ z hz
    exact ⟨_, rfl, hown Z hZ z hz ▸ .here⟩
  · exact pairwise_own hown
  · intro hl Z hZ
    subst hl
    simp at hZ
    exact h1 Z hZ

theorem imp_step (hT : S.Tame) (hD : S.Describes env) (hM : ∀ k i n, (env.userMissing k i n).Passive)
    {k : Nat} {m : Node} {i : ImportInfo} {s s' : St W} (hs : XCore S s) (hs' : XCore S s')
    (hst : Event.started (.imp m i) ∈ s.log)
    (h : runItem env (calls env k) (.imp m i) s = (.ok (), s')) :
    ∃ new, Moved S (some m.ident) s s' new ∧ (Waits s' m.ident i ∨ DoneSt S s' m.ident i) := by
  obtain ⟨hm, hneed⟩ := hs.items _ (.inr hst)
  have hord := h
  change processImport (calls env k) m i s = _ at h
  unfold processImport at h
  obtain ⟨a, sa, ha, g1⟩ := M.bind_ok h
  clear h
  obtain ⟨habs, rfl⟩ := M.ofExcept_ok ha
  cases a with
  | none =>
    have hout := outside_of_absoluteName habs
    simp only [] at g1
    obtain ⟨r, sb, hb, g2⟩ := M.bind_ok g1
    clear g1
    obtain ⟨rfl, hr, _⟩ := M.findModule_ok hb
    obtain ⟨node, sc, hc, g3⟩ := M.bind_ok g2
    clear g2
    obtain ⟨_, se, he, g4⟩ := M.bind_ok g3
    clear g3
    obtain ⟨_, _, rfl⟩ := M.addEdge_ok he
    cases g4
    have key : ∃ new, Moved S (some m.ident) sb sc new := by
      cases r with
      | none =>
        simp only [] at hc
        obtain ⟨_, sd, hd, hc⟩ := M.bind_ok hc
        obtain ⟨_, rfl⟩ := M.addNode_ok hd
        rw [M.bind_schedule] at hc
        obtain ⟨rfl, rfl⟩ := M.pure_ok hc
        obtain ⟨new, hN, hno⟩ := schedule_moved (S := S) (s := sb.addNode (invalidRelNode
          (List.replicate i.importLevel '.' ++ i.importModule.name))) (n := invalidRelNode
          (List.replicate i.importLevel '.' ++ i.importModule.name)) (l := [])
        refine ⟨new, hN.stack, fun n hn => hN.nodes n (by simp [St.addNode, hn]), hN.edges, hN.sched, ?_, hN.order⟩
        intro Z hZ z hz
        rw [hno rfl Z hZ] at hz; cases hz
      | some n =>
        simp only [] at hc
        obtain ⟨_, sd, hd, hc'⟩ := M.bind_ok hc
        obtain ⟨h1, rfl⟩ := M.assert_ok hd
        obtain ⟨rfl, rfl⟩ := M.pure_ok hc'
        exact ⟨[], by simp, fun _ h => h, fun _ h => h, fun _ _ h => .inl h, by simp, .nil⟩
    obtain ⟨new, hN⟩ := key
    refine ⟨new, ⟨?_, ?_, ?_, ?_, hN.owners, hN.order⟩, .inr ⟨m, ?_, rfl, ?_⟩⟩
    · show (St.addEdge ..).stack = _; rw [addEdge_stack, hN.stack]
    · intro n hn; show _ ∈ (St.addEdge ..).nodes; rw [addEdge_nodes]; exact hN.nodes n hn
    · intro e he; exact (mem_addEdge ..).mpr (.inl (hN.edges e he))
    · intro n infos hev
      have hev : _ ∈ (St.addEdge ..).log ++ _ := hev
      rw [log_addEdge] at hev
      exact hN.sched n infos (by simpa using hev)
    · show _ ∈ (St.addEdge ..).nodes; rw [addEdge_nodes]; exact hN.nodes m hm
    · intro b d hby
      cases hby with
      | target hr => exact absurd hout hr.inside
      | submodule hf => obtain ⟨_, _, _, t, _, hr, _⟩ := hf; exact absurd hout hr.inside
      | sixMoves hf => obtain ⟨_, _, _, t, _, hr, _⟩ := hf; exact absurd hout hr.inside
      | passedOn hf => obtain ⟨_, _, _, t, _, hr, _⟩ := hf; exact absurd hout hr.inside
  | some name =>
    have hr := refers_of_absoluteName habs
    simp only [] at g1
    rw [M.bind_get] at g1
    obtain ⟨node, sb, hb, g2⟩ := M.bind_ok g1
    clear g1
    obtain ⟨_, se, he, g3⟩ := M.bind_ok g2
    clear g2
    obtain ⟨_, _, rfl⟩ := M.addEdge_ok he
    cases g3
    obtain ⟨hid, hn, hL⟩ := Props.find_sub hM (.inl rfl) hb
    obtain ⟨rest, hN⟩ := load_new hT hD hM k ⟨_, .target hneed hr⟩ hs hb (.inl rfl)
    have hedge : S.HasEdge m.ident node.ident (fromImportInfo i false i.importModule.asname) :=
      hs'.edges _ _ _ ((mem_addEdge ..).mpr (.inr rfl))
    have hleads : ∀ Z ∈ rest, ∀ z, Z.owner = some z → S.Leads m.ident z := by
      intro Z hZ z hz
      refine (Setup.Leads.on .here hedge).trans
        (leads_of_path hs' (fun e he => (mem_addEdge ..).mpr (.inl he)) (hN.owners Z hZ z hz).2)
    have hstack : (sb.addEdge m.ident node.ident (fromImportInfo i false i.importModule.asname)).stack.take sa.stack.length
        ++ [.nl m node i] ++ (sb.addEdge m.ident node.ident (fromImportInfo i false i.importModule.asname)).stack.drop
          sa.stack.length = sa.stack ++ .nl m node i :: rest := by
      rw [addEdge_stack, hN.stack]; simp
    refine ⟨.nl m node i :: rest, ⟨hstack, ?_, ?_, ?_, ?_, ?_⟩, .inl (.inr ⟨m, node, rfl, ?_, ?_⟩)⟩
    · intro n hn; show _ ∈ (St.addEdge ..).nodes; rw [addEdge_nodes]; exact hN.nodes n hn
    · intro e he; exact (mem_addEdge ..).mpr (.inl (hN.edges e he))
    · intro n infos hev
      have hev : _ ∈ (St.addEdge ..).log ++ _ := hev
      rw [log_addEdge] at hev
      refine (hN.sched n infos (by simpa using hev)).imp id fun h j hj => ?_
      obtain ⟨Y, h1, h2⟩ := h j hj
      exact ⟨Y, h1, List.mem_cons_of_mem _ h2⟩
    · intro Z hZ z hz
      refine ⟨_, rfl, ?_⟩
      rcases List.mem_cons.mp hZ with rfl | hZ
      · cases hz; exact .here
      · exact hleads Z hZ z hz
    · refine .cons (fun Z hZ c z hc hz => ?_) (hN.order.imp OverItem.below)
      cases hc
      exact .inl ⟨_, .self, hleads Z hZ z hz⟩
    · show _ ∈ List.take _ _ ++ _ ++ _
      rw [hstack]; simp
    · exact (mem_addEdge ..).mpr (.inr rfl)

/-- One name of a `from` import from a package: a submodule is looked for, or not; the name may be sent
elsewhere. -/
theorem name_cases {rec : Calls W} {a c : Node} {i : ImportInfo} {nm : ImpName} {s s' : St W}
    (hm : c.isModule = false)
    (h : processName env rec a c i nm s = (.ok (), s')) :
    ∃ s1 s2, (s1 = s ∨ ∃ r, rec.findOrLoad (some a) (c.ident ++ '.' :: nm.name) false s = (.ok r, s1)) ∧
      (s2 = s1 ∨ ∃ sub t r, rec.findOrLoad (some a) (c.ident ++ '.' :: nm.name) false s = (.ok sub, s1) ∧
        sub.isMissing = true ∧ SixMoves c ∧ sixMove nm.name = some t ∧
        rec.findOrLoad (some a) t true s1 = (.ok r, s2)) ∧
      s'.stack = s2.stack ∧ s'.nodes = s2.nodes ∧ s'.log = s2.log ∧ ∀ e ∈ s2.edges, e ∈ s'.edges := by
  have hsub : ∀ s', (M.bind (rec.findOrLoad (some a) (c.ident ++ '.' :: nm.name) false)
      fun sub => M.bind M.get fun s =>
      let link : M W Unit :=
        M.bind (M.addEdge sub.ident c.ident defaultDep) fun _ =>
        M.addEdge a.ident sub.ident (fromImportInfo i true nm.asname)
      if sub.isMissing then
        match c.kind with
        | .package _ init _ _ _ =>
          if init.name = c!"@@SIX_MOVES@@" then
            match sixMove nm.name with
            | some target =>
              M.bind (rec.findOrLoad (some a) target true) fun depNode =>
              M.addEdge a.ident depNode.ident defaultDep
            | none => link
          else if (s.globalsWritten c).contains nm.name then M.pure ()
          else link
        | _ => link
      else link) s = (.ok (), s') →
      ∃ s1 s2, (s1 = s ∨ ∃ r, rec.findOrLoad (some a) (c.ident ++ '.' :: nm.name) false s = (.ok r, s1)) ∧
      (s2 = s1 ∨ ∃ sub t r, rec.findOrLoad (some a) (c.ident ++ '.' :: nm.name) false s = (.ok sub, s1) ∧
        sub.isMissing = true ∧ SixMoves c ∧ sixMove nm.name = some t ∧
        rec.findOrLoad (some a) t true s1 = (.ok r, s2)) ∧
      s'.stack = s2.stack ∧ s'.nodes = s2.nodes ∧ s'.log = s2.log ∧ ∀ e ∈ s2.edges, e ∈ s'.edges := by
    intro s' h
    obtain ⟨r, s1, h1, h⟩ := M.bind_ok h
    rw [M.bind_get] at h
    have hlink : (M.bind (M.addEdge r.ident c.ident defaultDep) fun _ =>
        M.addEdge a.ident r.ident (fromImportInfo i true nm.asname)) s1 = (.ok (), s') →
        s'.stack = s1.stack ∧ s'.nodes = s1.nodes ∧ s'.log = s1.log ∧ ∀ e ∈ s1.edges, e ∈ s'.edges := by
      intro h
      obtain ⟨_, s2, h2, h3⟩ := M.bind_ok h
      obtain ⟨_, _, rfl⟩ := M.addEdge_ok h2
      obtain ⟨_, _, rfl⟩ := M.addEdge_ok h3
      refine ⟨by rw [addEdge_stack, addEdge_stack], by rw [addEdge_nodes, addEdge_nodes],
        by rw [log_addEdge, log_addEdge], fun e he => (mem_addEdge ..).mpr (.inl ((mem_addEdge ..).mpr (.inl he)))⟩
    split at h
    · rename_i hmiss
      cases hk : c.kind with
      | package fr init sp hd ns =>
        rw [hk] at h
        simp only [] at h
        split at h
        · rename_i hsix
          cases hv : sixMove nm.name with
          | none =>
            rw [hv] at h
            exact ⟨s1, s1, .inr ⟨r, h1⟩, .inl rfl, hlink h⟩
          | some t =>
            rw [hv] at h
            obtain ⟨r2, s2, h2, h⟩ := M.bind_ok h
            obtain ⟨_, _, rfl⟩ := M.addEdge_ok h
            exact ⟨s1, s2, .inr ⟨r, h1⟩, .inr ⟨r, t, r2, h1, hmiss, ⟨fr, init, sp, hd, ns, hk, hsix⟩, rfl, h2⟩,
              addEdge_stack .., addEdge_nodes .., log_addEdge .., fun e he => (mem_addEdge ..).mpr (.inl he)⟩
        · split at h
          · obtain ⟨_, rfl⟩ := M.pure_ok h
            exact ⟨_, _, .inr ⟨r, h1⟩, .inl rfl, rfl, rfl, rfl, fun _ h => h⟩
          · exact ⟨s1, s1, .inr ⟨r, h1⟩, .inl rfl, hlink h⟩
      | _ => rw [hk] at h; exact ⟨s1, s1, .inr ⟨r, h1⟩, .inl rfl, hlink h⟩
    · exact ⟨s1, s1, .inr ⟨r, h1⟩, .inl rfl, hlink h⟩
  unfold processName at h
  rw [M.bind_get] at h
  simp only [] at h
  rw [hm] at h
  split at h
  · cases hr : reexported env s c nm.name with
    | some t =>
      rw [hr] at h
      obtain ⟨_, _, rfl⟩ := M.addEdge_ok h
      exact ⟨s, s, .inl rfl, .inl rfl, addEdge_stack .., addEdge_nodes .., log_addEdge ..,
        fun e he => (mem_addEdge ..).mpr (.inl he)⟩
    | none =>
      rw [hr] at h
      exact hsub s' h
  · exact hsub s' h

theorem package_notModule {c : Node} (hp : c.isPackage = true ∨ c.isNamespacePkg = true) : c.isModule = false := by
  unfold Node.isPackage Node.isNamespacePkg at hp
  unfold Node.isModule
  cases hk : c.kind <;> simp_all

theorem module_notNamespace {c : Node} (hm : c.isModule = true) : c.isNamespacePkg = false := by
  unfold Node.isModule at hm; unfold Node.isNamespacePkg
  cases hk : c.kind <;> simp_all

theorem IsSixMoves.package {c : Node} (h : IsSixMoves c) : c.isPackage = true := by
  obtain ⟨_, _, _, _, _, h, _⟩ := h
  simp [Node.isPackage, h]

/-- What one name of a `from` import from a package puts on the queue. -/
structure NameNew (S : Setup) (a c : Node) (nm : Str) (s s' : St W) (rest : List Item) : Prop where
  stack : s'.stack = s.stack ++ rest
  nodes : ∀ n ∈ s.nodes, n ∈ s'.nodes
  edges : ∀ e ∈ s.edges, e ∈ s'.edges
  sched : ∀ n infos, Event.scheduled n infos ∈ s'.log → Event.scheduled n infos ∈ s.log ∨
    ∀ j ∈ infos, ∃ Y : Node, Y.ident = n ∧ Item.imp Y j ∈ rest
  leads : ∀ Z ∈ rest, ∀ z, Z.owner = some z → S.Leads a.ident z
  draws : ∀ Z ∈ rest, ∀ z, Z.owner = some z → S.DrawsFrom c nm z
  order : rest.Pairwise (OverItem S)

theorem name_step (hO : env.OrderExact) (hT : S.Tame) (hD : S.Describes env)
    (hP : ∀ k n, (env.userPost k n).Only S.Asks)
    (hM : ∀ k i n, (env.userMissing k i n).Passive) (k : Nat) {a b c : Node} {i : ImportInfo} {nm : ImpName}
    (hp : c.isPackage = true ∨ c.isNamespacePkg = true) (hstar : i.starImport = false)
    (hnm : nm ∈ i.importNames) {s s' : St W} (hs : XCore S s)
    (hst : Event.started (.nl a b i) ∈ s.log) (hc : NlTarget s b c)
    (h : processName env (calls env k) a c i nm s = (.ok (), s')) :
    XCore S s' ∧ Later s s' ∧ ∃ rest, NameNew S a c nm.name s s' rest := by
  have hC := exactCtx env hO hT hD
  have hR := calls_rctx hC (fun k n => S.may (hP k n)) hM k
  obtain ⟨hf, hcm⟩ := hs.fromImport hT hst hc hstar hnm
  have hx := processName_ctx hC hR (nm := nm) ⟨hs, by simp⟩ hst hc hstar (hp.imp id .inl) hnm
  unfold Ret at hx
  rw [h] at hx
  obtain ⟨⟨hs', _⟩, hlat, _⟩ := hx
  refine ⟨hs', hlat, ?_⟩
  obtain ⟨s1, s2, h3, h3', h4, h5, h6, h7⟩ := name_cases (package_notModule hp) h
  have hthere : ∀ p, HasPackage (c.ident ++ '.' :: nm.name) p → s.has p = true := fun p hpk => by
    rw [hpk.unique (HasPackage.name (hT.plain a i nm hf.1 hnm))]
    exact has_of_Has ⟨c, hcm, rfl⟩
  have htried : Tried s.nodes s.log (c.ident ++ '.' :: nm.name) := by
    refine ⟨a, b, c, i, nm, hst, hstar, hnm, ?_, hp, rfl⟩
    exact hc.imp (fun h => h.1) id
  have key : ∃ rest, LoadNew S (c.ident ++ '.' :: nm.name) (c.ident ++ '.' :: nm.name) s s1 rest := by
    rcases h3 with rfl | ⟨r, h3⟩
    · exact ⟨[], by simp, fun _ h => h, fun _ h => h, fun _ _ h => .inl h, by simp, .nil, by simp⟩
    · have hr : r.ident = c.ident ++ '.' :: nm.name := (Props.find_sub hM (.inr htried) h3).1
      rw [← hr] at h3 ⊢
      exact load_new hT hD hM k (hr ▸ ⟨_, hf.tried hp⟩) hs h3 (.inr (hr ▸ hthere))
  obtain ⟨rest, hL⟩ := key
  have key2 : ∃ rest2, s2.stack = s1.stack ++ rest2 ∧ (∀ n ∈ s1.nodes, n ∈ s2.nodes) ∧
      (∀ e ∈ s1.edges, e ∈ s2.edges) ∧
      (∀ n infos, Event.scheduled n infos ∈ s2.log → Event.scheduled n infos ∈ s1.log ∨
        ∀ j ∈ infos, ∃ Y : Node, Y.ident = n ∧ Item.imp Y j ∈ rest2) ∧
      (∀ Z ∈ rest2, ∀ z, Z.owner = some z → S.Leads a.ident z ∧ S.DrawsFrom c nm.name z) ∧
      rest2.Pairwise (OverItem S) := by
    rcases h3' with rfl | ⟨sub, t, r, g1, g2, g3, g4, g5⟩
    · exact ⟨[], by simp, fun _ h => h, fun _ h => h, fun _ _ h => .inl h, by simp, .nil⟩
    · have hw := hR.findOrLoad (some a) (c.ident ++ '.' :: nm.name) false [] s ⟨hs, by simp⟩ (.inr htried)
        (hf.tried hp)
      unfold Ret at hw
      rw [g1] at hw
      obtain ⟨⟨hs1, _⟩, hl1, g6, g7⟩ := hw
      have hsent : S.Sent c nm.name t := hs1.sent hT hf g3 g4 ⟨sub, g7, g6, g2⟩
      have hneed : S.Needs (.module t false) := by
        obtain ⟨k1, k2, k3, t', b', k4, k5, k6⟩ := hf
        exact .sixMoves k1 k4 k5 k6 k2 k3 hsent
      have hr : r.ident = t := (Props.find_sub hM (.inl rfl) g5).1
      obtain ⟨rest2, hN⟩ := load_new hT hD hM k ⟨_, hneed⟩ hs1 g5 (.inl rfl)
      refine ⟨rest2, hN.stack, hN.nodes, hN.edges, hN.sched, ?_, hN.order⟩
      intro Z hZ z hz
      obtain ⟨k1, k2⟩ := hN.owners Z hZ z hz
      refine ⟨(Setup.Leads.on .here (.sixMoves hf hsent)).trans ?_, .inr ⟨t, hsent, k1⟩⟩
      rw [← hr]
      exact leads_of_path hs' h7 k2
  obtain ⟨rest2, q1, q2, q3, q4, q5, q6⟩ := key2
  have hst' : s'.stack = s.stack ++ (rest ++ rest2) := by
    rw [h4, q1, hL.stack, List.append_assoc]
  have hlead : ∀ Z ∈ rest, ∀ z, Z.owner = some z → S.Leads a.ident z := by
    intro Z hZ z hz
    refine hf.leads hT hp (leads_of_path hs' (fun e he => h7 e (q3 e he)) (hL.owners Z hZ z hz).2)
      fun he => .inl ?_
    obtain ⟨m, hm, hmi, j, hj⟩ := (hs'.items Z (.inl (by
      simp [pending, hst', hZ]))).owner hz
    refine ⟨m, ?_, hj.notMissing hT⟩
    rw [← he, ← hmi]
    exact hs'.node hT hm ⟨_, (hmi.trans he) ▸ hf.tried hp⟩
  refine ⟨rest ++ rest2, hst', ?_, ?_, ?_, ?_, ?_, ?_⟩
  · intro n hn; exact h5 ▸ q2 n (hL.nodes n hn)
  · intro e he; exact h7 e (q3 e (hL.edges e he))
  · intro n infos hev
    rw [h6] at hev
    rcases q4 n infos hev with h8 | h8
    · refine (hL.sched n infos h8).imp id fun h j hj => ?_
      obtain ⟨Y, h9, h10⟩ := h j hj
      exact ⟨Y, h9, List.mem_append_left _ h10⟩
    · refine .inr fun j hj => ?_
      obtain ⟨Y, h9, h10⟩ := h8 j hj
      exact ⟨Y, h9, List.mem_append_right _ h10⟩
  · intro Z hZ z hz
    rcases List.mem_append.mp hZ with hZ | hZ
    · exact hlead Z hZ z hz
    · exact (q5 Z hZ z hz).1
  · intro Z hZ z hz
    rcases List.mem_append.mp hZ with hZ | hZ
    · exact .inl (hL.inside hthere Z hZ z hz)
    · exact (q5 Z hZ z hz).2
  · refine List.pairwise_append.mpr ⟨hL.order, q6, ?_⟩
    intro Y hY Z hZ y z hy hz
    exact .names hf hf hp (.inl (hL.inside hthere Y hY y hy)) (q5 Z hZ z hz).2

/-- The names of a `from` import from a package. -/
theorem names_step (hO : env.OrderExact) (hT : S.Tame) (hD : S.Describes env)
    (hP : ∀ k n, (env.userPost k n).Only S.Asks)
    (hM : ∀ k i n, (env.userMissing k i n).Passive) (k : Nat) {a b c : Node} {i : ImportInfo}
    (hp : c.isPackage = true ∨ c.isNamespacePkg = true) (hstar : i.starImport = false)
    (l : List ImpName) (hl : ∀ nm ∈ l, nm ∈ i.importNames) {s s' : St W} (hs : XCore S s)
    (hst : Event.started (.nl a b i) ∈ s.log) (hc : NlTarget s b c)
    (h : M.forEach l (fun nm => processName env (calls env k) a c i nm) s = (.ok (), s')) :
    XCore S s' ∧ ∃ new, Moved S (some a.ident) s s' new ∧
      (∀ Z ∈ new, ∀ z, Z.owner = some z → ∃ nm ∈ l, S.DrawsFrom c nm.name z) ∧
      new.Pairwise (OverItem S) := by
  induction l generalizing s with
  | nil =>
    obtain ⟨_, rfl⟩ := M.pure_ok h
    exact ⟨hs, [], ⟨by simp, fun _ h => h, fun _ h => h, fun _ _ h => .inl h, by simp, .nil⟩, by simp, .nil⟩
  | cons nm l ih =>
    obtain ⟨_, s1, h1, h2⟩ := M.bind_ok h
    replace h1 : processName env (calls env k) a c i nm s = (.ok _, s1) := h1
    have hnm := hl nm (List.mem_cons_self ..)
    obtain ⟨hf, hcm⟩ := hs.fromImport hT hst hc hstar hnm
    obtain ⟨hs1, hlat, rest, hL⟩ := name_step hO hT hD hP hM k hp hstar hnm hs hst hc h1
    obtain ⟨hs', new, hN, hB, hW⟩ := ih (fun nm h => hl nm (List.mem_cons_of_mem _ h)) hs1 (hlat.ev hst)
      (hc.imp id fun h => ⟨h.1, hlat.node h.2⟩) h2
    have hst' : s'.stack = s.stack ++ (rest ++ new) := by
      rw [hN.stack, hL.stack, List.append_assoc]
    have hcross : ∀ Y ∈ rest, ∀ Z ∈ new, OverItem S Y Z := by
      intro Y hY Z hZ y z hy hz
      obtain ⟨nm', h8, h9⟩ := hB Z hZ z hz
      have hnm' := hl nm' (List.mem_cons_of_mem _ h8)
      exact .names hf (hs.fromImport hT hst hc hstar hnm').1 hp (hL.draws Y hY y hy) h9
    have hpair : (rest ++ new).Pairwise (OverItem S) := List.pairwise_append.mpr ⟨hL.order, hW, hcross⟩
    refine ⟨hs', rest ++ new, ⟨hst', ?_, ?_, ?_, ?_, hpair.imp OverItem.below⟩, ?_, hpair⟩
    · intro n hn; exact hN.nodes n (hL.nodes n hn)
    · intro e he; exact hN.edges e (hL.edges e he)
    · intro n infos hev
      rcases hN.sched n infos hev with h8 | h8
      · refine (hL.sched n infos h8).imp id fun h j hj => ?_
        obtain ⟨Y, h9, h10⟩ := h j hj
        exact ⟨Y, h9, List.mem_append_left _ h10⟩
      · refine .inr fun j hj => ?_
        obtain ⟨Y, h9, h10⟩ := h8 j hj
        exact ⟨Y, h9, List.mem_append_right _ h10⟩
    · intro Z hZ z hz
      rcases List.mem_append.mp hZ with hZ | hZ
      · exact ⟨_, rfl, hL.leads Z hZ z hz⟩
      · exact hN.owners Z hZ z hz
    · intro Z hZ z hz
      rcases List.mem_append.mp hZ with hZ | hZ
      · exact ⟨nm, List.mem_cons_self .., hL.draws Z hZ z hz⟩
      · obtain ⟨nm', h8, h9⟩ := hB Z hZ z hz
        exact ⟨nm', List.mem_cons_of_mem _ h8, h9⟩

/-- Names can be imported from the module. -/
def HasNames (c : Node) : Prop := c.isPackage = true ∨ c.isNamespacePkg = true ∨ c.isModule = true

/-- A name list: there are names and a module to take them from, or nothing is done. -/
theorem nl_cases {rec : Calls W} {a b : Node} {i : ImportInfo} {s s' : St W}
    (h : runItem env rec (.nl a b i) s = (.ok (), s')) :
    (∃ c s0, Source s b c ∧ HasNames c ∧ i.starImport = false ∧ i.importNames ≠ [] ∧
      (s0 = s ∨ s0 = s.addGlobals a.ident (i.importNames.map ImpName.name)) ∧
      M.forEach i.importNames (fun nm => processName env rec a c i nm)
        (s0.addGlobals a.ident (i.importNames.map ImpName.name)) = (.ok (), s')) ∨
    ((s'.stack = s.stack ∧ s'.nodes = s.nodes ∧ s'.edges = s.edges ∧ s'.log = s.log) ∧
      (i.starImport = true ∨ i.importNames = [] ∨ (b.isAlias = false ∧ ¬ HasNames b) ∨
        ∃ q ∈ s.nodes, b.kind = .alias q.ident ∧ ¬ HasNames q)) := by
  change processNamelist env rec a b i s = _ at h
  unfold processNamelist at h
  obtain ⟨_, sa, ha, h'⟩ := M.bind_ok h
  obtain ⟨_, rfl⟩ := M.assert_ok ha
  clear h
  have h := h'
  clear h'
  split at h
  · rename_i hstar
    right
    refine ⟨?_, .inl hstar⟩
    split at h
    · cases h; exact ⟨rfl, rfl, rfl, rfl⟩
    · cases h; exact ⟨rfl, rfl, rfl, rfl⟩
  · rename_i hstar
    have hstar : i.starImport = false := by simpa using hstar
    split at h
    · rename_i hc
      simp only [Bool.and_eq_true, Bool.not_eq_true', List.isEmpty_eq_false_iff, Bool.or_eq_true] at hc
      obtain ⟨hne, hc⟩ := hc
      cases hk : b.kind with
      | alias t =>
        rw [hk] at h
        simp only [] at h
        rw [M.bind_modify] at h
        obtain ⟨f, sb, hfm, h⟩ := M.bind_ok h
        obtain ⟨rfl, hf, _⟩ := M.findModule_ok hfm
        cases f with
        | none => cases h
        | some node =>
          obtain ⟨h1, h2⟩ := find_some hf.symm
          simp only [] at h
          split at h
          · rename_i hn
            left
            refine ⟨node, _, .inr ⟨by rw [hk, h2], ?_⟩, ?_, hstar, hne, .inr rfl, ?_⟩
            · rw [h2]; exact hf.symm
            · simpa [HasNames, or_assoc] using hn
            · unfold processNames at h
              rw [M.bind_modify] at h
              exact h
          · rename_i hn
            right
            cases h
            refine ⟨⟨rfl, rfl, rfl, rfl⟩, .inr (.inr (.inr ⟨node, h1, by rw [h2], ?_⟩))⟩
            simpa [HasNames, or_assoc] using hn
      | _ =>
        rw [hk] at h
        left
        refine ⟨b, sa, .inl ⟨rfl, by simp [hk]⟩, ?_, hstar, hne, .inl rfl, ?_⟩
        · have : b.isAlias = false := by simp [Node.isAlias, hk]
          simp only [this, Bool.false_eq_true, or_false] at hc
          simpa [HasNames, or_assoc] using hc
        · simp only [] at h
          unfold processNames at h
          rw [M.bind_modify] at h
          exact h
    · rename_i hc
      right
      cases h
      refine ⟨⟨rfl, rfl, rfl, rfl⟩, .inr ?_⟩
      by_cases hne : i.importNames = []
      · exact .inl hne
      · refine .inr (.inl ?_)
        simp only [Bool.and_eq_true, Bool.not_eq_true', List.isEmpty_eq_false_iff, Bool.or_eq_true, not_and,
          not_or, Bool.not_eq_true] at hc
        obtain ⟨⟨⟨h1, h2⟩, h3⟩, h4⟩ := hc hne
        exact ⟨h3, by simp [HasNames, h1, h2, h4]⟩

/-- The submodule that a `from` import names. -/
theorem submodule_done (hT : S.Tame) {s s' : St W} (hs : XCore S s) (hs' : XCore S s') {m c : Node}
    {i : ImportInfo} {nm : ImpName} (hf : S.FromImport m i c nm)
    (hp : c.isPackage = true ∨ c.isNamespacePkg = true)
    (h1 : ¬ (c.isNamespacePkg = false ∧ (nm.name ∈ s.gw c.ident ∨ c.ident = m.ident)) →
      SubmoduleLinked m c i nm s' ∨ SentElsewhere m c nm s')
    (h2 : (c.isNamespacePkg = false ∧ (nm.name ∈ s.gw c.ident ∨ c.ident = m.ident)) →
      (∃ t, Reexports c t nm.name s' ∧ NameEdge m i nm t s') ∨ SubmoduleLinked m c i nm s' ∨ SentElsewhere m c nm s' ∨
        (SubmoduleMissing c nm s' ∧ ¬ IsSixMoves c)) :
    Has s' (c.ident ++ '.' :: nm.name) ∧
    (S.IsSubmodule c nm.name → NameEdge m i nm (c.ident ++ '.' :: nm.name) s' ∧
      (c.ident ++ '.' :: nm.name, c.ident, defaultDep) ∈ s'.edges) ∧
    ∀ r, S.Sent c nm.name r → (m.ident, r, defaultDep) ∈ s'.edges := by
  have hmiss : SubmoduleMissing c nm s' →
      ¬ ∃ n, S.NodeFor (c.ident ++ '.' :: nm.name) n ∧ n.isMissing = false := by
    rintro ⟨q, h3, h4, h5⟩ ⟨n, h6, h7⟩
    have hq := hs'.node hT h3 ⟨_, h4 ▸ hf.tried hp⟩
    rw [h4] at hq
    cases hq.unique h6
    rw [h5] at h7; cases h7
  have hone : ∀ {r r'}, SixName nm.name r → SixName nm.name r' → r = r' := by
    intro r r' k1 k2
    have k3 := Props.sixMove_iff.mpr k1
    rw [Props.sixMove_iff.mpr k2] at k3
    exact (Option.some.inj k3).symm
  have hlinked : SubmoduleLinked m c i nm s' → Has s' (c.ident ++ '.' :: nm.name) ∧
      (S.IsSubmodule c nm.name → NameEdge m i nm (c.ident ++ '.' :: nm.name) s' ∧
        (c.ident ++ '.' :: nm.name, c.ident, defaultDep) ∈ s'.edges) ∧
      ∀ r, S.Sent c nm.name r → (m.ident, r, defaultDep) ∈ s'.edges := by
    intro h3
    refine ⟨h3.1, fun _ => ⟨h3.2.1, h3.2.2.1⟩, fun r hr => ?_⟩
    obtain ⟨h4, h5, n, h6, h7⟩ := hr
    rcases h3.2.2.2 h4 with ⟨q, k1, k2, k3⟩ | k
    · have hq := hs'.node hT k1 ⟨_, k2 ▸ hf.tried hp⟩
      rw [k2] at hq
      cases hq.unique h6
      rw [k3] at h7; cases h7
    · exact absurd h5 (k r)
  have hsent : SentElsewhere m c nm s' → Has s' (c.ident ++ '.' :: nm.name) ∧
      (S.IsSubmodule c nm.name → NameEdge m i nm (c.ident ++ '.' :: nm.name) s' ∧
        (c.ident ++ '.' :: nm.name, c.ident, defaultDep) ∈ s'.edges) ∧
      ∀ r, S.Sent c nm.name r → (m.ident, r, defaultDep) ∈ s'.edges := by
    rintro ⟨h3, h4, t, h5, h6⟩
    refine ⟨let ⟨q, k1, k2, _⟩ := h4; ⟨q, k1, k2⟩, fun hsub => ?_, fun r hr => hone h5 hr.2.1 ▸ h6⟩
    rcases hsub with h7 | h7 | h7
    · exact absurd h7 (hmiss h4)
    · exact absurd h5 (h7.2 t)
    · exact absurd h3 h7.1
  by_cases hsh : c.isNamespacePkg = false ∧ (nm.name ∈ s.gw c.ident ∨ c.ident = m.ident)
  · have hmd : S.MayDefine c.ident nm.name := by
      rcases hsh.2 with h3 | h3
      · exact hs.gw _ _ h3
      · rw [h3]; exact .byName hf.1 hf.2.2.1
    rcases h2 hsh with ⟨x, ⟨d, h3, h4⟩, _⟩ | h3 | h3 | ⟨h3, h4⟩
    · exfalso
      have := (hT.passedOn m i c nm hf hmd hsh.1 x d (hs'.edges _ _ _ h3) h4).1
      rw [package_notModule hp] at this
      cases this
    · exact hlinked h3
    · exact hsent h3
    · refine ⟨let ⟨q, k1, k2, _⟩ := h3; ⟨q, k1, k2⟩, fun hsub => ?_, fun r hr => absurd hr.1 h4⟩
      exfalso
      rcases hsub with h6 | h6 | ⟨_, h6 | h6⟩
      · exact hmiss h3 h6
      · exact h4 h6.1
      · rw [hsh.1] at h6; cases h6
      · have hpk : c.isPackage = true := by
          rcases hp with h7 | h7
          · exact h7
          · rw [hsh.1] at h7; cases h7
        rcases hT.static m i c nm hf hpk h4 hmd with h7 | h7
        · exact h6 h7
        · exact hmiss h3 h7
  · rcases h1 hsh with h3 | h3
    · exact hlinked h3
    · exact hsent h3

theorem nl_step (hO : env.OrderExact) (hT : S.Tame) (hD : S.Describes env)
    (hP : ∀ k n, (env.userPost k n).Only S.Asks)
    (hM : ∀ k i n, (env.userMissing k i n).Passive) (k : Nat) {a b : Node} {i : ImportInfo}
    {s s' : St W} (hs : XCore S s) (hs' : XCore S s') (hst : Event.started (.nl a b i) ∈ s.log)
    (hpass : ∀ c nm b' d, c ∈ s.nodes → S.FromImport a i c nm → c.isModule = true → nm.name ∈ c.globalsWritten →
      S.HasEdge c.ident b' d → Setup.Called nm.name b' d →
      ∃ d', (c.ident, b', d') ∈ s.edges ∧ Setup.Called nm.name b' d')
    (h : runItem env (calls env k) (.nl a b i) s = (.ok (), s')) :
    ∃ new, Moved S (some a.ident) s s' new ∧
      ((a.ident, b.ident, fromImportInfo i false i.importModule.asname) ∈ s.edges → DoneSt S s' a.ident i) := by
  obtain ⟨ha, hb, hneed, href⟩ := hs.items _ (.inr hst)
  have hbn := hs.node hT hb ⟨_, .target hneed href⟩
  -- where the names come from
  have hsrc : ∀ c nm, S.FromImport a i c nm → S.Source b c ∧ i.starImport = false ∧ nm ∈ i.importNames := by
    rintro c nm ⟨h1, h2, h3, t, b', h4, h5, h6⟩
    cases h4.unique href
    cases h5.unique hbn
    exact ⟨h6, h2, h3⟩
  have hdone : ∀ {new}, Moved S (some a.ident) s s' new →
      (∀ c nm, S.FromImport a i c nm → (c.isPackage = true ∨ c.isNamespacePkg = true) →
        S.IsSubmodule c nm.name → NameEdge a i nm (c.ident ++ '.' :: nm.name) s') →
      (∀ c nm b' d, S.FromImport a i c nm → c.isModule = true → nm.name ∈ c.globalsWritten →
        S.HasEdge c.ident b' d → Setup.Called nm.name b' d → NameEdge a i nm b' s') →
      (∀ c nm r, S.FromImport a i c nm → S.Sent c nm.name r → (a.ident, r, defaultDep) ∈ s'.edges) →
      (a.ident, b.ident, fromImportInfo i false i.importModule.asname) ∈ s.edges → DoneSt S s' a.ident i := by
    intro new hN h1 h2 h6 he
    refine ⟨a, hN.nodes a ha, rfl, fun x d hby => ?_⟩
    cases hby with
    | target hr => cases hr.unique href; exact hN.edges _ he
    | submodule hf hp hsub => exact h1 _ _ hf hp hsub
    | sixMoves hf hr => exact h6 _ _ _ hf hr
    | passedOn hf hm hg he hcl => exact h2 _ _ _ _ hf hm hg he hcl
  have hord := h
  rcases nl_cases h with ⟨c, s0, hS, hn, hstar, hne, h0, hF⟩ | ⟨⟨h1, h2, h3, h4⟩, h5⟩
  · have hnl : NlTarget s b c := by
      rcases hS with ⟨rfl, h1⟩ | ⟨h1, h2⟩
      · refine .inl ⟨rfl, ?_⟩
        unfold Node.isAlias
        split
        · rename_i t hk; exact absurd hk (h1 t)
        · rfl
      · exact .inr ⟨h1, (find_some h2).1⟩
    obtain ⟨_, _, _, hSc, hcm⟩ := hs.nl hT hst hnl
    have hceq : ∀ c', S.Source b c' → c' = c := by
      rintro c' (⟨rfl, h1⟩ | ⟨h1, h2⟩)
      · rcases hSc with ⟨h, _⟩ | ⟨h, _⟩
        · exact h.symm
        · exact absurd h (h1 _)
      · rcases hSc with ⟨_, h⟩ | ⟨h, h3⟩
        · exact absurd h1 (h _)
        · rw [h1] at h
          injection h with h
          rw [h] at h2
          exact h2.unique h3
    have hC := exactCtx env hO hT hD
    have hJ0 : XJ S [] s0 := by
      rcases h0 with rfl | rfl
      · exact ⟨hs, by simp⟩
      · exact hC.globals _ ⟨hs, by simp⟩ hst (.inl rfl)
    have hfields : s0.stack = s.stack ∧ s0.nodes = s.nodes ∧ s0.edges = s.edges ∧ s0.log = s.log := by
      rcases h0 with rfl | rfl <;> exact ⟨rfl, rfl, rfl, rfl⟩
    obtain ⟨hf1, hf2, hf3, hf4⟩ := hfields
    have hst0 : Event.started (.nl a b i) ∈ s0.log := hf4 ▸ hst
    have hJ1 := hC.globals _ hJ0 hst0 (.inl rfl)
    generalize hs1 : s0.addGlobals a.ident (i.importNames.map ImpName.name) = s1 at hF hJ1
    have hfields : s1.stack = s.stack ∧ s1.nodes = s.nodes ∧ s1.edges = s.edges ∧ s1.log = s.log := by
      subst hs1; exact ⟨hf1, hf2, hf3, hf4⟩
    clear hf1 hf2 hf3 hf4 hst0 hJ0 hs1
    obtain ⟨hf1, hf2, hf3, hf4⟩ := hfields
    by_cases hp : c.isPackage = true ∨ c.isNamespacePkg = true
    · obtain ⟨_, new, hN, _⟩ := names_step hO hT hD hP hM k hp hstar i.importNames (fun _ h => h) hJ1.1
        (hf4 ▸ hst) (hnl.imp id fun h => ⟨h.1, hf2 ▸ h.2⟩) hF
      have hN : Moved S (some a.ident) s s' new :=
        ⟨hf1 ▸ hN.stack, hf2 ▸ hN.nodes, hf3 ▸ hN.edges, hf4 ▸ hN.sched, hN.owners, hN.order⟩
      refine ⟨new, hN, hdone hN ?_ ?_ ?_⟩
      · intro c' nm hf _ hsub
        obtain ⟨h1, h2, h3⟩ := hsrc c' nm hf
        cases hceq c' h1
        have h4 := Props.C40_package env hM hO k a b c i nm s s' hst hS hcm hp hstar h3 hord
        exact ((submodule_done hT hs hs' hf hp h4.1 h4.2.2).2.1 hsub).1
      · intro c' nm _ _ hf hm
        cases hceq c' (hsrc c' nm hf).1
        rw [package_notModule hp] at hm; cases hm
      · intro c' nm r hf hr
        obtain ⟨h1, h2, h3⟩ := hsrc c' nm hf
        cases hceq c' h1
        have h4 := Props.C40_package env hM hO k a b c i nm s s' hst hS hcm hp hstar h3 hord
        exact (submodule_done hT hs hs' hf hp h4.1 h4.2.2).2.2 r hr
    · have hm : c.isModule = true := by
        rcases hn with h | h | h
        · exact absurd (.inl h) hp
        · exact absurd (.inr h) hp
        · exact h
      obtain ⟨h1, _, h2, _, h3⟩ := Props.C40_module env hM hO k a b c i s s' hst hS hcm hm hstar hne hord
      have hpush := Steps.forEach pushes_rel (fun nm => Props.processName_steps pushes_rel env hM k a c i nm)
        (l := i.importNames) s1
      have hload := Steps.forEach loads_rel (fun nm => Props.processName_steps loads_rel env hM k a c i nm)
        (l := i.importNames) s1
      rw [hF] at hpush hload
      obtain ⟨rest, l, hpush⟩ := hpush
      have hrest : rest = [] := by
        have := hpush.stack
        rw [hf1, h2] at this
        simpa using this
      subst hrest
      have hN : Moved S (some a.ident) s s' [] := by
        refine ⟨by simp [h2], by simp [h1], hf3 ▸ hload.edges, ?_, by simp, .nil⟩
        intro n infos hev
        rw [hpush.log, hf4] at hev
        rcases List.mem_append.mp hev with hev | hev
        · exact .inl hev
        · exact .inr (hpush.pushed n infos hev)
      refine ⟨[], hN, hdone hN ?_ ?_ ?_⟩
      · intro c' nm hf hp'
        cases hceq c' (hsrc c' nm hf).1
        exact absurd hp' hp
      · intro c' nm x d hf hm hg he hcl
        obtain ⟨h6, h7, h8⟩ := hsrc c' nm hf
        cases hceq c' h6
        obtain ⟨d', h4, h5⟩ := hpass c nm x d hcm hf hm hg he hcl
        obtain ⟨t, ⟨d2, h9, h10⟩, h11⟩ := h3 nm h8 (hs.static c hcm _ hg) ⟨x, d', h4, h5⟩
        have hns : c.isNamespacePkg = false := by
          cases h : c.isNamespacePkg with
          | false => rfl
          | true => exact absurd (.inr h) hp
        cases (hT.passedOn a i c nm hf (.own (hs.nodes c hcm) hg) hns x d he hcl).2.2.1 t d2 (hs'.edges _ _ _ h9) h10
        exact h11
      · intro c' nm r hf hr
        cases hceq c' (hsrc c' nm hf).1
        exact absurd (.inl (IsSixMoves.package hr.1)) hp
  · have hN : Moved S (some a.ident) s s' [] :=
      ⟨by simp [h1], by simp [h2], by simp [h3], fun _ _ h => .inl (h4 ▸ h), by simp, .nil⟩
    have hno : ∀ c nm, S.FromImport a i c nm → ¬ HasNames c := by
      intro c nm hf hn
      obtain ⟨h6, h7, h8⟩ := hsrc c nm hf
      rcases h5 with h5 | h5 | ⟨h5, h9⟩ | ⟨q, h9, h10, h11⟩
      · rw [h7] at h5; cases h5
      · rw [h5] at h8; cases h8
      · rcases h6 with ⟨rfl, _⟩ | ⟨h6, _⟩
        · exact h9 hn
        · simp [Node.isAlias, h6] at h5
      · rcases h6 with ⟨rfl, h6⟩ | ⟨h6, h12⟩
        · exact h6 _ h10
        · rw [h6] at h10
          have he : c.ident = q.ident := by injection h10
          have := hs.node hT h9 ⟨_, he ▸ Setup.Needs.alias (.target hneed href) hbn (.inl h6)⟩
          rw [← he] at this
          cases h12.unique this
          exact h11 hn
    exact ⟨[], hN, hdone hN (fun c nm hf hp => absurd (hp.imp id .inl) (hno c nm hf))
      (fun c nm _ _ hf hm => absurd (.inr (.inr hm)) (hno c nm hf))
      fun c nm _ hf hr => absurd (.inl (IsSixMoves.package hr.1)) (hno c nm hf)⟩

/-! ## The queue -/

/-- No hook of the client was registered. -/
def NoHooks (s : St W) : Prop := ∀ h ∈ s.postHooks, h = .mypyc

theorem NoHooks.of {s s' : St W} (h : NoHooks s) (hp : s'.postHooks = s.postHooks) : NoHooks s' := by
  unfold NoHooks
  rw [hp]; exact h

theorem hooksCtx (env : Env W) : Ctx env ApiOp.NoReg (fun _ s => NoHooks s) NoHooks := by
  have hS : ∀ {s : St W} {n i}, NoHooks s → NoHooks (s.schedule n i) := fun h => h.of (schedule_postHooks ..)
  have hE : ∀ {s : St W} {a b d}, NoHooks s → NoHooks (s.addEdge a b d) := fun h => h.of (addEdge_postHooks ..)
  have hR : ∀ {s : St W} {a}, NoHooks s → NoHooks (s.addRoot a) := fun h => h.of (by
    unfold St.addRoot; split <;> rfl)
  have hL : ∀ {s : St W} {e}, NoHooks s → NoHooks (s.event e) := fun h => h
  constructor
  case aAddModule => intros; trivial
  case postHook => intro s h ha; exact ha.elim
  case exclude =>
    intro s names _ h
    exact foldl_pres (P := NoHooks) (f := addExclude) (fun s a h => h) names _ h
  case imply =>
    intro s l _ h
    refine foldl_pres (P := NoHooks) (fun s a h => ?_) l _ h
    unfold addImply; split <;> exact h
  case exitE => intro s0 s _ h _; exact h
  case exit => intro s0 s _ h _; exact h
  case finishImp => intro s m i n o h _ _ _ _; exact NoHooks.of (hE (d := fromImportInfo i false i.importModule.asname) (a := m.ident) (b := n.ident) h) rfl
  all_goals first
    | (intros; assumption)
    | (intros; apply hS; assumption)
    | (intros; apply hE; assumption)
    | (intros; apply hR; assumption)
    | (intros; apply hL; apply hE; assumption)


/-- Nothing but the world and the log changed, and nothing was scheduled. -/
structure Idles (s s' : St W) : Prop where
  stack : s'.stack = s.stack
  nodes : s'.nodes = s.nodes
  edges : s'.edges = s.edges
  sched : ∀ n infos, Event.scheduled n infos ∈ s'.log → Event.scheduled n infos ∈ s.log
  hooks : s'.postHooks = s.postHooks

theorem Idles.refl (s : St W) : Idles s s := ⟨rfl, rfl, rfl, fun _ _ h => h, rfl⟩
theorem Idles.trans {a b c : St W} (h : Idles a b) (h' : Idles b c) : Idles a c :=
  ⟨h'.stack.trans h.stack, h'.nodes.trans h.nodes, h'.edges.trans h.edges,
    fun n i hev => h.sched n i (h'.sched n i hev), h'.hooks.trans h.hooks⟩
theorem Idles.event (s : St W) {e} (he : ∀ n i, e ≠ Event.scheduled n i) : Idles s (s.event e) := by
  refine ⟨rfl, rfl, rfl, fun n i hev => ?_, rfl⟩
  rcases List.mem_append.mp hev with h | h
  · exact h
  · exact absurd (List.mem_singleton.mp h).symm (he n i)

theorem mypyc_kept {rec : Calls W} (hno : ¬ S.HasMypyc) {n : Node} (hn : S.HasNode n) (s : St W) :
    (mypycHook env rec n s) = (.ok (), s) :=
  Props.C46_other _ _ _ _ fun file helper h => hno ⟨n, file, helper, hn, h⟩

theorem post_kept (hno : ¬ S.HasMypyc) {n : Node} (hn : S.HasNode n) (k idx : Nat) (s : St W) (hh : NoHooks s) :
    Idles s ((calls env k).callPost idx n s).2 := by
  induction k generalizing idx s with
  | zero => exact .refl s
  | succ k ih =>
    change Idles s (callPostBody env (calls env k) idx n s).2
    unfold callPostBody
    rw [M.bind_get]
    cases hi : s.postHooks[idx]? with
    | none => exact .refl s
    | some h =>
      obtain rfl := hh h (List.mem_of_getElem? hi)
      simp only []
      rw [M.bind_modify]
      refine (Idles.event s (e := .called .mypyc n.ident) (by simp)).trans ?_
      replace hh : NoHooks (s.event (.called .mypyc n.ident)) := hh
      rw [M.bind_of_ok (mypyc_kept hno hn _)]
      exact ih _ _ hh

theorem asks_noAddNode : ∀ o, S.Asks o → ApiOp.NoAddNode o := fun o ho => by
  cases o <;> first | trivial | exact ho.elim

theorem asks_noReg : ∀ o, S.Asks o → ApiOp.NoReg o := fun o ho => by
  cases o <;> first | trivial | exact ho.elim

/-- While the statements of a module wait, only what is behind it is processed. -/
structure Passing (S : Setup) (env : Env W) (s : St W) : Prop where
  core : XCore S s
  scans : ∀ n ∈ s.nodes, Origin env [] s n
  order : s.stack.Pairwise (Below S)
  settled : ∀ id infos, Event.scheduled id infos ∈ s.log → ∀ j ∈ infos, Waits s id j ∨ DoneSt S s id j
  hooks : NoHooks s

theorem Passing.next {s s0 s' : St W} (h : Passing S env s) {tl new : List Item} {id : Option Str}
    (hst : s.stack = s0.stack ++ tl) (hn : s0.nodes = s.nodes) (he : s0.edges = s.edges)
    (hl : ∀ n infos, Event.scheduled n infos ∈ s0.log → Event.scheduled n infos ∈ s.log)
    (hN : Moved S id s0 s' new) (hcore : XCore S s') (hscans : ∀ n ∈ s'.nodes, Origin env [] s' n)
    (hhooks : NoHooks s') (hcross : ∀ Y ∈ s0.stack, ∀ Z ∈ new, Below S Y Z)
    (hdone : ∀ n j, ((∃ Y : Node, Y.ident = n ∧ .imp Y j ∈ tl) ∨
      (∃ Y b : Node, Y.ident = n ∧ .nl Y b j ∈ tl ∧
        (n, b.ident, fromImportInfo j false j.importModule.asname) ∈ s.edges)) →
      Waits s' n j ∨ DoneSt S s' n j) : Passing S env s' := by
  refine ⟨hcore, hscans, ?_, ?_, hhooks⟩
  · rw [hN.stack]
    have := h.order
    rw [hst] at this
    exact List.pairwise_append.mpr ⟨(List.pairwise_append.mp this).1, hN.order, hcross⟩
  · intro n infos hev j hj
    rcases hN.sched n infos hev with hev | hev
    · rcases h.settled n infos (hl n infos hev) j hj with (⟨Y, h1, h2⟩ | ⟨Y, b, h1, h2, h3⟩) | ⟨m, h1, h2, h3⟩
      · rw [hst] at h2
        rcases List.mem_append.mp h2 with h2 | h2
        · exact .inl (.inl ⟨Y, h1, by rw [hN.stack]; exact List.mem_append_left _ h2⟩)
        · exact hdone n j (.inl ⟨Y, h1, h2⟩)
      · rw [hst] at h2
        rcases List.mem_append.mp h2 with h2 | h2
        · exact .inl (.inr ⟨Y, b, h1, by rw [hN.stack]; exact List.mem_append_left _ h2,
            hN.edges _ (he ▸ h3)⟩)
        · exact hdone n j (.inr ⟨Y, b, h1, h2, h3⟩)
      · exact .inr ⟨m, hN.nodes m (hn ▸ h1), h2, fun x d hby => hN.edges _ (he ▸ h3 x d hby)⟩
    · obtain ⟨Y, h1, h2⟩ := hev j hj
      exact .inl (.inl ⟨Y, h1, by rw [hN.stack]; exact List.mem_append_right _ h2⟩)

/-- The statements of a module were scheduled. -/
theorem Passing.scheduled {s : St W} (h : Passing S env s) (hT : S.Tame) (hD : S.Describes env)
    (hno : ¬ S.HasMypyc) {c : Node}
    {j : ImportInfo} (hc : c ∈ s.nodes) (hm : c.isModule = true) (hj : S.Needs (.statement c j)) :
    ∃ infos, Event.scheduled c.ident infos ∈ s.log ∧ j ∈ infos := by
  rcases hj.place with ⟨path, _, file, rfl, _⟩ | ⟨infos, h1, h2, h3, h4⟩ | ⟨_, infos, h1, h2, h3, h4⟩
  · cases hm
  · rcases h.scans c hc with h5 | h5 | ⟨name, imports, h5, ⟨h6, _⟩ | h6⟩ | ⟨_, _, h5, _⟩
    · rw [Node.isStandIn, hT.loaded _ _ _ h3] at h5
      simp at h5
    · rw [hT.extension _ _ _ h3 h5.1] at h4
      cases h4
    · have h7 := h5.mods hD
      have hsame : imports = infos := by
        by_cases hne : c.ident = name
        · rw [← hne, h3] at h7
          cases h7; rfl
        · have h8 := (hT.otherName name c imports h7 hne).2.1
          rw [h3] at h8
          cases h8; rfl
      exact ⟨imports, h6, hsame ▸ h4⟩
    · cases h6
    · unfold Node.isScript at h5
      unfold Node.isModule at hm
      cases hk : c.kind <;> simp_all
  · exact absurd (hD.hasMypyc (.module h1 h2) (by simp [h3])) hno

section
variable (hO : env.OrderExact) (hT : S.Tame) (hD : S.Describes env)
  (hP : ∀ k n, (env.userPost k n).Only S.Asks) (hM : ∀ k i n, (env.userMissing k i n).Passive)
  (hmy : ¬ S.HasMypyc)
include hO hT hD hP hM hmy

theorem Passing.item (k : Nat) {s s0 s' : St W} {it : Item} (h : Passing S env s) (hst : s.stack = s0.stack ++ [it])
    (hs0 : s0 = { s with stack := s0.stack, log := s.log ++ [.started it] })
    (hr : runItem env (calls env k) it s0 = (.ok (), s')) : Event.failed ∈ s'.log ∨ Passing S env s' := by
  have hPs : ∀ k n, (env.userPost k n).Only ApiOp.NoAddNode := fun k n => (hP k n).mono asks_noAddNode
  have hPr : ∀ k n, (env.userPost k n).Only ApiOp.NoReg := fun k n => (hP k n).mono asks_noReg
  have hn : s0.nodes = s.nodes := by rw [hs0]
  have he : s0.edges = s.edges := by rw [hs0]
  have hlog : s0.log = s.log ++ [.started it] := by rw [hs0]
  have hl : ∀ n infos, Event.scheduled n infos ∈ s0.log → Event.scheduled n infos ∈ s.log := by
    intro n infos hev
    rw [hlog] at hev
    simpa using hev
  have hstd : Event.started it ∈ s0.log := by rw [hlog]; simp
  have hC := exactCtx env hO hT hD
  have hc0 : XJ S [] s0 := by
    rw [hs0]; exact hC.pop ⟨h.core, by simp⟩ hst
  have hC2 := (scansCtx env).rich
  have hd0 : Scans env [] s0 := by
    rw [hs0]; exact hC2.pop (.inr h.scans) hst
  have hx := runItem_ctx hC (calls_rctx hC (fun k n => S.may (hP k n)) hM k) hc0 hstd
  have hy := runItem_ctx hC2 (calls_rctx hC2 hPs hM k) hd0 hstd
  have hC3 := (hooksCtx env).rich
  have hz := runItem_ctx hC3 (calls_rctx hC3 hPr hM k) (by rw [hs0]; exact h.hooks) hstd
  unfold Ret at hx hy hz
  rw [hr] at hx hy hz
  obtain ⟨⟨hcore, _⟩, _⟩ := hx
  have hhooks := hz.1
  obtain ⟨hy, _⟩ := hy
  rcases hy with hy | hscans
  · exact .inl hy
  right
  have hbelow : ∀ c, it.owner = some c → ∀ Y ∈ s0.stack, ∀ y, Y.owner = some y → S.Behind y c := by
    intro c hc Y hY y hy
    have := h.order
    rw [hst] at this
    exact (List.pairwise_append.mp this).2.2 Y hY it (by simp) y c hy hc
  have hcross : ∀ {new}, Moved S it.owner s0 s' new → ∀ Y ∈ s0.stack, ∀ Z ∈ new, Below S Y Z := by
    intro new hN Y hY Z hZ y z hy hz
    obtain ⟨c, h1, h2⟩ := hN.owners Z hZ z hz
    exact (hbelow c h1 Y hY y hy).on h2
  cases it with
  | pp n =>
    have hnn : XItem S s (.pp n) := h.core.items _ (.inl (by simp [pending, hst]))
    have hk := post_kept (env := env) hmy (h.core.nodes n hnn) k 0 s0 (by rw [hs0]; exact h.hooks)
    change (calls env k).callPost 0 n s0 = _ at hr
    rw [hr] at hk
    replace hk : Idles s0 s' := hk
    have hN : Moved S none s0 s' [] :=
      ⟨by rw [hk.stack, List.append_nil], fun _ h => hk.nodes ▸ h, fun _ h => hk.edges ▸ h,
        fun n i h => .inl (hk.sched n i h), by simp, .nil⟩
    exact h.next hst hn he hl hN hcore hscans hhooks (by simp) (by simp)
  | pkg n name => exact (show False from h.core.items (.pkg n name) (.inl (by simp [pending, hst]))).elim
  | imp m i =>
    obtain ⟨new, hN, hw⟩ := imp_step hT hD hM hc0.1 hcore hstd hr
    refine h.next hst hn he hl hN hcore hscans hhooks (hcross hN) ?_
    rintro n j (⟨Y, h1, h2⟩ | ⟨Y, b, h1, h2, _⟩)
    · simp at h2; obtain ⟨rfl, rfl⟩ := h2; exact h1 ▸ hw
    · simp at h2
  | nl a b i =>
    obtain ⟨new, hN, hw⟩ := nl_step hO hT hD hP hM k hc0.1 hcore hstd (by
      intro c nm x d hcm hf hm hg hedge hcl
      rw [hn] at hcm
      have hns : c.isNamespacePkg = false := module_notNamespace hm
      obtain ⟨_, _, _, ⟨j, d', h1, h2, h3⟩, h4⟩ :=
        hT.passedOn a i c nm hf (.own (h.core.nodes c hcm) hg) hns x d hedge hcl
      refine ⟨d', ?_, h3⟩
      rw [he]
      have hown : ∀ Y ∈ s.stack, Y.owner ≠ some c.ident := by
        intro Y hY ho
        rw [hst] at hY
        rcases List.mem_append.mp hY with hY | hY
        · exact h4 (hbelow a.ident rfl Y hY _ ho)
        · rw [List.mem_singleton.mp hY] at ho
          have ho : a.ident = c.ident := by simpa [Item.owner] using ho
          exact h4 (ho ▸ .self _)
      obtain ⟨infos, h5, h6⟩ := h.scheduled hT hD hmy hcm hm h1
      rcases h.settled _ _ h5 j h6 with (⟨Y, h7, h8⟩ | ⟨Y, b, h7, h8, _⟩) | ⟨m, h7, h8, h9⟩
      · exact absurd (congrArg some h7) (hown _ h8)
      · exact absurd (congrArg some h7) (hown _ h8)
      · cases (h.core.nodes m h7).unique hT (h.core.nodes c hcm) h8
        exact h9 x d' h2) hr
    refine h.next hst hn he hl hN hcore hscans hhooks (hcross hN) ?_
    rintro n j (⟨Y, h1, h2⟩ | ⟨Y, b', h1, h2, h3⟩)
    · simp at h2
    · simp at h2; obtain ⟨rfl, rfl, rfl⟩ := h2
      exact .inr (h1 ▸ hw (by rw [he, h1]; exact h3))

theorem Passing.run (k : Nat) {s s' : St W} (h : Passing S env s) (hr : (calls env k).runStack s = (.ok (), s')) :
    Event.failed ∈ s'.log ∨ Passing S env s' := by
  induction k generalizing s s' with
  | zero => simp [calls, callsZero, M.throw] at hr
  | succ k ih =>
    have hr' : runStackBody env (calls env k) s = (.ok (), s') := hr
    obtain ⟨it, s1, h1, h2⟩ := M.bind_ok hr'
    unfold popItem at h1
    rcases List.eq_nil_or_concat s.stack with hs | ⟨st, it', hs⟩
    · rw [hs] at h1
      simp at h1
      obtain ⟨rfl, rfl⟩ := h1
      obtain ⟨_, rfl⟩ := M.pure_ok h2
      exact .inr h
    · rw [List.concat_eq_append] at hs
      rw [hs, List.getLast?_concat, List.dropLast_concat] at h1
      cases h1
      obtain ⟨_, s2, h3, h4⟩ := M.bind_ok h2
      rcases Passing.item hO hT hD hP hM hmy k h (s0 := { s with stack := st, log := s.log ++ [.started it'] }) hs rfl h3 with h5 | h5
      · left
        have := (calls_triv env hM k).runStack s2 trivial
        unfold Ret at this
        rw [h4] at this
        exact this.2.1.ev h5
      · exact ih h5 h4

/-- Between the calls of the client. -/
def Between (S : Setup) (env : Env W) (s : St W) : Prop :=
  Event.failed ∈ s.log ∨ (Passing S env s ∧ s.stack = [])

theorem Passing.drain (k : Nat) {s s' : St W} (h : Passing S env s)
    (hr : (calls env k).runStack s = (.ok (), s')) : Between S env s' := by
  rcases h.run hO hT hD hP hM hmy k hr with h1 | h1
  · exact .inl h1
  · exact .inr ⟨h1, runStack_drains env k hr⟩

omit hO hT hD hP hM hmy in
theorem Passing.idle {s s' : St W} (h : Passing S env s) (hI : Idles s s') (hcore : XCore S s')
    (hscans : ∀ n ∈ s'.nodes, Origin env [] s' n) : Passing S env s' := by
  refine ⟨hcore, hscans, hI.stack ▸ h.order, fun n infos hev j hj => ?_, h.hooks.of hI.hooks⟩
  rcases h.settled n infos (hI.sched n infos hev) j hj with h1 | ⟨m, h1, h2, h3⟩
  · left
    unfold Waits at h1 ⊢
    rw [hI.stack, hI.edges]
    exact h1
  · exact .inr ⟨m, hI.nodes ▸ h1, h2, fun b d hb => hI.edges ▸ h3 b d hb⟩

omit hP hM hmy in
theorem Passing.root {s : St W} (h : Passing S env s) {x : Str} {o : ApiOp} (ho : S.Asks o) (hx : AsksFor env o x)
    (hh : s.has x = true) : Passing S env (s.addRoot x) := by
  obtain ⟨h1, h2, h3, h4⟩ : (s.addRoot x).nodes = s.nodes ∧ (s.addRoot x).edges = s.edges ∧
      (s.addRoot x).stack = s.stack ∧ (s.addRoot x).log = s.log := by
    unfold St.addRoot; split <;> exact ⟨rfl, rfl, rfl, rfl⟩
  refine h.idle ⟨h3, h1, h2, fun _ _ h => h4 ▸ h, by unfold St.addRoot; split <;> rfl⟩
    ((exactCtx env hO hT hD).addRoot (O := []) ⟨h.core, by simp⟩ ⟨o, S.mayAsk ho, hx⟩ hh).1 ?_
  intro n hn
  rw [h1] at hn
  exact (h.scans n hn).more (fun _ h => h2 ▸ h) (fun _ h => h4 ▸ h) (by simp)

omit hO hT hD hP hmy in
theorem failed_drain (k : Nat) {s s' : St W} {x : Str} (h : Event.failed ∈ s.log)
    (hr : (calls env k).runStack (s.addRoot x) = (.ok (), s')) : Event.failed ∈ s'.log := by
  have h4 : (s.addRoot x).log = s.log := by
    unfold St.addRoot; split <;> rfl
  have := (calls_triv env hM k).runStack (s.addRoot x) trivial
  unfold Ret at this
  rw [hr] at this
  exact this.2.1.ev (h4 ▸ h)

omit hmy in
theorem load_passing (k : Nat) {x : Str} (hx : S.Needs (.module x false)) {s s' : St W} {node : Node}
    (h : Passing S env s)
    (hb : ∀ Y ∈ s.stack, ∀ y, Y.owner = some y → ∀ z, S.Draws x z → S.Behind y z)
    (hr : (calls env k).findOrLoad none x true s = (.ok node, s')) :
    Event.failed ∈ s'.log ∨ (Passing S env s' ∧ node.ident = x ∧ node ∈ s'.nodes ∧
      ∀ Z ∈ s'.stack, Z ∈ s.stack ∨ ∀ z, Z.owner = some z → S.Draws x z) := by
  obtain ⟨hid, hn, _⟩ := Props.find_sub hM (.inl rfl) hr
  have hC := exactCtx env hO hT hD
  have hC2 := (scansCtx env).rich
  have hC3 := (hooksCtx env).rich
  have hZ := (calls_rctx hC3 (fun k n => (hP k n).mono asks_noReg) hM k).findOrLoad none x true [] s h.hooks
    (.inl rfl) trivial
  have hX := (calls_rctx hC (fun k n => S.may (hP k n)) hM k).findOrLoad none x true [] s ⟨h.core, by simp⟩
    (.inl rfl) hx
  have hY := (calls_rctx hC2 (fun k n => (hP k n).mono asks_noAddNode) hM k).findOrLoad none x true [] s (.inr h.scans)
    (.inl rfl) trivial
  unfold Ret at hX hY hZ
  rw [hr] at hX hY hZ
  rcases hY.1 with hY | hY
  · exact .inl hY
  · right
    obtain ⟨rest, hN⟩ := load_new hT hD hM k ⟨_, hx⟩ h.core hr (.inl rfl)
    have hN' : Moved S (some x) s s' rest := by
      refine ⟨hN.stack, hN.nodes, hN.edges, hN.sched, ?_, hN.order.imp OverItem.below⟩
      intro Z hZ z hz
      refine ⟨_, rfl, ?_⟩
      have := (hN.owners Z hZ z hz).2
      rw [hid] at this
      exact leads_of_path hX.1.1 (fun _ h => h) this
    refine ⟨h.next (tl := []) (by simp) rfl rfl (fun _ _ h => h) hN' hX.1.1 hY hZ.1
      (fun Y hY Z hZ y z hy hz => hb Y hY y hy z (hN.owners Z hZ z hz).1) (by simp), hid, hn, ?_⟩
    intro Z hZ
    rw [hN.stack] at hZ
    rcases List.mem_append.mp hZ with hZ | hZ
    · exact .inl hZ
    · exact .inr fun z hz => (hN.owners Z hZ z hz).1

theorem addModule_passing (k : Nat) {x : Str} (ho : S.asksModule x) {s s' : St W} {r : Node}
    (h : Passing S env s) (hst : s.stack = []) (hr : addModule (calls env k) x s = (.ok r, s')) :
    Between S env s' := by
  unfold addModule at hr
  obtain ⟨f, s1, h1, h2⟩ := M.bind_ok hr
  obtain ⟨rfl, hf, _⟩ := M.findModule_ok h1
  obtain ⟨node, s2, h3, h4⟩ := M.bind_ok h2
  obtain ⟨_, s3, h5, h6⟩ := M.bind_ok h4
  obtain ⟨_, s4, h7, h8⟩ := M.bind_ok h6
  obtain ⟨_, rfl⟩ := M.pure_ok h8
  have hx : S.Needs (.module x false) := .asked ho
  have key : Event.failed ∈ s2.log ∨ (Passing S env s2 ∧ node.ident = x ∧ node ∈ s2.nodes) := by
    cases f with
    | some n =>
      obtain ⟨rfl, rfl⟩ := M.pure_ok h3
      obtain ⟨h9, h10⟩ := find_some hf.symm
      exact .inr ⟨h, h10, h9⟩
    | none =>
      rcases load_passing hO hT hD hP hM k hx h (by simp [hst]) h3 with h9 | ⟨h9, h10, h11, _⟩
      · exact .inl h9
      · exact .inr ⟨h9, h10, h11⟩
  rcases key with key | ⟨key, hid, hn⟩
  · obtain ⟨_, rfl⟩ := M.addRoot_ok h5
    exact .inl (failed_drain hM k key h7)
  · obtain ⟨_, rfl⟩ := M.addRoot_ok h5
    exact Passing.drain hO hT hD hP hM hmy k (key.root hO hT hD (o := .addModule x) ho (hid ▸ .module _)
      (has_of_Has ⟨node, hn, rfl⟩)) h7

theorem addScript_passing (k : Nat) {x : Str} (ho : S.asksScript x) {s s' : St W} {r : Node}
    (h : Passing S env s) (hst : s.stack = []) (hr : addScript env (calls env k) x s = (.ok r, s')) :
    Between S env s' := by
  unfold addScript at hr
  obtain ⟨f, s1, h1, h2⟩ := M.bind_ok hr
  obtain ⟨rfl, hf, _⟩ := M.findModule_ok h1
  cases f with
  | some n => simp [M.throw] at h2
  | none =>
    simp only [] at h2
    obtain ⟨p, s2, h3, h4⟩ := M.bind_ok h2
    obtain ⟨hload, rfl⟩ := M.ext_ok h3
    obtain ⟨_, s3, h5, h6⟩ := M.bind_ok h4
    obtain ⟨hno, rfl⟩ := M.addNode_ok h5
    obtain ⟨_, s4, h7, h8⟩ := M.bind_ok h6
    obtain ⟨_, s5, h9, h10⟩ := M.bind_ok h8
    obtain ⟨hhas, rfl⟩ := M.addRoot_ok h9
    obtain ⟨_, s6, h11, h12⟩ := M.bind_ok h10
    obtain ⟨_, rfl⟩ := M.pure_ok h12
    obtain rfl : _ = s4 := (Prod.mk.inj h7).2
    have hC := exactCtx env hO hT hD
    have hC2 := (scansCtx env).rich
    have hX := hC.script (hC.world (env.loadScript x s1.world).2 (O := []) ⟨h.core, by simp⟩) (path := x)
      (infos := p.1) (file := p.2) ho hno ⟨_, hload⟩
    have hY := hC2.script (hC2.world (env.loadScript x s1.world).2 (O := []) (.inr h.scans)) (path := x)
      (infos := p.1) (file := p.2) trivial hno ⟨_, hload⟩
    rcases hY with hY | hY
    · exact .inl (failed_drain hM k hY h11)
    · obtain ⟨new, hN, _⟩ := schedule_moved (S := S)
        (s := ({ s1 with world := (env.loadScript x s1.world).2 } : St W).addNode
          { ident := x, kind := .script, filename := some p.2 })
        (n := { ident := x, kind := .script, filename := some p.2 }) (l := p.1)
      have hN' : Moved S (some x) s1 _ new :=
        ⟨hN.stack, fun n hn => hN.nodes n (List.mem_append_left _ hn), hN.edges, hN.sched, hN.owners, hN.order⟩
      have hPs := h.next (tl := []) (by simp) rfl rfl (fun _ _ h => h) hN' hX.1 hY (h.hooks.of (schedule_postHooks ..)) (by simp [hst]) (by simp)
      exact Passing.drain hO hT hD hP hM hmy k (hPs.root hO hT hD (o := .addScript x) ho (.script _) hhas) h11

omit hO hT hD hP hM hmy in
theorem Passing.linked {s : St W} (h : Passing S env s) {a b : Str} {d : DepInfo} (he : S.HasEdge a b d) :
    Passing S env (s.addEdge a b d) := by
  have hm := more_addEdge s a b d
  have hst : (s.addEdge a b d).stack = s.stack := by unfold St.addEdge; split <;> rfl
  have hh : (s.addEdge a b d).postHooks = s.postHooks := by unfold St.addEdge; split <;> rfl
  have hl : (s.addEdge a b d).log = s.log := by unfold St.addEdge; split <;> rfl
  exact h.next (tl := []) (new := []) (id := none) (s0 := s) (by simp) rfl rfl (fun _ _ h => h)
    ⟨by simp [hst], fun n hn => hm.nodes ▸ hn, hm.edges, fun _ _ h => .inl (hl ▸ h), by simp, .nil⟩
    (h.core.addEdge he) (fun n hn => (h.scans n (hm.nodes ▸ hn)).more hm.edges hm.log (by simp))
    (h.hooks.of hh) (by simp) (by simp)

omit hO hT hD hP hM hmy in
theorem forEach_failed {α : Type} {f : α → M W Unit}
    (hf : ∀ x s s', f x s = (.ok (), s') → Event.failed ∈ s.log → Event.failed ∈ s'.log) :
    ∀ (l : List α) {s s' : St W}, M.forEach l f s = (.ok (), s') → Event.failed ∈ s.log → Event.failed ∈ s'.log := by
  intro l
  induction l with
  | nil => intro s s' hr h; cases hr; exact h
  | cons x l ih =>
    intro s s' hr h
    obtain ⟨_, s1, h1, h2⟩ := M.bind_ok hr
    exact ih h2 (hf x s s1 h1 h)

omit hO hT hD hP hmy in
theorem names_failed (k : Nat) {d : Str} {l : List Str} {s s' : St W}
    (hr : M.forEach l (fun name => M.bind ((calls env k).findOrLoad none name true) fun node =>
      M.addEdge d node.ident defaultDep) s = (.ok (), s'))
    (h : Event.failed ∈ s.log) : Event.failed ∈ s'.log := by
  refine forEach_failed (fun x s s' hr h => ?_) l hr h
  obtain ⟨node, s1, h1, h2⟩ := M.bind_ok hr
  obtain ⟨_, _, rfl⟩ := M.addEdge_ok h2
  refine (more_addEdge ..).log _ ?_
  have := (calls_triv env hM k).findOrLoad none x true [] s trivial (.inl rfl)
  unfold Ret at this
  rw [h1] at this
  exact this.2.1.ev h

omit hO hT hD hP hmy in
theorem addModule_failed (k : Nat) {x : Str} {s s' : St W} {r : Node}
    (hr : addModule (calls env k) x s = (.ok r, s')) (h : Event.failed ∈ s.log) : Event.failed ∈ s'.log := by
  unfold addModule at hr
  obtain ⟨f, s1, h1, h2⟩ := M.bind_ok hr
  obtain ⟨rfl, hf, _⟩ := M.findModule_ok h1
  obtain ⟨node, s2, h3, h4⟩ := M.bind_ok h2
  obtain ⟨_, s3, h5, h6⟩ := M.bind_ok h4
  obtain ⟨_, s4, h7, h8⟩ := M.bind_ok h6
  obtain ⟨_, rfl⟩ := M.pure_ok h8
  obtain ⟨_, rfl⟩ := M.addRoot_ok h5
  refine failed_drain hM k ?_ h7
  cases f with
  | some n =>
    obtain ⟨rfl, rfl⟩ := M.pure_ok h3
    exact h
  | none =>
    have := (calls_triv env hM k).findOrLoad none x true [] s1 trivial (.inl rfl)
    unfold Ret at this
    simp only [] at h3
    rw [h3] at this
    exact this.2.1.ev h

theorem addModule_between (k : Nat) {x : Str} (ho : S.asksModule x) {s s' : St W} {r : Node}
    (h : Between S env s) (hr : addModule (calls env k) x s = (.ok r, s')) : Between S env s' := by
  rcases h with h | ⟨h, hst⟩
  · exact .inl (addModule_failed hM k hr h)
  · exact addModule_passing hO hT hD hP hM hmy k ho h hst hr

omit hO hT hD hP hM hmy in
theorem forEach_between {α : Type} {f : α → M W Unit} : ∀ (l : List α) {s s' : St W},
    (∀ x ∈ l, ∀ s s', Between S env s → f x s = (.ok (), s') → Between S env s') →
    Between S env s → M.forEach l f s = (.ok (), s') → Between S env s' := by
  intro l
  induction l with
  | nil => intro s s' _ h hr; cases hr; exact h
  | cons x l ih =>
    intro s s' hf h hr
    obtain ⟨_, s1, h1, h2⟩ := M.bind_ok hr
    exact ih (fun y hy => hf y (List.mem_cons_of_mem _ hy)) (hf x (List.mem_cons_self ..) s s1 h h1) h2

omit hP hM hmy in
theorem Passing.worldTo {s : St W} (h : Passing S env s) (w : W) : Passing S env { s with world := w } :=
  h.idle ⟨rfl, rfl, rfl, fun _ _ h => h, rfl⟩ ((exactCtx env hO hT hD).world (O := []) w ⟨h.core, by simp⟩).1
    fun n hn => (h.scans n hn).more (fun _ h => h) (fun _ h => h) (by simp)

theorem source_passing (k : Nat) {src : Str}
    (ho : ∀ infos, S.sources src = some infos → ∀ x, InSource infos x → S.asksModule x) {s s' : St W}
    (h : Passing S env s) (hst : s.stack = []) (hr : addDependenciesForSource env (calls env k) src s = (.ok (), s')) :
    Between S env s' := by
  unfold addDependenciesForSource at hr
  obtain ⟨infos, s1, h1, h2⟩ := M.bind_ok hr
  obtain ⟨hp, rfl⟩ := M.ext_ok h1
  have hin := ho infos (hD.source _ _ _ hp)
  refine forEach_between infos ?_ (.inr ⟨h.worldTo hO hT hD (env.parseSource src s.world).2, hst⟩) h2
  intro info hi s s' h hr
  obtain ⟨_, s2, h3, h4⟩ := M.bind_ok hr
  refine forEach_between info.importNames ?_
    (addModule_between hO hT hD hP hM hmy k (hin _ ⟨info, hi, .inl rfl⟩) h h3) h4
  intro nm hn s s' h hr
  obtain ⟨_, s5, h5, h6⟩ := M.bind_ok hr
  obtain ⟨_, rfl⟩ := M.pure_ok h6
  exact addModule_between hO hT hD hP hM hmy k (hin _ ⟨info, hi, .inr ⟨nm, hn, rfl⟩⟩) h h5

omit hmy in
theorem names_passing (k : Nat) {d : Dist} (ho : S.asksDist d) : ∀ (l : List Str) {s s' : St W},
    (∀ x ∈ l, x ∈ d.importNames) → Passing S env s →
    (∀ Y ∈ s.stack, ∀ y, Y.owner = some y → ∃ a ∈ d.importNames, S.Draws a y) →
    M.forEach l (fun name => M.bind ((calls env k).findOrLoad none name true) fun node =>
      M.addEdge d.identifier node.ident defaultDep) s = (.ok (), s') →
    Event.failed ∈ s'.log ∨ Passing S env s' := by
  intro l
  induction l with
  | nil =>
    intro s s' _ h _ hr
    cases hr
    exact .inr h
  | cons x l ih =>
    intro s s' hl h hb hr
    obtain ⟨_, s1, h1, h2⟩ := M.bind_ok hr
    obtain ⟨node, s2, h3, h4⟩ := M.bind_ok h1
    obtain ⟨_, _, rfl⟩ := M.addEdge_ok h4
    have hx : x ∈ d.importNames := hl x (List.mem_cons_self ..)
    rcases load_passing hO hT hD hP hM k (.distribution ho hx) h (by
      intro Y hY y hy z hz
      obtain ⟨a, h5, h6⟩ := hb Y hY y hy
      exact .inl ⟨z, .distribution ho h5 hx h6 hz, .here⟩) h3 with h5 | ⟨h5, h6, h7, h8⟩
    · left
      exact names_failed hM k h2 ((more_addEdge ..).log _ h5)
    · refine ih (fun y hy => hl y (List.mem_cons_of_mem _ hy)) (h5.linked (h6 ▸ .distribution ho hx)) ?_ h2
      intro Y hY y hy
      have hst : (s2.addEdge d.identifier node.ident defaultDep).stack = s2.stack := by
        unfold St.addEdge; split <;> rfl
      rw [hst] at hY
      rcases h8 Y hY with hY | hY
      · exact hb Y hY y hy
      · exact ⟨x, hx, hY y hy⟩

theorem addDistribution_passing (k : Nat) {d : Dist} (ho : S.asksDist d) {o : ApiOp} (hA : S.Asks o)
    (hx : AsksFor env o d.identifier) {s s' : St W} {r : Node}
    (h : Passing S env s) (hst : s.stack = []) (hr : addDistribution (calls env k) d s = (.ok r, s')) :
    Between S env s' := by
  unfold addDistribution at hr
  obtain ⟨f, s1, h1, h2⟩ := M.bind_ok hr
  obtain ⟨hf, rfl⟩ : Except.ok (s.find d.identifier) = Except.ok f ∧ s = s1 := by
    rw [M.findNode_apply] at h1
    exact Prod.mk.inj h1
  cases f with
  | some n =>
    obtain ⟨_, s2, h3, h4⟩ := M.bind_ok h2
    obtain ⟨_, rfl⟩ := M.pure_ok h4
    obtain ⟨_, rfl⟩ := M.assert_ok h3
    exact .inr ⟨h, hst⟩
  | none =>
    simp only [] at h2
    obtain ⟨_, s3, h5, h6⟩ := M.bind_ok h2
    obtain ⟨hno, rfl⟩ := M.addNode_ok h5
    obtain ⟨_, s4, h7, h8⟩ := M.bind_ok h6
    obtain ⟨hhas, rfl⟩ := M.addRoot_ok h7
    obtain ⟨_, s5, h9, h10⟩ := M.bind_ok h8
    obtain ⟨_, s6, h11, h12⟩ := M.bind_ok h10
    obtain ⟨_, rfl⟩ := M.pure_ok h12
    have hP1 : Passing S env (s.addNode (distNode d)) := by
      have hscans : ∀ n ∈ (s.addNode (distNode d)).nodes, Origin env [] (s.addNode (distNode d)) n := by
        intro n hn
        rcases List.mem_append.mp hn with hn | hn
        · exact (h.scans n hn).more (fun _ h => h) (fun _ h => h) (by simp)
        · rw [List.mem_singleton.mp hn]
          exact .inl rfl
      exact h.next (tl := []) (new := []) (id := none) (s0 := s) (by simp) rfl rfl (fun _ _ h => h)
        ⟨by simp [St.addNode], fun n hn => List.mem_append_left _ hn, fun _ h => h, fun _ _ h => .inl h, by simp, .nil⟩
        (h.core.addNode (.inl rfl) hno (.distribution ho)) hscans h.hooks (by simp) (by simp)
    have hP2 := hP1.root hO hT hD hA hx hhas
    have hst2 : ((s.addNode (distNode d)).addRoot d.identifier).stack = [] := by
      unfold St.addRoot; split <;> exact hst
    rcases names_passing hO hT hD hP hM k ho d.importNames (fun _ h => h) hP2 (by simp [hst2]) h9 with h13 | h13
    · left
      have := (calls_triv env hM k).runStack s5 trivial
      unfold Ret at this
      rw [h11] at this
      exact this.2.1.ev h13
    · exact Passing.drain hO hT hD hP hM hmy k h13 h11

theorem op_passing (k : Nat) {o : ApiOp} (ho : S.Asks o) {s : St W} (h : Between S env s) :
    Between S env ((calls env k).op o s).2 := by
  rcases h with h | ⟨h, hst⟩
  · exact .inl (((calls_triv env hM k).op o s trivial trivial).2.ev h)
  cases k with
  | zero => exact .inr ⟨h, hst⟩
  | succ k =>
    show Between S env (opBody env (calls env k) o s).2
    unfold opBody
    rcases hr : apiBody env (calls env k) o s with ⟨e | r, s'⟩
    · exact .inl (by simp [St.event])
    · simp only []
      cases o with
      | addModule x =>
        obtain ⟨n, s1, h1, h2⟩ := M.bind_ok hr
        obtain ⟨_, rfl⟩ := M.pure_ok h2
        exact addModule_passing hO hT hD hP hM hmy k ho h hst h1
      | addScript x =>
        obtain ⟨n, s1, h1, h2⟩ := M.bind_ok hr
        obtain ⟨_, rfl⟩ := M.pure_ok h2
        exact addScript_passing hO hT hD hP hM hmy k ho h hst h1
      | runStack =>
        obtain ⟨n, s1, h1, h2⟩ := M.bind_ok hr
        obtain ⟨_, rfl⟩ := M.pure_ok h2
        exact Passing.drain hO hT hD hP hM hmy k h h1
      | addDependenciesForSource src =>
        obtain ⟨n, s1, h1, h2⟩ := M.bind_ok hr
        obtain ⟨_, rfl⟩ := M.pure_ok h2
        exact source_passing hO hT hD hP hM hmy k ho h hst h1
      | addDistribution d =>
        obtain ⟨n, s1, h1, h2⟩ := M.bind_ok hr
        obtain ⟨_, rfl⟩ := M.pure_ok h2
        exact addDistribution_passing hO hT hD hP hM hmy k ho (o := .addDistribution d) ho (.dist d) h hst h1
      | addDistributionNamed name =>
        obtain ⟨n, s1, h1, h2⟩ := M.bind_ok hr
        obtain ⟨_, rfl⟩ := M.pure_ok h2
        unfold addDistributionNamed at h1
        obtain ⟨f, s2, h3, h4⟩ := M.bind_ok h1
        obtain ⟨hp, rfl⟩ := M.ext_ok h3
        cases f with
        | none => cases h4
        | some d =>
          exact addDistribution_passing hO hT hD hP hM hmy k (ho d (hD.distribution _ _ _ hp))
            (o := .addDistributionNamed name) ho (.distNamed hp) (h.worldTo hO hT hD (env.distributionNamed name s.world).2) hst h4
      | _ => exact ho.elim

theorem client_passing (k : Nat) {p : Hook W} (hp : p.Only S.Asks) {s : St W} (h : Between S env s) :
    Between S env (runClient env k p s).2 := by
  unfold runClient
  induction hp generalizing s with
  | ret r => exact h
  | raise e => exact h
  | look _ ih =>
    refine ih s ?_
    rcases h with h | ⟨h, hst⟩
    · exact .inl (by simp [St.event, h])
    · refine .inr ⟨h.idle (Idles.event s (by simp)) ((exactCtx env hO hT hD).looked (O := []) ⟨h.core, by simp⟩).1 ?_, hst⟩
      exact fun n hn => (h.scans n hn).more (fun _ h => h) (fun _ h => by simp [St.event, h]) (by simp)
  | @setWorld w _ _ ih =>
    refine ih ?_
    rcases h with h | ⟨h, hst⟩
    · exact .inl h
    · refine .inr ⟨h.idle ⟨rfl, rfl, rfl, fun _ _ h => h, rfl⟩ ((exactCtx env hO hT hD).world (O := []) w ⟨h.core, by simp⟩).1 ?_, hst⟩
      exact fun n hn => (h.scans n hn).more (fun _ h => h) (fun _ h => h) (by simp)
  | @call op k2 ho _ ih =>
    have h1 := op_passing hO hT hD hP hM hmy k ho h
    show Between S env (M.bind (M.attempt ((calls env k).op op)) (fun r => interp (calls env k) (k2 r)) s).2
    cases hr : (calls env k).op op s with
    | mk r s1 =>
      rw [hr] at h1
      rcases M.attempt_cases hr with ⟨_, ha⟩ | ha
      · rw [M.bind_of_error ha]
        exact h1
      · rw [M.bind_of_ok ha]
        exact ih r h1
end

end
end Verif
