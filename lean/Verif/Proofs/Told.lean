import Verif.Spec.ToldSpec
import Verif.Proofs.EdgeFacts
import Verif.Proofs.SixTable
/-!
# What missing hooks are told
-/
namespace Verif
open M Spec
variable {W : Type} {α β : Type}

/-- Nodes and events are kept. -/
structure Fwd (s s' : St W) : Prop where
  nodes : ∀ n ∈ s.nodes, n ∈ s'.nodes
  log : ∀ e ∈ s.log, e ∈ s'.log

theorem Fwd.refl (s : St W) : Fwd s s := ⟨fun _ h => h, fun _ h => h⟩
theorem Fwd.trans {a b c : St W} (h : Fwd a b) (h' : Fwd b c) : Fwd a c :=
  ⟨fun n hn => h'.nodes n (h.nodes n hn), fun n hn => h'.log n (h.log n hn)⟩
theorem Fwd.has {s s' : St W} (h : Fwd s s') {x} (hx : Has s x) : Has s' x := by
  obtain ⟨n, h1, h2⟩ := hx
  exact ⟨n, h.nodes n h1, h2⟩

section
variable (env : Env W) (A : ApiOp → Prop) (conf : Str → Implies → Prop)

def TS (s : St W) (i : Option Node) (x : Str) : Prop := Told env A conf s.nodes s.log i x

def TItem (s : St W) : Item → Prop
  | .pp n => n ∈ s.nodes
  | .imp m i => m ∈ s.nodes ∧ Found s.log m.ident i
  | .nl a b i => a ∈ s.nodes ∧ Found s.log a.ident i ∧ b ∈ s.nodes ∧ Refers a i b.ident
  | .pkg _ q => Whole env A q ∧ (TS env A conf s none q ∨ Has s q)

structure TInv (s : St W) : Prop where
  asks : ∀ h x i, Event.asked h x i ∈ s.log → TS env A conf s i x
  items : ∀ it ∈ pending s, TItem env A conf s it
  lazy : ∀ x v, s.lazy x = some v → v = .excluded ∨ conf x v

/-- An outcome of a method that was started in `s`. -/
def Tr (s : St W) (r : Except Exc α × St W) (Q : α → St W → Prop) : Prop :=
  TInv env A conf r.2 ∧ Fwd s r.2 ∧ ∀ a, r.1 = .ok a → Q a r.2
end

section
variable {env : Env W} {A : ApiOp → Prop} {conf : Str → Implies → Prop} {s s' : St W} {Q : α → St W → Prop}

theorem Spec.Stands.mono {l l' : List Node} (h : ∀ n ∈ l, n ∈ l') {a b} (hs : Stands l a b) : Stands l' a b :=
  hs.imp id fun ⟨n, h1, h2⟩ => ⟨n, h n h1, h2⟩

theorem Spec.Found.mono {l l' : List Event} (h : ∀ n ∈ l, n ∈ l') {a i} (hs : Found l a i) : Found l' a i := by
  obtain ⟨infos, h1, h2⟩ := hs
  exact ⟨infos, h _ h1, h2⟩

theorem TS.mono (h : Fwd s s') {i x} (ht : TS env A conf s i x) : TS env A conf s' i x := by
  unfold TS at *
  induction ht with
  | asked h1 h2 h3 => exact .asked h1 h2 h3
  | distribution h1 h2 h3 => exact .distribution (h.nodes _ h1) h2 h3
  | whole h1 => exact .whole h1
  | directory h1 h2 => exact .directory h1 h2
  | file h1 h2 h3 => exact .file h1 h2 (h.nodes _ h3)
  | mypyc h1 h2 h3 h4 => exact .mypyc (h.nodes _ h1) h2 h3 h4
  | behind h1 h2 h3 h4 => exact .behind (h.nodes _ h1) h2 (h.nodes _ h3) h4
  | explicitNamespace h1 h2 => exact .explicitNamespace (h.nodes _ h1) h2
  | call h1 => exact .call h1
  | statement h1 h2 h3 => exact .statement (h.nodes _ h1) (h2.mono h.log) h3
  | fromName h1 h2 h3 h4 h5 => exact .fromName (h.nodes _ h1) (h2.mono h.log) h3 (h4.mono h.nodes) h5
  | sixMoves h1 h2 h3 h4 h5 h6 h7 h8 h9 =>
    exact .sixMoves (h.nodes _ h1) (h2.mono h.log) h3 (h4.mono h.nodes) (h.nodes _ h5) h6 h7 h8 h9
  | alias h1 h2 => exact .alias (h.nodes _ h1) h2
  | implied h1 h2 h3 => exact .implied (h.nodes _ h1) h2 h3
  | package _ h2 ih => exact .package ih h2

theorem TItem.mono (h : Fwd s s') {it} (ht : TItem env A conf s it) : TItem env A conf s' it := by
  cases it with
  | pp n => exact h.nodes _ ht
  | imp m i => exact ⟨h.nodes _ ht.1, ht.2.mono h.log⟩
  | nl a b i => exact ⟨h.nodes _ ht.1, ht.2.1.mono h.log, h.nodes _ ht.2.2.1, ht.2.2.2⟩
  | pkg a q => exact ⟨ht.1, ht.2.imp (TS.mono h) h.has⟩

/-- A change that asks nobody. -/
theorem TInv.next (h : TInv env A conf s) (hf : Fwd s s')
    (hl : ∀ k x i, Event.asked k x i ∈ s'.log → Event.asked k x i ∈ s.log)
    (hp : ∀ it ∈ pending s', it ∈ pending s ∨ TItem env A conf s' it)
    (hz : ∀ x v, s'.lazy x = some v → s.lazy x = some v ∨ v = .excluded ∨ conf x v) : TInv env A conf s' := by
  refine ⟨fun k x i hx => (h.asks k x i (hl k x i hx)).mono hf, fun it hit => ?_, fun x v hv => ?_⟩
  · rcases hp it hit with h1 | h1
    · exact (h.items it h1).mono hf
    · exact h1
  · rcases hz x v hv with h1 | h1
    · exact h.lazy x v h1
    · exact h1

theorem TInv.same (h : TInv env A conf s) (hf : Fwd s s')
    (hl : ∀ k x i, Event.asked k x i ∈ s'.log → Event.asked k x i ∈ s.log)
    (hp : ∀ it ∈ pending s', it ∈ pending s) (hz : s'.lazy = s.lazy) : TInv env A conf s' :=
  h.next hf hl (fun it hit => .inl (hp it hit)) fun x v hv => .inl (by rw [← hz]; exact hv)

theorem Fwd.event (s : St W) (e) : Fwd s (s.event e) := ⟨fun _ h => h, fun _ h => List.mem_append_left _ h⟩

theorem TInv.event (h : TInv env A conf s) (e : Event) (he : ∀ k x i, e ≠ .asked k x i) :
    TInv env A conf (s.event e) :=
  h.same (.event s e) (fun k x i hx => by
    simp only [St.event, List.mem_append, List.mem_singleton] at hx
    exact hx.resolve_right fun h => he _ _ _ h.symm) (fun _ h => h) rfl

theorem TInv.ask (h : TInv env A conf s) {x i} (ht : TS env A conf s i x) (k) :
    TInv env A conf (s.event (.asked k x i)) := by
  refine ⟨fun k' x' i' hx => ?_, fun it hit => (h.items it hit).mono (.event ..), h.lazy⟩
  simp only [St.event, List.mem_append, List.mem_singleton, Event.asked.injEq] at hx
  rcases hx with hx | ⟨rfl, rfl, rfl⟩
  · exact (h.asks _ _ _ hx).mono (.event ..)
  · exact ht.mono (.event ..)

theorem Fwd.addNode (s : St W) (n) : Fwd s (s.addNode n) := ⟨fun _ h => List.mem_append_left _ h, fun _ h => h⟩

theorem TInv.schedule (h : TInv env A conf s) {n : Node} (hn : n ∈ s.nodes) (infos) :
    TInv env A conf (s.schedule n infos) ∧ Fwd s (s.schedule n infos) := by
  have hf : Fwd s (s.schedule n infos) :=
    ⟨fun m hm => by rw [(more_schedule ..).nodes]; exact hm, (more_schedule ..).log⟩
  refine ⟨h.next hf (fun k x i hx => ?_) (fun it hit => ?_) (fun x v hv => .inl ?_), hf⟩
  · rw [log_schedule] at hx
    simpa using hx
  · rw [schedule_pending] at hit
    simp only [List.mem_append] at hit
    rcases hit with (h1 | h1) | h1
    · exact .inl h1
    · split at h1
      · simp at h1
      · simp only [List.mem_singleton] at h1
        subst h1
        exact .inr (hf.nodes _ hn)
    · obtain ⟨i, hi, rfl⟩ := List.mem_map.mp h1
      exact .inr ⟨hf.nodes _ hn, infos, by rw [log_schedule]; simp, hi⟩
  · have : (s.schedule n infos).lazy = s.lazy := by unfold St.schedule; simp only []; split <;> rfl
    rw [← this]; exact hv

theorem Tr.bind {m : M W β} {f : β → M W α} {Q1 : β → St W → Prop} (h : Tr env A conf s (m s) Q1)
    (h' : ∀ a s1, TInv env A conf s1 → Fwd s s1 → Q1 a s1 → Tr env A conf s1 (f a s1) Q) :
    Tr env A conf s (M.bind m f s) Q := by
  unfold M.bind
  obtain ⟨h1, h2, h3⟩ := h
  cases hm : m s with
  | mk r s1 =>
    rw [hm] at h1 h2 h3
    cases r with
    | ok a =>
      obtain ⟨k1, k2, k3⟩ := h' a s1 h1 h2 (h3 a rfl)
      exact ⟨k1, h2.trans k2, k3⟩
    | error e => exact ⟨h1, h2, by simp⟩

theorem Tr.weaken {r : Except Exc α × St W} {Q' : α → St W → Prop} (h : Tr env A conf s r Q)
    (hq : ∀ a s', Fwd s s' → Q a s' → Q' a s') : Tr env A conf s r Q' :=
  ⟨h.1, h.2.1, fun a ha => hq a _ h.2.1 (h.2.2 a ha)⟩

theorem Tr.pure {a : α} (h : TInv env A conf s) (hq : Q a s) : Tr env A conf s (M.pure a s) Q :=
  ⟨h, .refl s, by rintro b ⟨⟩; exact hq⟩

theorem Tr.throw {e} (h : TInv env A conf s) : Tr env A conf s (M.throw e s) Q := ⟨h, .refl s, by simp [M.throw]⟩

theorem Tr.ofExcept {r : Except Exc α} (h : TInv env A conf s) (hq : ∀ a, r = .ok a → Q a s) :
    Tr env A conf s (M.ofExcept r s) Q := ⟨h, .refl s, hq⟩

theorem TInv.world (h : TInv env A conf s) (w) : TInv env A conf { s with world := w } :=
  h.same ⟨fun _ h => h, fun _ h => h⟩ (fun _ _ _ h => h) (fun _ h => h) rfl

theorem Tr.ext {x : Ext W α} (h : TInv env A conf s) :
    Tr env A conf s (M.ext x s) fun a _ => (x s.world).1 = .ok a :=
  ⟨h.world _, ⟨fun _ h => h, fun _ h => h⟩, fun _ ha => ha⟩

theorem Tr.modify {f : St W → St W} (h : TInv env A conf (f s)) (hf : Fwd s (f s)) :
    Tr env A conf s (M.modify f s) fun _ s' => s' = f s := ⟨h, hf, fun _ _ => rfl⟩

theorem Tr.assert {b} (h : TInv env A conf s) : Tr env A conf s (M.assert b s) fun _ _ => True := by
  unfold M.assert
  split
  · exact .pure h trivial
  · exact .throw h

theorem Tr.findNode {x} (h : TInv env A conf s) :
    Tr env A conf s (M.findNode x s) fun r s' => s' = s ∧ r = s.find x :=
  ⟨h, .refl s, by rintro a ⟨⟩; exact ⟨rfl, rfl⟩⟩

theorem Tr.findModule {x} (h : TInv env A conf s) :
    Tr env A conf s (M.findModule x s) fun r s' => s' = s ∧
      (∀ n, r = some n → n.ident = x ∧ n ∈ s.nodes) ∧ (r = none → ¬ Has s x) := by
  unfold M.findModule
  cases hf : s.find x with
  | none =>
    refine ⟨h, .refl s, ?_⟩
    rintro a ⟨⟩
    refine ⟨rfl, by simp, fun _ hh => ?_⟩
    exact absurd (has_of_Has hh) (by rw [find_none hf]; simp)
  | some n =>
    simp only []
    split
    · exact ⟨h, .refl s, by rintro a ⟨⟩; exact ⟨rfl, by rintro m ⟨⟩; exact ⟨(find_some hf).2, (find_some hf).1⟩, by simp⟩⟩
    · exact ⟨h, .refl s, by simp⟩

theorem Tr.addNode {n : Node} (h : TInv env A conf s) :
    Tr env A conf s (M.addNode n s) fun _ s' => n ∈ s'.nodes := by
  unfold M.addNode
  split
  · exact ⟨h, .refl s, by simp⟩
  · exact ⟨h.same (.addNode ..) (fun _ _ _ h => h) (fun _ h => h) rfl, .addNode .., fun _ _ => by simp [St.addNode]⟩

theorem Tr.addEdge {a b d} (h : TInv env A conf s) : Tr env A conf s (M.addEdge a b d s) fun _ _ => True := by
  unfold M.addEdge St.addEdge
  split
  · split
    · exact ⟨h, .refl s, fun _ _ => trivial⟩
    · exact ⟨h.same ⟨fun _ h => h, fun _ h => h⟩ (fun _ _ _ h => h) (fun _ h => h) rfl,
        ⟨fun _ h => h, fun _ h => h⟩, fun _ _ => trivial⟩
  · exact ⟨h, .refl s, fun _ _ => trivial⟩

theorem Tr.addRoot {a} (h : TInv env A conf s) : Tr env A conf s (M.addRoot a s) fun _ _ => True := by
  unfold M.addRoot St.addRoot
  split
  · split
    · exact ⟨h, .refl s, fun _ _ => trivial⟩
    · exact ⟨h.same ⟨fun _ h => h, fun _ h => h⟩ (fun _ _ _ h => h) (fun _ h => h) rfl,
        ⟨fun _ h => h, fun _ h => h⟩, fun _ _ => trivial⟩
  · exact ⟨h, .refl s, fun _ _ => trivial⟩

theorem Tr.schedule {n : Node} {infos} (h : TInv env A conf s) (hn : n ∈ s.nodes) :
    Tr env A conf s (M.schedule n infos s) fun _ _ => True :=
  ⟨(h.schedule hn infos).1, (h.schedule hn infos).2, fun _ _ => trivial⟩

theorem Tr.addGlobals {a l} (h : TInv env A conf s) :
    Tr env A conf s (M.modify (fun s => s.addGlobals a l) s) fun _ _ => True :=
  ⟨h.same ⟨fun _ h => h, fun _ h => h⟩ (fun _ _ _ h => h) (fun _ h => h) rfl,
    ⟨fun _ h => h, fun _ h => h⟩, fun _ _ => trivial⟩

theorem Tr.attempt {m : M W α} (h : Tr env A conf s (m s) Q) :
    Tr env A conf s (M.attempt m s) fun r s' => ∀ a, r = .ok a → Q a s' := by
  obtain ⟨h1, h2, h3⟩ := h
  cases hm : m s with
  | mk r s1 =>
    rw [hm] at h1 h2 h3
    rcases M.attempt_cases hm with ⟨_, ha⟩ | ha <;> rw [ha]
    · exact ⟨h1, h2, by simp⟩
    · exact ⟨h1, h2, by rintro b ⟨⟩ a ha; exact h3 a ha⟩

theorem Tr.forEach {l : List β} {f : β → M W Unit} (h : TInv env A conf s)
    (hf : ∀ a ∈ l, ∀ s1, TInv env A conf s1 → Fwd s s1 → Tr env A conf s1 (f a s1) fun _ _ => True) :
    Tr env A conf s (M.forEach l f s) fun _ _ => True := by
  induction l generalizing s with
  | nil => exact .pure h trivial
  | cons a l ih =>
    refine .bind (hf a (by simp) s h (.refl s)) fun _ s1 h1 hf1 _ => ih h1 fun b hb s2 h2 hf2 => ?_
    exact hf b (by simp [hb]) s2 h2 (hf1.trans hf2)

theorem Tr.savedStack {m : M W α} (h : TInv env A conf s)
    (hm : ∀ s1, TInv env A conf s1 → Fwd s s1 → Tr env A conf s1 (m s1) Q)
    (hq : ∀ a t t', Q a t → t'.nodes = t.nodes → t'.log = t.log → Q a t') :
    Tr env A conf s (M.savedStack m s) Q := by
  have h1 : TInv env A conf { s with stack := [], hidden := s.hidden ++ s.stack } :=
    h.same ⟨fun _ h => h, fun _ h => h⟩ (fun _ _ _ h => h) (fun it h => by simpa [pending] using h) rfl
  obtain ⟨k1, k2, k3⟩ := hm _ h1 ⟨fun _ h => h, fun _ h => h⟩
  unfold M.savedStack
  simp only []
  generalize m { s with stack := [], hidden := s.hidden ++ s.stack } = r at k1 k2 k3
  have hf : Fwd s r.2 := ⟨k2.nodes, k2.log⟩
  refine ⟨⟨fun k x i hx => (k1.asks k x i hx).mono ⟨fun _ h => h, fun _ h => h⟩, fun it hit => ?_, k1.lazy⟩,
    ⟨hf.nodes, hf.log⟩, fun a ha => hq a _ _ (k3 a ha) rfl rfl⟩
  simp only [pending, List.mem_append] at hit
  rcases hit with hit | hit | hit
  · exact (h.items it (by simp [pending, hit])).mono ⟨hf.nodes, hf.log⟩
  · exact (h.items it (by simp [pending, hit])).mono ⟨hf.nodes, hf.log⟩
  · exact (k1.items it (by simp [pending, hit])).mono ⟨fun _ h => h, fun _ h => h⟩

/-- The node of that name, in the graph. -/
def IsT (x : Str) (n : Node) (s : St W) : Prop := n.ident = x ∧ n ∈ s.nodes

variable (env A conf) in
structure TGood (rec : Calls W) : Prop where
  findOrLoad : ∀ i x lm s, TInv env A conf s → TS env A conf s i x →
    Tr env A conf s (rec.findOrLoad i x lm s) (IsT x)
  implied : ∀ i x s, TInv env A conf s → TS env A conf s i x →
    Tr env A conf s (rec.implied i x s) fun r s' => ∀ n, r = some n → IsT x n s'
  loadModule : ∀ i x s, TInv env A conf s → TS env A conf s i x → Tr env A conf s (rec.loadModule i x s) (IsT x)
  createMissing : ∀ i x s, TInv env A conf s → TS env A conf s i x →
    Tr env A conf s (rec.createMissing i x s) (IsT x)
  callMissing : ∀ k i x s, TInv env A conf s → TS env A conf s i x →
    Tr env A conf s (rec.callMissing k i x s) fun r s' => ∀ n, r = some n → IsT x n s'
  importPackage : ∀ a q s, TInv env A conf s → Whole env A q → (TS env A conf s none q ∨ Has s q) →
    Tr env A conf s (rec.importPackage a q s) fun _ _ => True
  runStack : ∀ s, TInv env A conf s → Tr env A conf s (rec.runStack s) fun _ _ => True
  callPost : ∀ k n s, TInv env A conf s → n ∈ s.nodes → Tr env A conf s (rec.callPost k n s) fun _ _ => True
  op : ∀ o s, TInv env A conf s → (A o ∨ ∃ x, o = .addModule x ∧ TS env A conf s none x) →
    Tr env A conf s (rec.op o s) fun _ _ => True

theorem IsT.mono {x n} (h : IsT x n s) (hf : Fwd s s') : IsT x n s' := ⟨h.1, hf.nodes _ h.2⟩

section
variable {rec : Calls W} (hR : TGood env A conf rec)

theorem Tr.passive {h : Hook W} (hh : h.Passive) (hs : TInv env A conf s) :
    Tr env A conf s (interp rec h s) fun r _ => r = none := by
  induction hh generalizing s with
  | ret => exact .pure hs rfl
  | raise e => exact .throw hs
  | look _ ih =>
    obtain ⟨h1, h2, h3⟩ := ih s (hs.event (.looked s.nodes s.edges s.roots) (by simp))
    exact ⟨h1, (Fwd.event ..).trans h2, h3⟩
  | @setWorld w _ _ ih =>
    obtain ⟨h1, h2, h3⟩ := ih (hs.world w)
    exact ⟨h1, ⟨h2.nodes, h2.log⟩, h3⟩

include hR in
theorem Tr.only {h : Hook W} (hh : h.Only A) (hs : TInv env A conf s) :
    Tr env A conf s (interp rec h s) fun _ _ => True := by
  induction hh generalizing s with
  | ret => exact .pure hs trivial
  | raise e => exact .throw hs
  | look _ ih =>
    obtain ⟨h1, h2, h3⟩ := ih s (hs.event (.looked s.nodes s.edges s.roots) (by simp))
    exact ⟨h1, (Fwd.event ..).trans h2, h3⟩
  | @setWorld w _ _ ih =>
    obtain ⟨h1, h2, h3⟩ := ih (hs.world w)
    exact ⟨h1, ⟨h2.nodes, h2.log⟩, h3⟩
  | call ho _ ih => exact .bind (hR.op _ _ hs (.inl ho)).attempt fun r s1 h1 _ _ => ih r h1

theorem swig_told {i x} (hs : TInv env A conf s) :
    Tr env A conf s (swigHook env i x s) fun r s' => ∀ n, r = some n → IsT x n s' := by
  have nn : ∀ {t : St W}, TInv env A conf t →
      Tr env A conf t (M.pure none t) fun r s' => ∀ n, r = some n → IsT x n s' := fun h => .pure h (by simp)
  unfold swigHook
  cases i with
  | none => exact nn hs
  | some imp =>
    simp only []
    split
    · exact nn hs
    split
    · exact nn hs
    rw [M.bind_of_ok (M.get_apply s)]
    split
    · exact nn hs
    refine .bind (Tr.ext hs).attempt fun r s1 h1 _ _ => ?_
    refine .bind (Q1 := fun _ _ => True) ?_ fun sp s2 h2 _ _ => ?_
    · cases r with
      | ok sp => exact .pure h1 trivial
      | error e =>
        simp only []
        split
        · refine .bind (.ext h1) fun sp s2 h2 _ _ => ?_
          cases sp with
          | none => exact .throw h2
          | some sp =>
            dsimp only
            cases sp.origin with
            | none => exact .throw h2
            | some o =>
              refine .bind (Q1 := fun _ _ => True) ⟨h2.world _, ⟨fun _ h => h, fun _ h => h⟩, fun _ _ => trivial⟩ fun _ s3 h3 _ _ => ?_
              refine .bind (.ext h3) fun _ s4 h4 _ _ => .bind (.ext h4) fun _ s5 h5 _ _ => .pure h5 trivial
        · exact .throw h1
    · cases sp with
      | none => exact nn h2
      | some sp =>
        refine .bind (.ext h2) fun p s3 h3 _ _ => ?_
        split
        · exact nn h3
        refine .bind (.assert h3) fun _ s4 h4 _ _ => ?_
        refine .bind (.addNode h4) fun _ s5 h5 _ hm => .pure h5 ?_
        rintro n ⟨⟩
        exact ⟨rfl, hm⟩

include hR in
theorem callMissing_told (hM : ∀ k i n, (env.userMissing k i n).Passive) {k i x} (hs : TInv env A conf s)
    (ht : TS env A conf s i x) :
    Tr env A conf s (callMissingBody env rec k i x s) fun r s' => ∀ n, r = some n → IsT x n s' := by
  unfold callMissingBody
  rw [M.bind_of_ok (M.get_apply s)]
  cases s.missHooks[k]? with
  | none => exact .pure hs (by simp)
  | some h =>
    refine .bind (.modify (hs.ask ht h) (.event ..)) fun _ s1 h1 hf1 _ => ?_
    refine .bind (Q1 := fun r s' => ∀ n, r = some n → IsT x n s') ?_ fun r s2 h2 hf2 hr => ?_
    · cases h with
      | swig => exact swig_told h1
      | user k => exact (Tr.passive (hM ..) h1).weaken fun a s' _ ha n hn => by rw [ha] at hn; cases hn
    · cases r with
      | some n => exact .pure h2 hr
      | none => exact hR.callMissing _ _ _ _ h2 (ht.mono (hf1.trans hf2))

include hR in
theorem createMissing_told {i x} (hs : TInv env A conf s) (ht : TS env A conf s i x) :
    Tr env A conf s (createMissingBody rec i x s) (IsT x) := by
  unfold createMissingBody
  refine .bind (hR.callMissing 0 i x s hs ht) fun r s1 h1 _ hr => ?_
  cases r with
  | some n => exact .pure h1 (hr n rfl)
  | none =>
    refine .bind (.addNode h1) fun _ s2 h2 _ hm => .bind (.schedule h2 hm) fun _ s3 h3 hf _ => .pure h3 ?_
    exact ⟨rfl, hf.nodes _ hm⟩

include hR in
theorem implied_told {i x} (hs : TInv env A conf s) (ht : TS env A conf s i x) :
    Tr env A conf s (impliedBody rec i x s) fun r s' => ∀ n, r = some n → IsT x n s' := by
  unfold impliedBody
  refine .bind (.findNode hs) ?_
  rintro r s1 - - ⟨e, rfl⟩
  subst s1
  cases s.find x with
  | some n => exact .pure hs (by simp)
  | none =>
    simp only []
    rw [M.bind_of_ok (M.get_apply s)]
    cases hl : s.lazy x with
    | none => exact .pure hs (by simp)
    | some v =>
      have hv := hs.lazy x v hl
      refine .bind (.modify (hs.next ⟨fun _ h => h, fun _ h => h⟩ (fun _ _ _ h => h) (fun _ h => .inl h) ?_)
        ⟨fun _ h => h, fun _ h => h⟩) fun _ s1 h1 hf1 _ => ?_
      · intro y u hy
        simp only [] at hy
        split at hy
        · cases hy
        · exact .inl hy
      have ht1 := ht.mono hf1
      cases v with
      | excluded =>
        refine .bind (.addNode h1) fun _ s2 h2 _ hm => .bind (.schedule h2 hm) fun _ s3 h3 hf _ => .pure h3 ?_
        rintro n ⟨⟩
        exact ⟨rfl, hf.nodes _ hm⟩
      | alias t =>
        refine .bind (.addNode h1) fun _ s2 h2 _ hm => .bind (.schedule h2 hm) fun _ s3 h3 hf _ => ?_
        refine .bind (hR.findOrLoad _ _ _ _ h3 (.alias (hf.nodes _ hm) (.inl rfl))) fun o s4 h4 hf4 _ => ?_
        refine .bind (.addEdge h4) fun _ s5 h5 hf5 _ => .pure h5 ?_
        rintro n ⟨⟩
        exact ⟨rfl, hf5.nodes _ (hf4.nodes _ (hf.nodes _ hm))⟩
      | «virtual» t =>
        refine .bind (.addNode h1) fun _ s2 h2 _ hm => .bind (.schedule h2 hm) fun _ s3 h3 hf _ => ?_
        refine .bind (hR.findOrLoad _ _ _ _ h3 (.alias (hf.nodes _ hm) (.inr rfl))) fun o s4 h4 hf4 _ => ?_
        refine .bind (.addEdge h4) fun _ s5 h5 hf5 _ => .pure h5 ?_
        rintro n ⟨⟩
        exact ⟨rfl, hf5.nodes _ (hf4.nodes _ (hf.nodes _ hm))⟩
      | refs names =>
        refine .bind (hR.findOrLoad _ _ _ _ h1 ht1) fun n s2 h2 hf2 hn => ?_
        refine .bind (.forEach h2 fun y hy s3 h3 hf3 => ?_) fun _ s3 h3 hf3 _ => .pure h3 ?_
        · refine .bind (hR.findOrLoad _ _ _ _ h3 (.implied (hf3.nodes _ hn.2) ?_ hy)) fun _ s4 h4 _ _ => .addEdge h4
          rw [hn.1]
          exact hv.resolve_left (by simp)
        · rintro m ⟨⟩
          exact hn.mono hf3

include hR in
theorem loadFallback_told {i x e} (hs : TInv env A conf s) (ht : TS env A conf s i x) :
    Tr env A conf s (loadFallback env rec i x e s) (IsT x) := by
  unfold loadFallback
  split
  · simp only []
    rw [M.bind_of_ok (M.get_apply s)]
    split
    · exact .throw hs
    refine .bind (.ext hs) fun sp s1 h1 hf1 _ => ?_
    cases sp with
    | none => exact .throw h1
    | some spec =>
      simp only []
      rw [M.bind_of_ok (M.get_apply s1)]
      split
      · exact .throw h1
      refine .bind (.ext h1) fun b s2 h2 hf2 _ => ?_
      split
      · cases spec.origin with
        | none => exact .throw h2
        | some path =>
          simp only []
          split
          · exact .throw h2
          refine .bind (Q1 := fun _ _ => True) ⟨h2.world _, ⟨fun _ h => h, fun _ h => h⟩, fun _ _ => trivial⟩ fun _ s3 h3 hf3 _ => ?_
          exact hR.loadModule _ _ _ h3 (ht.mono ((hf1.trans hf2).trans hf3))
      · exact hR.createMissing _ _ _ h2 (ht.mono (hf1.trans hf2))
  · exact hR.createMissing _ _ _ hs ht

include hR in
theorem addLoaded_told {x spec} (hs : TInv env A conf s) :
    Tr env A conf s (addLoaded env rec x spec s) (IsT x) := by
  unfold addLoaded
  refine .bind (.ext hs) fun p s1 h1 _ _ => ?_
  obtain ⟨node, imports⟩ := p
  simp only []
  split
  · refine .bind (.addNode h1) fun _ s2 h2 _ hm => .bind (.schedule h2 hm) fun _ s3 h3 hf3 _ => ?_
    have ha := hf3.nodes _ hm
    refine .bind (.findNode h3) ?_
    rintro r s4 - - ⟨e, rfl⟩
    subst s4
    refine .bind (Q1 := fun _ _ => True) ?_ fun _ s4 h4 hf4 _ => .bind (.addEdge h4) fun _ s5 h5 hf5 _ =>
      .pure h5 ⟨rfl, hf5.nodes _ (hf4.nodes _ ha)⟩
    cases s3.find node.ident with
    | some _ => exact .pure h3 trivial
    | none =>
      refine .bind (.addNode h3) fun _ s4 h4 hf4 hn => .bind (.schedule h4 hn) fun _ s5 h5 hf5 _ => ?_
      refine .bind (Q1 := fun sp _ => splitPackage node.ident = .ok sp) (.ofExcept h5 fun _ h => h) fun sp s6 h6 hf6 hsp => ?_
      obtain ⟨pk, b⟩ := sp
      cases pk with
      | none => exact .pure h6 trivial
      | some pkg =>
        refine .bind (hR.findOrLoad _ _ _ _ h6 (.behind (hf6.nodes _ (hf5.nodes _ (hf4.nodes _ ha))) rfl
          (hf6.nodes _ (hf5.nodes _ hn)) (inPackage_of_split hsp))) fun _ s7 h7 _ _ => .addEdge h7
  · rename_i hi
    have hi : node.ident = x := by simpa using hi
    refine .bind (.addNode h1) fun _ s2 h2 _ hm => ?_
    refine .bind (Q1 := fun _ _ => True) ?_ fun _ s3 h3 hf3 _ => .bind (.schedule h3 (hf3.nodes _ hm)) fun _ s4 h4 hf4 _ =>
      .pure h4 ⟨hi, hf4.nodes _ (hf3.nodes _ hm)⟩
    generalize hk : node.kind = kd
    cases kd with
    | package fr init sp hd ns =>
      cases ns with
      | none => exact .pure h2 trivial
      | some ns => exact .bind (hR.findOrLoad _ _ _ _ h2 (.explicitNamespace hm hk)) fun _ s3 h3 _ _ => .addEdge h3
    | _ => exact .pure h2 trivial

include hR in
theorem loadModule_told {i x} (hs : TInv env A conf s) (ht : TS env A conf s i x) :
    Tr env A conf s (loadModuleBody env rec i x s) (IsT x) := by
  unfold loadModuleBody
  split
  · exact .throw hs
  refine .bind (.findNode hs) ?_
  rintro r s1 - - ⟨e, rfl⟩
  subst s1
  cases hf : s.find x with
  | some n => exact .pure hs ⟨(find_some hf).2, (find_some hf).1⟩
  | none =>
    refine .bind (Tr.attempt (Q := fun r s' => ∀ n, r = Sum.inl n → IsT x n s')
      (.bind (.ext hs) fun sp s1 h1 hf1 _ => ?_)) fun r s1 h1 hf1 hr => ?_
    · cases sp with
      | none =>
        refine .bind (hR.createMissing _ _ _ h1 (ht.mono hf1)) fun n s2 h2 _ hn => .pure h2 ?_
        rintro m ⟨⟩
        exact hn
      | some sp => exact .pure h1 (by simp)
    · rcases r with e | n | sp
      · simp only []
        split
        · exact loadFallback_told hR h1 (ht.mono hf1)
        · exact .throw h1
      · exact .pure h1 (hr _ rfl n rfl)
      · exact addLoaded_told hR h1

include hR in
theorem findOrLoad_told {i x lm} (hs : TInv env A conf s) (ht : TS env A conf s i x) :
    Tr env A conf s (findOrLoadBody rec i x lm s) (IsT x) := by
  unfold findOrLoadBody
  refine .bind (.findModule hs) ?_
  rintro r s1 - - ⟨e, hr, -⟩
  subst s1
  cases r with
  | some n => exact .pure hs (hr n rfl)
  | none =>
    refine .bind (Q1 := fun sp _ => splitPackage x = .ok sp) (.ofExcept hs fun _ h => h) fun sp s1 h1 hf1 hsp => ?_
    obtain ⟨pk, b⟩ := sp
    refine .bind (Q1 := fun r s' => ∀ n, r.2 = some n → IsT x n s') ?_ fun pn s2 h2 hf2 hpn => ?_
    · cases pk with
      | none => exact .pure h1 (by simp)
      | some pkg =>
        refine .bind (hR.findOrLoad _ _ _ _ h1 (.package (ht.mono hf1) (inPackage_of_split hsp))) fun p s2 h2 hf2 _ => ?_
        split
        · refine .bind (hR.createMissing _ _ _ h2 (ht.mono (hf1.trans hf2))) fun n s3 h3 _ hn => .pure h3 ?_
          rintro m ⟨⟩
          exact hn
        split
        · refine .bind (.addNode h2) fun _ s3 h3 _ hm => .bind (.schedule h3 hm) fun _ s4 h4 hf _ => .pure h4 ?_
          rintro m ⟨⟩
          exact ⟨rfl, hf.nodes _ hm⟩
        · exact .pure h2 (by simp)
    · refine .bind (Q1 := IsT x) ?_ fun n s3 h3 _ hn => ?_
      · cases hp : pn.2 with
        | some n => exact .pure h2 (hpn n hp)
        | none =>
          refine .bind (hR.implied _ _ _ h2 (ht.mono (hf1.trans hf2))) fun r s3 h3 hf3 hr => ?_
          cases r with
          | some n => exact .pure h3 (hr n rfl)
          | none => exact hR.loadModule _ _ _ h3 (ht.mono ((hf1.trans hf2).trans hf3))
      · cases pn.1 with
        | none => exact .pure h3 hn
        | some p =>
          simp only []
          split
          · exact .bind (.addEdge h3) fun _ s4 h4 hf4 _ => .pure h4 (hn.mono hf4)
          · exact .pure h3 hn

include hR in
theorem processImport_told {m : Node} {i : ImportInfo} (hs : TInv env A conf s) (hm : m ∈ s.nodes)
    (hi : Found s.log m.ident i) : Tr env A conf s (processImport rec m i s) fun _ _ => True := by
  unfold processImport
  refine .bind (Q1 := fun a _ => absoluteName m i = .ok a) (.ofExcept hs fun _ h => h) fun a s1 h1 hf1 ha => ?_
  cases a with
  | none =>
    simp only []
    refine .bind (.findModule h1) ?_
    rintro r s2 - - ⟨e, -⟩
    subst s2
    refine .bind (Q1 := fun _ _ => True) ?_ fun n s3 h3 _ _ => .bind (.addEdge h3) fun _ s4 h4 _ _ =>
      (Tr.modify (h4.event _ (by simp)) (.event ..)).weaken fun _ _ _ _ => trivial
    cases r with
    | none =>
      refine .bind (.addNode h1) fun _ s3 h3 _ hm => .bind (.schedule h3 hm) fun _ s4 h4 _ _ => .pure h4 trivial
    | some n => exact .bind (.assert h1) fun _ s3 h3 _ _ => .pure h3 trivial
  | some t =>
    simp only []
    rw [M.bind_of_ok (M.get_apply s1)]
    have hrf := refers_of_absoluteName ha
    have hm1 := hf1.nodes _ hm
    have hi1 := hi.mono hf1.log
    refine .bind (hR.findOrLoad _ _ _ _ h1 (.statement hm1 hi1 hrf)) fun n s2 h2 hf2 hn => ?_
    refine .bind (.addEdge h2) fun _ s3 h3 hf3 _ => ?_
    have hf : Fwd s3 { s3 with
        stack := s3.stack.take s1.stack.length ++ [.nl m n i] ++ s3.stack.drop s1.stack.length,
        log := s3.log ++ [.imported m.ident i n.ident] } := ⟨fun _ h => h, fun _ h => List.mem_append_left _ h⟩
    have hf0 := (hf2.trans hf3).trans hf
    refine (Tr.modify (h3.next hf ?_ ?_ fun _ _ h => .inl h) hf).weaken fun _ _ _ _ => trivial
    · intro k x j hx
      simpa using hx
    · intro it hit
      simp only [pending, List.mem_append, List.mem_singleton] at hit
      rcases hit with h | (h | h) | h
      · exact .inl (by simp [pending, h])
      · exact .inl (by simp [pending, List.mem_of_mem_take h])
      · subst h
        refine .inr ⟨hf0.nodes _ hm1, hi1.mono hf0.log, (hf3.trans hf).nodes _ hn.2, ?_⟩
        rw [hn.1]; exact hrf
      · exact .inl (by simp [pending, List.mem_of_mem_drop h])

include hR in
theorem processName_told {a b : Node} {i : ImportInfo} {nm : ImpName} {t} (hs : TInv env A conf s) (ha : a ∈ s.nodes)
    (hi : Found s.log a.ident i) (hr : Refers a i t) (hst : Stands s.nodes t b.ident) (hb : b ∈ s.nodes)
    (hnm : nm ∈ i.importNames) : Tr env A conf s (processName env rec a b i nm s) fun _ _ => True := by
  unfold processName
  rw [M.bind_of_ok (M.get_apply s)]
  simp only []
  have hsub : Tr env A conf s (M.bind (rec.findOrLoad (some a) (b.ident ++ '.' :: nm.name) false) (fun sub =>
    M.bind M.get fun s =>
    if sub.isMissing then
      match b.kind with
      | .package _ init _ _ _ =>
        if init.name = c!"@@SIX_MOVES@@" then
          match sixMove nm.name with
          | some target =>
            M.bind (rec.findOrLoad (some a) target true) fun depNode =>
            M.addEdge a.ident depNode.ident defaultDep
          | none => M.bind (M.addEdge sub.ident b.ident defaultDep) fun _ =>
              M.addEdge a.ident sub.ident (fromImportInfo i true nm.asname)
        else if (s.globalsWritten b).contains nm.name then M.pure ()
        else M.bind (M.addEdge sub.ident b.ident defaultDep) fun _ =>
              M.addEdge a.ident sub.ident (fromImportInfo i true nm.asname)
      | _ => M.bind (M.addEdge sub.ident b.ident defaultDep) fun _ =>
              M.addEdge a.ident sub.ident (fromImportInfo i true nm.asname)
    else M.bind (M.addEdge sub.ident b.ident defaultDep) fun _ =>
              M.addEdge a.ident sub.ident (fromImportInfo i true nm.asname)) s) fun _ _ => True := by
    refine .bind (hR.findOrLoad _ _ _ _ hs (.fromName ha hi hr hst hnm)) fun sub s1 h1 hf1 _ => ?_
    rw [M.bind_of_ok (M.get_apply s1)]
    have link : Tr env A conf s1 (M.bind (M.addEdge sub.ident b.ident defaultDep) (fun _ =>
        M.addEdge a.ident sub.ident (fromImportInfo i true nm.asname)) s1) fun _ _ => True :=
      .bind (.addEdge h1) fun _ s2 h2 _ _ => .addEdge h2
    split
    · generalize hk : b.kind = kd
      cases kd with
      | package fr init sp hd ns =>
        dsimp only
        split
        · rename_i hsix
          cases hmv : sixMove nm.name with
          | some target =>
            exact .bind (hR.findOrLoad _ _ _ _ h1 (.sixMoves (hf1.nodes _ ha) (hi.mono hf1.log) hr (hst.mono hf1.nodes)
              (hf1.nodes _ hb) hk hsix hnm (Props.sixMove_iff.mp hmv))) fun _ s2 h2 _ _ => .addEdge h2
          | none => exact link
        · split
          · exact .pure h1 trivial
          · exact link
      | _ => exact link
    · exact link
  split
  · cases reexported env s b nm.name with
    | some t => exact .addEdge hs
    | none =>
      dsimp only
      split
      · exact .pure hs trivial
      · exact hsub
  · split
    · exact .pure hs trivial
    · exact hsub

include hR in
theorem processNames_told {a b : Node} {i : ImportInfo} {t} (hs : TInv env A conf s) (ha : a ∈ s.nodes)
    (hi : Found s.log a.ident i) (hr : Refers a i t) (hst : Stands s.nodes t b.ident) (hb : b ∈ s.nodes) :
    Tr env A conf s (processNames env rec a b i s) fun _ _ => True := by
  unfold processNames
  refine .bind (.addGlobals hs) fun _ s1 h1 hf1 _ => .forEach h1 fun nm hnm s2 h2 hf2 => ?_
  have hf := hf1.trans hf2
  exact processName_told hR h2 (hf.nodes _ ha) (hi.mono hf.log) hr (hst.mono hf.nodes) (hf.nodes _ hb) hnm

include hR in
theorem processNamelist_told {a b : Node} {i : ImportInfo} (hs : TInv env A conf s) (ha : a ∈ s.nodes)
    (hi : Found s.log a.ident i) (hb : b ∈ s.nodes) (hr : Refers a i b.ident) :
    Tr env A conf s (processNamelist env rec a b i s) fun _ _ => True := by
  unfold processNamelist
  refine .bind (.assert hs) fun _ s1 h1 hf1 _ => ?_
  split
  · split
    · exact .addGlobals h1
    · exact .pure h1 trivial
  · split
    · generalize hk : b.kind = kd
      cases kd with
      | alias actual =>
        refine .bind (.addGlobals h1) fun _ s2 h2 hf2 _ => .bind (.findModule h2) ?_
        rintro r s3 - - ⟨e, hn, -⟩
        subst s3
        cases r with
        | none => exact .throw h2
        | some n =>
          have hf := hf1.trans hf2
          obtain ⟨h3, h4⟩ := hn n rfl
          simp only []
          split
          · exact processNames_told hR h2 (hf.nodes _ ha) (hi.mono hf.log) hr
              (.inr ⟨b, hf.nodes _ hb, rfl, by rw [h3]; exact hk⟩) h4
          · exact .pure h2 trivial
      | _ => exact processNames_told hR h1 (hf1.nodes _ ha) (hi.mono hf1.log) hr (.inl rfl) (hf1.nodes _ hb)
    · exact .pure h1 trivial

include hR in
theorem importPackage_told {a q} (hs : TInv env A conf s) (hw : Whole env A q)
    (hq : TS env A conf s none q ∨ Has s q) :
    Tr env A conf s (importPackageBody env rec a q s) fun _ _ => True := by
  unfold importPackageBody
  refine .bind (.findModule hs) ?_
  rintro r s1 - - ⟨e, hr, hr0⟩
  subst s1
  refine .bind (Q1 := IsT q) (.savedStack hs (fun s1 h1 hf1 => ?_) fun n t t' h hn _ => ⟨h.1, by rw [hn]; exact h.2⟩)
    fun node s1 h1 _ hn1 => ?_
  · refine .bind (Q1 := IsT q) ?_ fun n s2 h2 _ hn => .bind (hR.runStack _ h2) fun _ s3 h3 hf3 _ => .pure h3 (hn.mono hf3)
    cases r with
    | some n => exact .pure h1 (IsT.mono (hr n rfl) hf1)
    | none => exact hR.findOrLoad _ _ _ _ h1 ((hq.resolve_right (hr0 rfl)).mono hf1)
  · refine .bind (.addEdge h1) fun _ s2 h2 hf2 _ => ?_
    have hn2 := hn1.mono hf2
    split
    · exact .pure h2 trivial
    refine .bind (.ext h2) fun spec s3 h3 hf3 hsp => ?_
    have hn3 := hn2.mono hf3
    cases spec with
    | none => exact .throw h3
    | some spec =>
      refine .bind (.forEach h3 fun path hpath s4 h4 hf4 => ?_) fun _ s4 h4 _ _ => .pure h4 trivial
      have hn4 := hn3.mono hf4
      have push : ∀ {t : St W} {x}, TInv env A conf t → Whole env A x → (TS env A conf t none x ∨ Has t x) →
          Tr env A conf t (M.modify (fun s => { s with stack := s.stack ++ [.pkg node x] }) t) fun _ _ => True := by
        intro t x h hwx hx
        have hf : Fwd t { t with stack := t.stack ++ [.pkg node x] } := ⟨fun _ h => h, fun _ h => h⟩
        refine ⟨h.next hf (fun _ _ _ h => h) (fun it hit => ?_) (fun _ _ h => .inl h), hf, fun _ _ => trivial⟩
        simp only [pending, List.mem_append, List.mem_singleton, M.modify] at hit
        rcases hit with h | h | h
        · exact .inl (by simp [pending, h])
        · exact .inl (by simp [pending, h])
        · subst h
          exact .inr ⟨hwx, hx.imp (TS.mono hf) hf.has⟩
      refine .bind (.ext h4) fun stems s5 h5 hf5 hg => ?_
      have hn5 := hn4.mono hf5
      refine .bind (.forEach h5 fun c hc s6 h6 hf6 => ?_) fun _ s6 h6 _ _ => ?_
      · split
        · exact .pure h6 trivial
        have hfile : PyFileIn env q c := ⟨_, _, _, _, _, hsp, hpath, hg, hc⟩
        have hn6 := hn5.mono hf6
        have ht : TS env A conf s6 (some node) (q ++ '.' :: c) := by
          have := Told.file (env := env) (A := A) (conf := conf) (nodes := s6.nodes) (log := s6.log) (n := node) (c := c)
          rw [hn6.1] at this
          exact this hw hfile hn6.2
        refine .bind (hR.findOrLoad _ _ _ _ h6 ht) fun m s7 h7 _ hm => .bind (.addEdge h7) fun _ s8 h8 hf8 _ => ?_
        exact push h8 (.file hw hfile) (.inr (hf8.has ⟨m, hm.2, hm.1⟩))
      · refine .bind (.ext h6) fun dirs s7 h7 _ hd => .forEach h7 fun c hc s8 h8 hf8 => ?_
        split
        · exact .pure h8 trivial
        have hdir : SubdirIn env q c := ⟨_, _, _, _, _, hsp, hpath, hd, hc⟩
        exact push h8 (.dir hw hdir) (.inl (.directory hw hdir))

include hR in
theorem mypyc_told {n : Node} (hs : TInv env A conf s) (hn : n ∈ s.nodes) :
    Tr env A conf s (mypycHook env rec n s) fun _ _ => True := by
  unfold mypycHook
  cases mypycFile n with
  | none => exact .pure hs trivial
  | some file =>
    cases hd : n.distribution with
    | none => exact .pure hs trivial
    | some d =>
      cases file with
      | none => exact .pure hs trivial
      | some file =>
        dsimp only
        cases hf : d.importNames.find? (endsWith c!"__mypyc") with
        | none => exact .pure hs trivial
        | some helper =>
          dsimp only
          refine .bind (.ext hs) fun b s1 h1 hf1 _ => ?_
          split
          · exact .pure h1 trivial
          refine .bind (hR.op _ _ h1 (.inr ⟨_, rfl, .mypyc (hf1.nodes _ hn) hd (List.mem_of_find?_eq_some hf)
            (List.find?_some hf)⟩)) fun r s2 h2 hf2 _ => ?_
          cases r with
          | none => exact .throw h2
          | some m =>
            refine .bind (.addEdge h2) fun _ s3 h3 hf3 _ => .bind (.ext h3) fun code s4 h4 hf4 _ => ?_
            refine .bind (Tr.ext h4).attempt fun r s5 h5 hf5 _ => ?_
            have hn5 := (((hf1.trans hf2).trans hf3).trans hf4).trans hf5 |>.nodes _ hn
            split
            · exact .pure h5 trivial
            · exact .throw h5
            · split
              · exact .pure h5 trivial
              · exact .bind (.schedule h5 hn5) fun _ s6 h6 _ _ => hR.runStack _ h6

include hR in
theorem callPost_told (hP : ∀ k n, (env.userPost k n).Only A) {k n} (hs : TInv env A conf s) (hn : n ∈ s.nodes) :
    Tr env A conf s (callPostBody env rec k n s) fun _ _ => True := by
  unfold callPostBody
  rw [M.bind_of_ok (M.get_apply s)]
  cases s.postHooks[k]? with
  | none => exact .pure hs trivial
  | some h =>
    refine .bind (.modify (hs.event _ (by simp)) (.event ..)) fun _ s1 h1 hf1 _ => ?_
    refine .bind (Q1 := fun _ _ => True) ?_ fun _ s2 h2 hf2 _ =>
      hR.callPost _ _ _ h2 ((hf1.trans hf2).nodes _ hn)
    cases h with
    | mypyc => exact mypyc_told hR h1 (hf1.nodes _ hn)
    | user k => exact .bind (Tr.only hR (hP k n) h1) fun _ s2 h2 _ _ => .pure h2 trivial

include hR in
theorem runStack_told (hs : TInv env A conf s) : Tr env A conf s (runStackBody env rec s) fun _ _ => True := by
  unfold runStackBody
  have hpop : Tr env A conf s (popItem s) fun r s' => ∀ it, r = some it → TItem env A conf s' it := by
    unfold popItem
    cases hl : s.stack.getLast? with
    | none => exact ⟨hs, .refl s, by rintro a ⟨⟩; simp⟩
    | some it =>
      have hst : s.stack = s.stack.dropLast ++ [it] := by
        obtain ⟨l, hl⟩ := List.getLast?_eq_some_iff.mp hl
        rw [hl]; simp
      have hf : Fwd s { s with stack := s.stack.dropLast, log := s.log ++ [.started it] } :=
        ⟨fun _ h => h, fun _ h => List.mem_append_left _ h⟩
      refine ⟨hs.same hf (fun _ _ _ h => by simpa using h) (fun it' h => ?_) rfl, hf, ?_⟩
      · simp only [pending, List.mem_append] at h ⊢
        exact h.imp id fun h => (List.dropLast_sublist _).subset h
      · rintro a ⟨⟩ it' ⟨⟩
        refine (hs.items it ?_).mono hf
        simp only [pending, List.mem_append]
        exact .inr (by rw [hst]; simp)
  refine .bind hpop fun r s1 h1 _ hr => ?_
  cases r with
  | none => exact .pure h1 trivial
  | some it =>
    refine .bind (Q1 := fun _ _ => True) ?_ fun _ s2 h2 _ _ => hR.runStack _ h2
    have hi := hr it rfl
    cases it with
    | pp n => exact hR.callPost _ _ _ h1 hi
    | imp m i => exact processImport_told hR h1 hi.1 hi.2
    | nl a b i => exact processNamelist_told hR h1 hi.1 hi.2.1 hi.2.2.1 hi.2.2.2
    | pkg a q => exact .bind (hR.importPackage _ _ _ h1 hi.1 hi.2) fun _ s2 h2 _ _ => .pure h2 trivial

include hR in
theorem addModule_told {x} (hs : TInv env A conf s) (ht : TS env A conf s none x) :
    Tr env A conf s (addModule rec x s) fun _ _ => True := by
  unfold addModule
  refine .bind (.findModule hs) ?_
  rintro r s1 - - ⟨e, -⟩
  subst s1
  refine .bind (Q1 := fun _ _ => True) ?_ fun n s1 h1 _ _ => .bind (.addRoot h1) fun _ s2 h2 _ _ =>
    .bind (hR.runStack _ h2) fun _ s3 h3 _ _ => .pure h3 trivial
  cases r with
  | some n => exact .pure hs trivial
  | none => exact (hR.findOrLoad _ _ _ _ hs ht).weaken fun _ _ _ _ => trivial

include hR in
theorem addDistribution_told {d} (hs : TInv env A conf s) :
    Tr env A conf s (addDistribution rec d s) fun _ _ => True := by
  unfold addDistribution
  refine .bind (.findNode hs) ?_
  rintro r s1 - - ⟨e, rfl⟩
  subst s1
  cases s.find d.identifier with
  | some n => exact .bind (.assert hs) fun _ s1 h1 _ _ => .pure h1 trivial
  | none =>
    refine .bind (.addNode hs) fun _ s1 h1 _ hm => .bind (.addRoot h1) fun _ s2 h2 hf2 _ => ?_
    refine .bind (.forEach h2 fun x hx s3 h3 hf3 => ?_) fun _ s3 h3 _ _ => .bind (hR.runStack _ h3)
      fun _ s4 h4 _ _ => .pure h4 trivial
    exact .bind (hR.findOrLoad _ _ _ _ h3 (.distribution ((hf2.trans hf3).nodes _ hm) rfl hx))
      fun _ s4 h4 _ _ => .addEdge h4

include hR in
theorem op_told (hA : ∀ n infos, ¬ A (.processImportList n infos))
    (hC : ∀ l, A (.addImplies l) → ∀ x v, (x, v) ∈ l → conf x v) {o} (hs : TInv env A conf s)
    (ho : A o ∨ ∃ x, o = .addModule x ∧ TS env A conf s none x) :
    Tr env A conf s (opBody env rec o s) fun _ _ => True := by
  have hapi : Tr env A conf s (apiBody env rec o s) fun _ _ => True := by
    have some_ : ∀ {m : M W Node}, Tr env A conf s (m s) (fun _ _ => True) →
        Tr env A conf s (M.bind m (fun n => M.pure (some n)) s) fun _ _ => True :=
      fun h => .bind h fun _ s1 h1 _ _ => .pure h1 trivial
    have unit_ : ∀ {m : M W Unit}, Tr env A conf s (m s) (fun _ _ => True) →
        Tr env A conf s (M.bind m (fun _ => M.pure (none : Option Node)) s) fun _ _ => True :=
      fun h => .bind h fun _ s1 h1 _ _ => .pure h1 trivial
    have mod_ : ∀ {f : St W → St W}, TInv env A conf (f s) → Fwd s (f s) →
        Tr env A conf s (M.bind (M.modify f) (fun _ => M.pure (none : Option Node)) s) fun _ _ => True :=
      fun h hf => .bind (.modify h hf) fun _ s1 h1 _ _ => .pure h1 trivial
    rcases ho with ho | ⟨x, rfl, ht⟩
    · cases o with
      | addScript p =>
        refine some_ ?_
        unfold addScript
        refine .bind (.findModule hs) ?_
        rintro r s1 - - ⟨e, -⟩
        subst s1
        cases r with
        | some _ => exact .throw hs
        | none =>
          refine .bind (.ext hs) fun p s1 h1 _ _ => .bind (.addNode h1) fun _ s2 h2 _ hm =>
            .bind (.schedule h2 hm) fun _ s3 h3 _ _ => .bind (.addRoot h3) fun _ s4 h4 _ _ =>
            .bind (hR.runStack _ h4) fun _ s5 h5 _ _ => .pure h5 trivial
      | addModule x => exact some_ (addModule_told hR hs (.asked ho trivial (.module x)))
      | addDependenciesForSource src =>
        refine unit_ ?_
        unfold addDependenciesForSource
        refine .bind (.ext hs) fun infos s1 h1 _ hp => .forEach h1 fun i hi s2 h2 _ => ?_
        refine .bind (addModule_told hR h2 (.asked ho trivial (.source hp hi))) fun _ s3 h3 _ _ =>
          .forEach h3 fun nm hnm s4 h4 _ => ?_
        exact .bind (addModule_told hR h4 (.asked ho trivial (.sourceName hp hi hnm))) fun _ s5 h5 _ _ => .pure h5 trivial
      | addDistribution d => exact some_ (addDistribution_told hR hs)
      | addDistributionNamed nm =>
        refine some_ ?_
        unfold addDistributionNamed
        refine .bind (.ext hs) fun d s1 h1 _ _ => ?_
        cases d with
        | none => exact .throw h1
        | some d => exact addDistribution_told hR h1
      | importModule m x =>
        refine some_ ?_
        unfold importModule
        refine .bind (.findModule hs) ?_
        rintro r s1 - - ⟨e, -⟩
        subst s1
        refine .bind (Q1 := fun _ _ => True) ?_ fun n s1 h1 _ _ => .bind (.addEdge h1) fun _ s2 h2 _ _ => .pure h2 trivial
        cases r with
        | some n => exact .pure hs trivial
        | none => exact (hR.findOrLoad _ _ _ _ hs (.call ho)).weaken fun _ _ _ _ => trivial
      | importPackage a q => exact some_ (hR.importPackage _ _ _ hs (.asked ho) (.inl (.whole ho)))
      | runStack => exact unit_ (hR.runStack _ hs)
      | addMissingHook h =>
        exact mod_ (hs.same ⟨fun _ h => h, fun _ h => h⟩ (fun _ _ _ h => h) (fun _ h => h) rfl) ⟨fun _ h => h, fun _ h => h⟩
      | addPostHook h =>
        exact mod_ (hs.same ⟨fun _ h => h, fun _ h => h⟩ (fun _ _ _ h => h) (fun _ h => h) rfl) ⟨fun _ h => h, fun _ h => h⟩
      | addExcludes names =>
        have h : TInv env A conf (names.foldl addExclude s) ∧ Fwd s (names.foldl addExclude s) :=
          foldl_pres (P := fun t => TInv env A conf t ∧ Fwd s t) (f := addExclude) (fun t x ht =>
            ⟨ht.1.next ⟨fun _ h => h, fun _ h => h⟩ (fun _ _ _ h => h) (fun _ h => .inl h) (fun y v hv => by
              simp only [addExclude] at hv
              split at hv
              · cases hv; exact .inr (.inl rfl)
              · exact .inl hv), ht.2.trans ⟨fun _ h => h, fun _ h => h⟩⟩) names s ⟨hs, .refl s⟩
        exact mod_ h.1 h.2
      | addExcludesStr _ => exact .throw hs
      | addImplies l =>
        have h : ∀ (l' : List (Str × Implies)) (t : St W), (∀ p ∈ l', p ∈ l) → TInv env A conf t → Fwd s t →
            TInv env A conf (l'.foldl addImply t) ∧ Fwd s (l'.foldl addImply t) := by
          intro l'
          induction l' with
          | nil => exact fun t _ h1 h2 => ⟨h1, h2⟩
          | cons p l' ih =>
            intro t hl h1 h2
            refine ih _ (fun q hq => hl q (List.mem_cons_of_mem _ hq)) ?_ ?_
            · unfold addImply
              split
              · exact h1
              · refine h1.next ⟨fun _ h => h, fun _ h => h⟩ (fun _ _ _ h => h) (fun _ h => .inl h) (fun y v hv => ?_)
                simp only [] at hv
                split at hv
                · rename_i he
                  cases hv
                  exact .inr (.inr (hC l ho y _ (he ▸ hl p (by simp))))
                · exact .inl hv
            · unfold addImply
              split
              · exact h2
              · exact h2.trans ⟨fun _ h => h, fun _ h => h⟩
        exact mod_ (h l s (fun _ h => h) hs (.refl s)).1 (h l s (fun _ h => h) hs (.refl s)).2
      | addNode n => exact unit_ ((Tr.addNode hs).weaken fun _ _ _ _ => trivial)
      | addEdge a b d => exact unit_ (.addEdge hs)
      | addRoot r => exact unit_ (.addRoot hs)
      | processImportList n infos => exact absurd ho (hA n infos)
    · exact some_ (addModule_told hR hs ht)
  unfold opBody
  obtain ⟨h1, h2, -⟩ := hapi
  revert h1 h2
  cases apiBody env rec o s with
  | mk r s' =>
    intro h1 h2
    cases r with
    | ok a => exact ⟨h1, h2, fun _ _ => trivial⟩
    | error e => exact ⟨h1.event _ (by simp), h2.trans (.event ..), fun _ _ => trivial⟩

end

theorem calls_told (hA : ∀ n infos, ¬ A (.processImportList n infos))
    (hC : ∀ l, A (.addImplies l) → ∀ x v, (x, v) ∈ l → conf x v)
    (hP : ∀ k n, (env.userPost k n).Only A) (hM : ∀ k i n, (env.userMissing k i n).Passive) (n : Nat) :
    TGood env A conf (calls env n) := by
  induction n with
  | zero => constructor <;> intros <;> exact .throw (by assumption)
  | succ n ih =>
    exact {
      findOrLoad := fun _ _ _ _ hs ht => findOrLoad_told ih hs ht
      implied := fun _ _ _ hs ht => implied_told ih hs ht
      loadModule := fun _ _ _ hs ht => loadModule_told ih hs ht
      createMissing := fun _ _ _ hs ht => createMissing_told ih hs ht
      callMissing := fun _ _ _ _ hs ht => callMissing_told ih hM hs ht
      importPackage := fun _ _ _ hs hw hq => importPackage_told ih hs hw hq
      runStack := fun _ hs => runStack_told ih hs
      callPost := fun _ _ _ hs hn => callPost_told ih hP hs hn
      op := fun _ _ hs ho => op_told ih hA hC hs ho }

end
end Verif
