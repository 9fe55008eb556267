import Verif.Spec.PackageSpec
import Verif.Proofs.Completed
import Verif.Proofs.Results
import Verif.Proofs.Exec
/-! # What a completed `import_package` leaves behind -/
namespace Verif
open Spec
variable {W : Type} {α : Type}

/-- The work item waits or was started. -/
def Seen (it : Item) (s : St W) : Prop := it ∈ pending s ∨ Event.started it ∈ s.log

theorem NotLost.seen {s s' : St W} (h : NotLost s s') {it : Item} (hs : Seen it s) : Seen it s' := by
  have h1 := h fun x => decide (x = it)
  have h2 : 0 < (pending s).countP (fun x => decide (x = it)) +
      s.log.countP (isStart fun x => decide (x = it)) := by
    rcases hs with hs | hs
    · have := List.countP_pos_iff (p := fun x => decide (x = it)) |>.mpr ⟨it, hs, by simp⟩
      omega
    · have := List.countP_pos_iff (p := isStart fun x => decide (x = it)) |>.mpr
        ⟨_, hs, by simp [isStart]⟩
      omega
  rcases Nat.eq_zero_or_pos ((pending s').countP fun x => decide (x = it)) with h3 | h3
  · have h4 : 0 < s'.log.countP (isStart fun x => decide (x = it)) := by omega
    obtain ⟨e, he, hi⟩ := List.countP_pos_iff.mp h4
    cases e <;> simp [isStart] at hi
    subst hi
    exact .inr he
  · obtain ⟨x, hx, hi⟩ := List.countP_pos_iff.mp h3
    simp at hi; subst hi
    exact .inl hx

theorem keptClosed (s0 : St W) : SimplyClosed (Kept s0) := by
  have := (grewClosed s0).and (notLostClosed s0)
  rw [show (fun s => Grew s0 s ∧ NotLost s0 s) = Kept s0 from
    funext fun s => propext ⟨fun h => ⟨h.1, h.2⟩, fun h => ⟨h.toGrew, h.lost⟩⟩] at this
  exact this

theorem Kept.findOrLoad (env : Env W) (n : Nat) (i name lm) (s : St W) :
    Kept s ((calls env n).findOrLoad i name lm s).2 :=
  (((keptClosed s).good env n).findOrLoad i name lm [] s (.refl s)).2

theorem Kept.world (s : St W) (w) : Kept s { s with world := w } := (keptClosed s).world w (.refl s)
theorem Kept.pushPkg (s : St W) (n : Node) (name) :
    Kept s { s with stack := s.stack ++ [.pkg n name] } := (keptClosed s).pushPkg n name (.refl s)
theorem Kept.addEdge (s : St W) {a b} (d) (ha : s.has a = true) (hb : s.has b = true) :
    Kept s (s.addEdge a b d) := (keptClosed s).addEdge a b d (.refl s) ha hb

/-- A loop whose every round moves forward and leaves something that stays. -/
theorem forEach_each {f : α → M W Unit} {P : α → St W → Prop}
    (hf : ∀ a s s', f a s = (.ok (), s') → Kept s s' ∧ P a s')
    (hP : ∀ a s s', Kept s s' → P a s → P a s') {l : List α} {s s' : St W}
    (h : M.forEach l f s = (.ok (), s')) : Kept s s' ∧ ∀ a ∈ l, P a s' := by
  induction l generalizing s with
  | nil => obtain ⟨_, rfl⟩ := M.pure_ok h; exact ⟨.refl s, by simp⟩
  | cons x l ih =>
    obtain ⟨_, s1, h1, h2⟩ := M.bind_ok h
    obtain ⟨h3, h4⟩ := hf x s s1 h1
    obtain ⟨h5, h6⟩ := ih h2
    refine ⟨h3.trans h5, fun a ha => ?_⟩
    rcases List.mem_cons.mp ha with rfl | ha
    · exact hP _ _ _ h5 h4
    · exact h6 a ha

/-- The state after a completed `import_package(a, name)` that found `nd`. -/
structure PkgDone (env : Env W) (T : PkgTree) (a : Node) (name : Str) (nd : Node) (s : St W) : Prop where
  ident : nd.ident = name
  node : nd ∈ s.nodes
  edge : (a.ident, name, defaultDep) ∈ s.edges
  file : nd.isPackage = true → ∀ c, T.File env.isIdentifier name c →
    (name, name ++ '.' :: c, defaultDep) ∈ s.edges ∧ Seen (.pkg nd (name ++ '.' :: c)) s
  dir : nd.isPackage = true → ∀ c, T.Dir env.isIdentifier name c →
    Seen (.pkg nd (name ++ '.' :: c)) s

theorem PkgDone.kept {env : Env W} {T a name nd} {s s' : St W} (h : PkgDone env T a name nd s)
    (hk : Kept s s') : PkgDone env T a name nd s' where
  ident := h.ident
  node := hk.nodes.subset h.node
  edge := hk.edges _ h.edge
  file hp c hc := ⟨hk.edges _ (h.file hp c hc).1, hk.lost.seen (h.file hp c hc).2⟩
  dir hp c hc := hk.lost.seen (h.dir hp c hc)

theorem importPackage_done {env : Env W} (hM : ∀ k i n, (env.userMissing k i n).Passive) {T : PkgTree}
    (hT : ShowsTree env T) {n : Nat} {a : Node} {name : Str} {nd : Node} {s s' : St W}
    (h : (calls env n).importPackage a name s = (.ok nd, s')) : PkgDone env T a name nd s' := by
  have hG := calls_triv env hM n
  have hI := hG.importPackage a name s trivial (.inr trivial)
  rw [h] at hI
  obtain ⟨_, _, hid, hnode⟩ := hI
  cases n with
  | zero => simp [calls, callsZero, M.throw] at h
  | succ n =>
    have hG := calls_triv env hM n
    change importPackageBody env (calls env n) a name s = _ at h
    unfold importPackageBody at h
    obtain ⟨r, s1, _, h⟩ := M.bind_ok h
    obtain ⟨nd', s2, _, h⟩ := M.bind_ok h
    obtain ⟨_, s3, he, h⟩ := M.bind_ok h
    obtain ⟨ha, hb, rfl⟩ := M.addEdge_ok he
    have hedge : (a.ident, nd'.ident, defaultDep) ∈ (s2.addEdge a.ident nd'.ident defaultDep).edges :=
      (mem_addEdge ..).mpr (.inr rfl)
    split at h
    · rename_i hnp
      obtain ⟨rfl, rfl⟩ := M.pure_ok h
      refine ⟨hid, hnode, hid ▸ hedge, ?_, ?_⟩ <;> (intro hp; rw [hp] at hnp; cases hnp)
    · obtain ⟨sp, s4, h4, h⟩ := M.bind_ok h
      obtain ⟨h4a, rfl⟩ := M.ext_ok h4
      cases sp with
      | none => simp [M.throw] at h
      | some spec =>
        simp only [] at h
        obtain ⟨_, s5, h5, h⟩ := M.bind_ok h
        obtain ⟨rfl, rfl⟩ := M.pure_ok h
        rw [hT.locations name _ spec h4a] at h5
        have key := forEach_each (P := fun path s => ∀ c, env.isIdentifier c = true →
          (c ∈ T.files path → (name, name ++ '.' :: c, defaultDep) ∈ s.edges ∧
            Seen (.pkg nd' (name ++ '.' :: c)) s) ∧
          (c ∈ T.dirs path → Seen (.pkg nd' (name ++ '.' :: c)) s)) ?_ ?_ h5
        · obtain ⟨hk, hall⟩ := key
          refine ⟨hid, hnode, ?_, ?_, ?_⟩
          · rw [← hid]
            exact hk.edges _ hedge
          · rintro _ c ⟨path, h1, h2, h3⟩
            exact (hall path h1 c h3).1 h2
          · rintro _ c ⟨path, h1, h2, h3⟩
            exact (hall path h1 c h3).2 h2
        · intro path sa sb hr
          obtain ⟨stems, sc, hc, hr⟩ := M.bind_ok hr
          obtain ⟨hc1, rfl⟩ := M.ext_ok hc
          obtain rfl := hT.files path _ _ hc1
          obtain ⟨_, sd, hd, hr⟩ := M.bind_ok hr
          obtain ⟨dirs, se, hde, hr⟩ := M.bind_ok hr
          obtain ⟨hde1, rfl⟩ := M.ext_ok hde
          obtain rfl := hT.dirs path _ _ hde1
          obtain ⟨k1, p1⟩ := forEach_each (P := fun c s => env.isIdentifier c = true →
            (name, name ++ '.' :: c, defaultDep) ∈ s.edges ∧ Seen (.pkg nd' (name ++ '.' :: c)) s)
            (by
              intro c s s' hh
              split at hh
              · rename_i hni
                obtain ⟨_, rfl⟩ := M.pure_ok hh
                exact ⟨.refl _, fun hi => by rw [hi] at hni; cases hni⟩
              · obtain ⟨m, t1, ht1, hh⟩ := M.bind_ok hh
                obtain ⟨_, t2, ht2, hh⟩ := M.bind_ok hh
                obtain ⟨e1, e2, rfl⟩ := M.addEdge_ok ht2
                cases hh
                have hk := Kept.findOrLoad env n (some nd') (name ++ '.' :: c) true s
                have hm := hG.findOrLoad (some nd') (name ++ '.' :: c) true [] s trivial (.inl rfl)
                rw [ht1] at hk hm
                have hmi : m.ident = name ++ '.' :: c := hm.2.2.1
                refine ⟨hk.trans ((Kept.addEdge _ _ e1 e2).trans (Kept.pushPkg _ _ _)), fun _ => ?_⟩
                refine ⟨?_, .inl ?_⟩
                · have := (mem_addEdge t1 nd'.ident m.ident defaultDep (nd'.ident, m.ident, defaultDep)).mpr (.inr rfl)
                  rw [hmi, hid] at this
                  rw [hmi, hid]
                  exact this
                · show _ ∈ _ ++ (_ ++ _)
                  simp)
            (by
              intro c s s' hk hh hi
              exact ⟨hk.edges _ (hh hi).1, hk.lost.seen (hh hi).2⟩) hd
          obtain ⟨k2, p2⟩ := forEach_each (P := fun c s => env.isIdentifier c = true →
            Seen (.pkg nd' (name ++ '.' :: c)) s)
            (by
              intro c s s' hh
              split at hh
              · rename_i hni
                obtain ⟨_, rfl⟩ := M.pure_ok hh
                exact ⟨.refl _, fun hi => by rw [hi] at hni; cases hni⟩
              · cases hh
                refine ⟨Kept.pushPkg _ _ _, fun _ => .inl ?_⟩
                show _ ∈ _ ++ (_ ++ _)
                simp)
            (by
              intro c s s' hk hh hi
              exact hk.lost.seen (hh hi)) hr
          have kw := (Kept.world sd (env.subdirs path sd.world).2).trans k2
          refine ⟨(Kept.world _ _).trans (k1.trans kw), fun c hi => ⟨fun hc => ?_, fun hc => p2 c hc hi⟩⟩
          exact ⟨kw.edges _ (p1 c hc hi).1, kw.lost.seen (p1 c hc hi).2⟩
        · intro path s s' hk hh c hi
          exact ⟨fun hc => ⟨hk.edges _ ((hh c hi).1 hc).1, hk.lost.seen ((hh c hi).1 hc).2⟩,
            fun hc => hk.lost.seen ((hh c hi).2 hc)⟩

end Verif
