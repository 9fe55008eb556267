import Verif.Proofs.NoErrRun
import Verif.Props.Exact
import Verif.Proofs.Terminates
/-!
# Building a graph does not fail: the API
-/
namespace Verif
open M Spec
variable {W : Type}

section
variable {I : W → Prop} {S : Setup} {env : Env W} {rec : Calls W}

/-- Names of nodes that an operation may add. -/
def OpNames (S : Setup) (o : ApiOp) (x : Str) : Prop :=
  (S.NodeName x ∨ ∃ d, S.asksDist d ∧ x = d.identifier) ∨ o = .addScript x

/-- A loop that does not fail. -/
theorem forEach_ne {α : Type} {f : α → M W Unit} {s : St W} (l : List α) (h : Ready I S s) (hal : AliasOk s)
    (hf : ∀ a ∈ l, ∀ t, Ready I S t → AliasOk t → NE (f a t) fun _ s' => Ready I S s' ∧ Adds S.NodeName t s') :
    NE (M.forEach l f s) fun _ s' => Ready I S s' ∧ Adds S.NodeName s s' := by
  induction l generalizing s with
  | nil => exact ⟨h, .refl s⟩
  | cons a l ih =>
    refine .bind (hf a (List.mem_cons_self ..) s h hal) ?_
    rintro _ s1 ⟨h1, h2⟩
    refine (ih h1 (hal.grew h2) fun b hb => hf b (List.mem_cons_of_mem _ hb)).weaken ?_
    rintro _ s2 ⟨h3, h4⟩
    exact ⟨h3, h2.trans h4⟩

theorem source_ne (hT : S.Tame) (hD : S.Describes env) (hW : S.Works env) (hI : S.Stays env I) (hR : NEGood I S rec)
    {src : Str} {infos : List ImportInfo} (hsrc : S.sources src = some infos)
    (hx : ∀ x, InSource infos x → S.asksModule x) (s) (h : Ready I S s) (hal : AliasOk s) :
    NE (addDependenciesForSource env rec src s) fun _ s' => Ready I S s' ∧ Adds S.NodeName s s' := by
  unfold addDependenciesForSource
  obtain ⟨l, hp⟩ := hW.sources src infos s.world hsrc
  obtain rfl : infos = l := by
    have := hD.source src _ _ hp
    rw [hsrc] at this
    cases this; rfl
  refine .bind (P := fun a s' => a = infos ∧ s' = { s with world := (env.parseSource src s.world).2 }) ?_ ?_
  · unfold M.ext NE
    simp [hp]
  rintro _ _ ⟨h0, rfl⟩
  subst h0
  rename_i infos
  have h1 := h.world (env.parseSource src s.world).2 (hI.sources src infos s.world hsrc h.inv)
  have hg1 : Adds S.NodeName s { s with world := (env.parseSource src s.world).2 } := .world ..
  refine (forEach_ne infos h1 (hal.grew hg1) ?_).weaken fun _ _ ⟨h2, h3⟩ => ⟨h2, hg1.trans h3⟩
  intro i hi t ht halt
  refine .bind (addModule_ne hT hR (.asked (hx _ ⟨i, hi, .inl rfl⟩)) (.inl (.inl (hx _ ⟨i, hi, .inl rfl⟩))) t ht halt) ?_
  rintro _ t1 ⟨h2, h3, -⟩
  refine (forEach_ne i.importNames h2 (halt.grew h3) ?_).weaken fun _ _ ⟨h4, h5⟩ => ⟨h4, h3.trans h5⟩
  intro nm hn u hu halu
  have hask := hx _ ⟨i, hi, .inr ⟨nm, hn, rfl⟩⟩
  exact .bind (addModule_ne hT hR (.asked hask) (.inl (.inl hask)) u hu halu) fun _ _ h => ⟨h.1, h.2.1⟩

theorem addDistribution_ne (hT : S.Tame) (hR : NEGood I S rec) {d : Dist} (hx : S.asksDist d) (o : ApiOp) (s)
    (h : Ready I S s) (hal : AliasOk s) :
    NE (addDistribution rec d s) fun _ s' => Ready I S s' ∧ Adds (OpNames S o) s s' := by
  unfold addDistribution
  refine NE.findNode ?_ ?_
  · intro n hf hn he
    have := (h.core.nodes n hn).unique hT (.distribution hx) he
    subst this
    simp only []
    rw [M.bind_assert _ (by rfl)]
    exact ⟨h, .refl s⟩
  · intro hf hh
    simp only []
    have hh2 : s.has (distNode d).ident = false := hh
    rw [M.bind_addNode _ hh2, bind_addRoot (x := d.identifier) _ (has_of_Has ⟨distNode d, List.mem_append_right _ (List.mem_singleton.mpr rfl), rfl⟩)]
    have hg : Adds (OpNames S o) s ((s.addNode (distNode d)).addRoot d.identifier) :=
      Adds.trans (.addNodeThen (.inl (.inr ⟨d, hx, rfl⟩)) (.refl _) (by simp [distNode])) (.addRoot ..)
    have hc : Ready I S (s.addNode (distNode d)) :=
      h.grew (h.core.addNode (.inl rfl) hh2 (.distribution hx)) (B := fun _ => True) (.addNodeThen trivial (.refl _) (by simp [distNode]))
    have hc2 := addRoot_ready hc (.inl (.inr (.inr ⟨d, hx, rfl⟩)))
    have loop : ∀ (l : List Str) (t : St W), (∀ x ∈ l, x ∈ d.importNames) → Ready I S t → AliasOk t → Has t d.identifier →
        NE (M.forEach l (fun name => M.bind (rec.findOrLoad none name true) fun node =>
          M.addEdge d.identifier node.ident defaultDep) t) fun _ s' => Ready I S s' ∧ Adds S.NodeName t s' := by
      intro l
      induction l with
      | nil => intro t _ h _ _; exact ⟨h, .refl t⟩
      | cons x l ih =>
        intro t hl h hal hd
        have hx1 := hl x (List.mem_cons_self ..)
        have hneed : S.Needs (.module x false) := .distribution hx hx1
        have hb : ∀ y, S.Brings x y → S.NodeName y := fun y hy => .inl (Setup.NeedsModule.brings ⟨_, hneed⟩ hy)
        refine .bind (P := fun _ t1 => Ready I S t1 ∧ Adds S.NodeName t t1) ?_ ?_
        · refine .bind (hR.findOrLoad none x true t h hneed) ?_
          rintro n t1 ⟨h1, h2, rfl, h3⟩
          have hd1 : t1.has d.identifier = true := has_of_Has (by
            obtain ⟨q, hq, he⟩ := hd
            exact ⟨q, h3.nodes q hq, he⟩)
          have hn1 : t1.has n.ident = true := has_of_Has ⟨n, h2, rfl⟩
          unfold M.addEdge
          rw [hd1, hn1]
          exact ⟨h1.addEdge (.distribution hx hx1) ⟨n, h2, rfl⟩, (h3.imp hb).trans (.addEdge (hb := ⟨n, h2, rfl⟩) ..)⟩
        · rintro _ t1 ⟨h1, h2⟩
          refine (ih t1 (fun y hy => hl y (List.mem_cons_of_mem _ hy)) h1 (hal.grew h2) ?_).weaken
            fun _ _ ⟨h3, h4⟩ => ⟨h3, h2.trans h4⟩
          obtain ⟨q, hq, he⟩ := hd
          exact ⟨q, h2.nodes q hq, he⟩
    refine .bind (loop d.importNames _ (fun _ h => h) hc2 (hal.grew hg) ?_) ?_
    · refine (later_addRoot _ _).has ⟨distNode d, List.mem_append_right _ (List.mem_singleton.mpr rfl), rfl⟩
    · rintro _ s2 ⟨h2, h3⟩
      have h3' := hg.trans (h3.imp fun x hx => (.inl (.inl hx) : OpNames S o x))
      refine .bind (hR.runStack _ h2 (hal.grew h3')) ?_
      rintro _ s4 ⟨h4, h5⟩
      exact ⟨h4, h3'.trans (h5.imp fun x hx => .inl (.inl hx))⟩

theorem addScript_ne (hT : S.Tame) (hD : S.Describes env) (hW : S.Works env) (hI : S.Stays env I) (hR : NEGood I S rec) {x : Str}
    (hx : S.asksScript x) (s) (h : Ready I S s) (hal : AliasOk s) (hh : s.has x = false) :
    NE (addScript env rec x s) fun _ s' => Ready I S s' ∧ Adds (OpNames S (.addScript x)) s s' := by
  unfold addScript
  refine NE.findModule h.core hT (fun d hd he => (hT.distName d hd).2.2 (he ▸ hx)) ?_ ?_
  · rintro n _ h1 rfl
    rw [has_of_Has ⟨_, h1, rfl⟩] at hh
    cases hh
  · intro _ _
    simp only []
    obtain ⟨p, hp⟩ := hW.scripts x s.world hx
    refine .bind (P := fun a s' => a = p ∧ s' = { s with world := (env.loadScript x s.world).2 }) ?_ ?_
    · unfold M.ext NE
      simp [hp]
    rintro _ _ ⟨rfl, rfl⟩
    rename_i p
    have hs := hD.script x _ _ hp
    obtain ⟨infos, file⟩ := p
    have h1 := h.world (env.loadScript x s.world).2 (hI.scripts x s.world hx h.inv)
    have hg1 : Adds (OpNames S (.addScript x)) s { s with world := (env.loadScript x s.world).2 } := .world ..
    have hh1 : ({ s with world := (env.loadScript x s.world).2 } : St W).has x = false := hh
    revert h1 hg1 hh1
    generalize ({ s with world := (env.loadScript x s.world).2 } : St W) = s1
    intro h1 hg1 hh1
    have hh2 : s1.has (Setup.scriptNode x file).ident = false := hh1
    change NE (M.bind (M.addNode (Setup.scriptNode x file)) (fun _ =>
      M.bind (M.schedule (Setup.scriptNode x file) infos) fun _ =>
      M.bind (M.addRoot (Setup.scriptNode x file).ident) fun _ =>
      M.bind rec.runStack fun _ => M.pure (Setup.scriptNode x file)) s1) _
    rw [M.bind_addNode _ hh2, M.bind_schedule,
      bind_addRoot _ (has_of_Has ⟨_, mem_addSched .., rfl⟩)]
    have hg : Adds (OpNames S (.addScript x)) s
        (((s1.addNode (Setup.scriptNode x file)).schedule (Setup.scriptNode x file) infos).addRoot x) :=
      hg1.trans (Adds.trans (.addNodeThen (.inr rfl) (.schedule ..) (by simp [Setup.scriptNode])) (.addRoot ..))
    have hc : Ready I S ((s1.addNode (Setup.scriptNode x file)).schedule (Setup.scriptNode x file) infos) :=
      h1.grew (h1.core.addSched (.inl rfl) hh2 (.script hx hs) (fun i hi => .inScript hx hs hi))
        (B := fun _ => True) (.addNodeThen trivial (.schedule ..) (by simp [Setup.scriptNode]))
    refine .bind (hR.runStack _ (addRoot_ready hc (.inl (.inr (.inl hx)))) (hal.grew hg)) ?_
    rintro _ s2 ⟨h4, h5⟩
    exact ⟨h4, hg.trans (h5.imp fun _ h => .inl (.inl h))⟩

theorem op_ne (hT : S.Tame) (hD : S.Describes env) (hW : S.Works env) (hI : S.Stays env I) (hR : NEGood I S rec) {o : ApiOp}
    (ha : S.Adds o) (ho : S.Asks o) (s) (h : Ready I S s)
    (hal : AliasOk s) (hh : ∀ x, o = .addScript x → s.has x = false) :
    NE (opBody env rec o s) fun _ s' => Ready I S s' ∧ Adds (OpNames S o) s s' := by
  have hb : NE (apiBody env rec o s) fun _ s' => Ready I S s' ∧ Adds (OpNames S o) s s' := by
    cases o with
    | addModule x =>
      exact .bind (addModule_ne hT hR (.asked ho) (.inl (.inl ho)) s h hal) fun _ _ h => ⟨h.1, h.2.1.imp fun x hx => .inl (.inl hx)⟩
    | addScript x => exact .bind (addScript_ne hT hD hW hI hR ho s h hal (hh x rfl)) fun _ _ h => h
    | addDependenciesForSource src =>
      obtain ⟨infos, hi⟩ := ha
      exact .bind (source_ne hT hD hW hI hR hi (ho infos hi) s h hal)
        fun _ _ h => ⟨h.1, h.2.imp fun x hx => .inl (.inl hx)⟩
    | addDistribution d => exact .bind (addDistribution_ne hT hR ho _ s h hal) fun _ _ h => h
    | addDistributionNamed name =>
      obtain ⟨d, hd⟩ := ha
      have hx := ho d hd
      refine .bind ?_ fun _ _ h => h
      unfold addDistributionNamed
      obtain ⟨d', hp⟩ := hW.distributions name d s.world hd hx
      obtain rfl : d = d' := by
        have := hD.distribution name _ _ hp
        rw [hd] at this
        cases this; rfl
      refine .bind (P := fun a s' => a = some d ∧ s' = { s with world := (env.distributionNamed name s.world).2 }) ?_ ?_
      · unfold M.ext NE
        simp [hp]
      rintro _ _ ⟨rfl, rfl⟩
      have h1 := h.world (env.distributionNamed name s.world).2 (hI.distributions name d s.world hd hx h.inv)
      have hg1 : Adds (OpNames S (.addDistributionNamed name)) s
        { s with world := (env.distributionNamed name s.world).2 } := .world ..
      exact (addDistribution_ne hT hR hx _ _ h1 (hal.grew hg1)).weaken fun _ _ ⟨h2, h3⟩ => ⟨h2, hg1.trans h3⟩
    | _ => exact ha.elim
  unfold opBody
  revert hb
  generalize apiBody env rec o s = r
  intro hb
  obtain ⟨r, s'⟩ := r
  cases r with
  | ok a => exact hb
  | error e => exact hb

/-- All operations, one after the other. -/
theorem doAll_ne (hO : env.OrderExact) (hT : S.Tame) (hS : S.Safe) (hD : S.Describes env) (hW : S.Works env) (hI : S.Stays env I) (n : Nat)
    (ops : List ApiOp)
    (ho : ∀ o ∈ ops, S.Adds o ∧ S.Asks o)
    (hs : ScriptsOnce ops) (s) (h : Ready I S s) (hal : AliasOk s)
    (hh : ∀ x, .addScript x ∈ ops → s.has x = false) :
    NE (runClient env (n + 1) (doAll ops) s) fun _ s' =>
      Ready I S s' ∧ Adds (fun x => (S.NodeName x ∨ ∃ d, S.asksDist d ∧ x = d.identifier) ∨ .addScript x ∈ ops) s s' := by
  induction ops generalizing s with
  | nil => exact ⟨h, .refl s⟩
  | cons o ops ih =>
    have h1 := op_ne hT hD hW hI (NEGood.calls hO hT hS hD hW hI n) (ho o (List.mem_cons_self ..)).1 (ho o (List.mem_cons_self ..)).2 s h hal
      (fun x hx => hh x (by simp [hx]))
    change NE (M.bind (M.attempt (opBody env (calls env n) o)) (fun _ => interp (calls env (n + 1)) (doAll ops)) s) _
    refine .bind (P := fun _ s' => Ready I S s' ∧ Adds (OpNames S o) s s') ?_ ?_
    · unfold M.attempt
      revert h1
      generalize opBody env (calls env n) o s = r
      intro h1
      obtain ⟨r, s'⟩ := r
      cases r with
      | ok a => exact h1
      | error e =>
        have : e = .fuel := h1
        subst this
        exact rfl
    · rintro _ s1 ⟨h2, h3⟩
      have hs' := List.pairwise_cons.mp hs
      refine (ih (fun o hm => ho o (List.mem_cons_of_mem _ hm)) hs'.2 s1 h2 (hal.grew h3) ?_).weaken ?_
      · intro x hx
        refine h3.fresh (hh x (List.mem_cons_of_mem _ hx)) ?_
        have hask : S.asksScript x := (ho _ (List.mem_cons_of_mem _ hx)).2
        rintro (((h4 | h4) | ⟨d, h4, rfl⟩) | h4)
        · exact (hT.scriptName x hask).1 h4
        · exact (hT.scriptName x hask).2 h4
        · exact (hT.distName d h4).2.2 hask
        · exact hs'.1 _ hx x h4 rfl
      · rintro _ s2 ⟨h4, h5⟩
        refine ⟨h4, Adds.trans (h3.imp ?_) (h5.imp ?_)⟩
        · rintro x (hx | rfl)
          · exact .inl hx
          · exact .inr (List.mem_cons_self ..)
        · rintro x (hx | hx)
          · exact .inl hx
          · exact .inr (List.mem_cons_of_mem _ hx)

end

namespace Term
variable {env : Env W} {U : Universe}

/-- In a finite environment a list of calls comes to an end. -/
theorem doAll_fuel (hr : env.Returns) (hk : env.KeepsFakes) (hF : FiniteImports env U) {n b : Nat}
    (hn : R U b + 1 ≤ n) (ops : List ApiOp) (ho : ∀ o ∈ ops, OpOk env U o) {s : St W}
    (h : At env U (top U) b s) : (runClient env n (doAll ops) s).1 ≠ .error .fuel := by
  induction ops generalizing s with
  | nil => exact nofun
  | cons o ops ih =>
    have h1 := (calls_fin hr hk hF n).op h (ho o (List.mem_cons_self ..))
    have h2 := Fin2.attempt h1
    have h3 := h1.fuel hn
    change (M.bind (M.attempt ((calls env n).op o)) (fun _ => interp (calls env n) (doAll ops)) s).1 ≠ _
    unfold M.bind
    cases hm : M.attempt ((calls env n).op o) s with
    | mk r s1 =>
      rw [hm] at h2
      cases r with
      | ok x => exact ih (fun o hm => ho o (List.mem_cons_of_mem _ hm)) h2.at_
      | error e =>
        intro he
        refine h3 ?_
        cases he
        unfold M.attempt at hm
        revert hm
        generalize (calls env n).op o s = r
        intro hm
        obtain ⟨r, s'⟩ := r
        cases r with
        | ok a => cases hm
        | error e => cases e <;> first | rfl | cases hm

end Term
end Verif
