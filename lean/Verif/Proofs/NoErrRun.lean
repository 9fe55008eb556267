import Verif.Proofs.NoErr
/-!
# Building a graph does not fail: import statements, the queue and the API
-/
namespace Verif
open M Spec
variable {W : Type} {α β : Type}

/-! ## Names of import statements -/

theorem absoluteName_defined {m : Node} {i : ImportInfo}
    (h : ∀ t, Refers m i t → t ≠ [] ∧ t.head? ≠ some '.') : ∃ r, absoluteName m i = .ok r := by
  unfold absoluteName
  by_cases h0 : i.importLevel = 0
  · rw [if_pos h0]; exact ⟨_, rfl⟩
  rw [if_neg h0]
  obtain ⟨comps, hne, hc, hn⟩ := exists_comps m.ident
  have hr : relativePackage m i.importLevel = .ok (if dropped m i < comps.length
      then some (dotted (comps.take (comps.length - dropped m i))) else none) := by
    unfold relativePackage
    rw [if_neg h0]
    change (if (rsplit '.' (dropped m i) m.ident).length < dropped m i + 1 then _ else
      match rsplit '.' (dropped m i) m.ident with
        | [] => Except.error Exc.indexError
        | b :: _ => Except.ok (some b)) = _
    rw [hn, rsplit_dotted hne hc]
    by_cases hk : dropped m i < comps.length
    · rw [if_pos hk, if_pos hk, if_neg (by simp; omega)]
    · rw [if_neg hk, if_neg hk, if_pos (by omega)]
  rw [hr]
  by_cases hk : dropped m i < comps.length
  · rw [if_pos hk]
    simp only []
    have hkept : comps.take (comps.length - dropped m i) ≠ [] := by
      intro he
      have := congrArg List.length he
      simp at this
      omega
    have := h _ (Refers.relative (m := m) (i := i) (comps.take (comps.length - dropped m i))
      (comps.drop (comps.length - dropped m i)) (by omega) (by rw [List.take_append_drop, hn])
      (by rw [List.take_append_drop]; exact hc) hkept (by simp; omega))
    by_cases hnm : i.importModule.name = []
    · rw [if_pos hnm, List.append_nil] at this
      refine ⟨_, if_neg ?_⟩
      simpa [hnm] using this
    · rw [if_neg hnm, dotted_snoc _ hkept] at this
      refine ⟨_, if_neg ?_⟩
      simpa [hnm] using this
  · rw [if_neg hk]; exact ⟨_, rfl⟩

section
variable {I : W → Prop} {S : Setup} {env : Env W} {rec : Calls W} {s s' : St W}

theorem Spec.Setup.NeedsModule.brings {x y} (hx : S.NeedsModule x) (h : S.Brings x y) : S.NeedsModule y := by
  induction h with
  | self => exact hx
  | package _ h ih => obtain ⟨_, ih⟩ := ih; exact ⟨_, .package ih h⟩
  | alias _ h1 h2 ih => obtain ⟨_, ih⟩ := ih; exact ⟨_, .alias ih h1 h2⟩
  | implied _ h1 h2 h3 ih => obtain ⟨_, ih⟩ := ih; exact ⟨_, .implied ih h1 h2 h3⟩
  | explicitNamespace _ h1 h2 ih => obtain ⟨_, ih⟩ := ih; exact ⟨_, .explicitNamespace ih h1 h2⟩

theorem Gives.named {x n} (h : Gives I S x s n s') (hx : S.NeedsModule x) : Adds S.NodeName s s' :=
  h.2.2.2.imp fun _ hb => .inl (hx.brings hb)

theorem AliasOk.grew {B} (h : AliasOk s) (hg : Adds B s s') : AliasOk s' := by
  intro n hn t ht
  rcases hg.new n hn with h1 | h1
  · exact hg.has (h n h1 t ht)
  · exact h1.2 t ht

theorem Spec.Setup.Safe.absolute (hT : S.Tame) (hS : S.Safe) {m i} (h : S.Needs (.statement m i)) :
    ∃ r, absoluteName m i = .ok r := by
  refine absoluteName_defined fun t ht => ?_
  have hx : S.NeedsModule t := ⟨_, .target h ht⟩
  refine ⟨?_, hT.noDot t hx⟩
  obtain ⟨pre, last, hs⟩ := hS.names t hx
  rintro rfl
  have := hs.eq
  cases pre with
  | nil => exact hs.nonempty rfl (by simpa [dotted] using this.symm)
  | cons c pre =>
    have h1 := (hs.comps c (List.mem_cons_self ..)).2
    cases pre <;> simp [dotted] at this

/-- The statement is in a module, package or script. -/
theorem Spec.Setup.Safe.code (hT : S.Tame) (hS : S.Safe) {m i} (h : S.Needs (.statement m i)) :
    (m.isModule || m.isPackage || m.isScript) = true := by
  cases h with
  | inScript => rfl
  | inModule h1 h2 h3 h4 =>
    have hl := hT.loaded _ _ _ h3
    unfold Node.isLoaded at hl
    cases hn : m.isNamespacePkg with
    | true =>
      have := hS.noCode _ _ _ h3 hn
      subst this
      simp at h4
    | false => simp_all
  | inCompiled h1 h2 h3 h4 =>
    have := (hT.compiledNode _ m ⟨_, h1⟩ h2 (by simp [h3])).1
    unfold Node.isExtension at this
    unfold Node.isModule
    cases hk : m.kind <;> simp_all

theorem processImport_ne (hO : env.OrderExact) (hT : S.Tame) (hS : S.Safe) (hD : S.Describes env)
    (hR : NEGood I S rec) (m i) (s) (h : Ready I S s) (hst : Event.started (.imp m i) ∈ s.log) :
    NE (processImport rec m i s) fun _ s' => Ready I S s' ∧ Adds S.NodeName s s' := by
  have hC := exactCtx env hO hT hD
  obtain ⟨hm, hneed⟩ := h.core.items _ (.inr hst)
  unfold processImport
  obtain ⟨r, ha⟩ := hS.absolute hT hneed
  rw [bind_ofExcept_eq ha]
  cases r with
  | none =>
    have hout := outside_of_absoluteName ha
    have hdot : (List.replicate i.importLevel '.' ++ i.importModule.name).head? = some '.' := by
      obtain ⟨k, hk⟩ : ∃ k, i.importLevel = k + 1 := ⟨_, (Nat.succ_pred_eq_of_pos hout.1).symm⟩
      simp [hk, List.replicate_succ]
    simp only []
    revert hdot
    generalize hname : List.replicate i.importLevel '.' ++ i.importModule.name = name
    intro hdot
    have hnode : S.HasNode (invalidRelNode name) := hname ▸ .invalid hneed hout
    refine NE.findModule h.core hT (fun d hd he => (hT.distName d hd).2.1 (he ▸ hdot)) (f := fun r => M.bind (match r with
      | none => M.bind (M.addNode (invalidRelNode name)) fun _ =>
        M.bind (M.schedule (invalidRelNode name) []) fun _ => M.pure (invalidRelNode name)
      | some n => M.bind (M.assert n.isInvalidRel) fun _ => M.pure n) fun node =>
      M.bind (M.addEdge m.ident node.ident (fromImportInfo i false none)) fun _ =>
      M.modify fun s => s.event (.imported m.ident i node.ident)) ?_ ?_
    all_goals
      intros
      refine .bind (P := fun n s' => Ready I S s' ∧ Adds S.NodeName s s' ∧ n ∈ s'.nodes ∧ n.ident = name) ?_ ?_
    · rename_i n hf hn hid
      have hinv : n.isInvalidRel = true := by
        cases h.core.nodes n hn with
        | module h1 h2 =>
          rw [h2.ident] at hid
          subst hid
          exact absurd hdot (hT.noDot _ h1)
        | script h1 h2 =>
          have := (hT.scriptName _ h1).2
          rw [← hid] at hdot
          exact absurd hdot this
        | distribution h1 =>
          rw [← hid] at hdot
          exact absurd hdot (hT.distName _ h1).2.1
        | invalid => rfl
      simp only []
      rw [M.bind_assert _ hinv]
      exact ⟨h, .refl s, hn, hid⟩
    rotate_left
    · rename_i hf hh
      simp only []
      rw [M.bind_addNode (n := invalidRelNode name) _ hh, M.bind_schedule]
      have hg : Adds S.NodeName s ((s.addNode (invalidRelNode name)).schedule (invalidRelNode name) []) :=
        .addNodeThen (.inr hdot) (.schedule ..) (by simp [invalidRelNode])
      exact ⟨h.grew (h.core.addSched (n := invalidRelNode name) (.inl rfl) hh hnode (by simp)) hg, hg,
        mem_addSched .., rfl⟩
    all_goals
      rintro n s1 ⟨h1, h2, h3, h4⟩
      rw [M.bind_addEdge _ (has_of_Has (h2.has ⟨m, hm, rfl⟩)) (has_of_Has ⟨n, h3, rfl⟩)]
      refine ⟨(h1.addEdge ?_ ⟨n, h3, rfl⟩).event _ (by simp),
        h2.trans ((Adds.addEdge _ _ _ _ ⟨n, h3, rfl⟩).trans (.event _ _ (by simp)))⟩
      rw [h4, ← hname]
      exact .invalid hneed hout
  | some t =>
    have ht : S.Needs (.module t false) := .target hneed (refers_of_absoluteName ha)
    simp only []
    rw [M.bind_get]
    refine .bind (hR.findOrLoad (some m) t true s h ht) ?_
    intro n s1 hg
    have hgn := hg.named ⟨_, ht⟩
    obtain ⟨h1, h2, rfl, h4⟩ := hg
    have hm1 := hgn.has ⟨m, hm, rfl⟩
    rw [M.bind_addEdge _ (has_of_Has hm1) (has_of_Has ⟨n, h2, rfl⟩)]
    have hc := (hC.finishImp s.stack.length (s := s1) (n := n) ⟨h1.core, by simp⟩ (h4.log _ hst) ha h2 (has_of_Has hm1)).1
    have hg2 : Adds S.NodeName s1 (let s' := s1.addEdge m.ident n.ident (fromImportInfo i false i.importModule.asname)
      { s' with stack := s'.stack.take s.stack.length ++ [.nl m n i] ++ s'.stack.drop s.stack.length,
                log := s'.log ++ [.imported m.ident i n.ident] }) :=
      (Adds.addEdge _ _ _ _ ⟨n, h2, rfl⟩).trans (.same rfl (fun _ h => List.mem_append_left _ h) rfl rfl (by simp))
    exact ⟨h1.grew hc hg2, hgn.trans hg2⟩

/-! ## `from` imports -/

theorem processName_ne (hO : env.OrderExact) (hT : S.Tame) (hR : NEGood I S rec) (a c i nm) (s) (h : Ready I S s) (ha : a ∈ s.nodes) (hc : c ∈ s.nodes)
    (hf : S.FromImport a i c nm) (hk : c.isPackage = true ∨ c.isNamespacePkg = true ∨ c.isModule = true) :
    NE (processName env rec a c i nm s) fun _ s' => Ready I S s' ∧ Adds S.NodeName s s' := by
  have hsub : (c.isPackage = true ∨ c.isNamespacePkg = true) →
      NE ((M.bind (rec.findOrLoad (some a) (c.ident ++ '.' :: nm.name) false) fun sub =>
        M.bind M.get fun s =>
        let link : M W Unit :=
          M.bind (M.addEdge sub.ident c.ident defaultDep) fun _ =>
          M.addEdge a.ident sub.ident (fromImportInfo i true nm.asname)
        if sub.isMissing then
          match c.kind with
          | .package _ init _ _ _ =>
            if init.name = c!"@@SIX_MOVES@@" then
              match sixMove nm.name with
              | some target =>
                M.bind (rec.findOrLoad (some a) target true) fun depNode =>
                M.addEdge a.ident depNode.ident defaultDep
              | none => link
            else if (s.globalsWritten c).contains nm.name then M.pure ()
            else link
          | _ => link
        else link) s) fun _ s' => Ready I S s' ∧ Adds S.NodeName s s' := by
    intro hp
    have hneed := hf.tried hp
    refine .bind (hR.findOrLoad (some a) _ false s h hneed) ?_
    intro sub s1 hg
    have hgn := hg.named ⟨_, hneed⟩
    obtain ⟨h1, h2, h3, h4⟩ := hg
    rw [M.bind_get]
    have hc1 := hgn.nodes _ hc
    have ha1 := hgn.nodes _ ha
    have link : S.IsSubmodule c nm.name → NE ((M.bind (M.addEdge sub.ident c.ident defaultDep) fun _ =>
          M.addEdge a.ident sub.ident (fromImportInfo i true nm.asname)) s1)
          fun _ s' => Ready I S s' ∧ Adds S.NodeName s s' := by
      intro hi
      rw [M.bind_addEdge _ (has_of_Has ⟨sub, h2, rfl⟩) (has_of_Has ⟨c, hc1, rfl⟩)]
      rw [M.addEdge_apply (by rw [has_addEdge]; exact has_of_Has ⟨a, ha1, rfl⟩)
        (by rw [has_addEdge]; exact has_of_Has ⟨sub, h2, rfl⟩)]
      rw [h3]
      have hc2 : Has s1 c.ident := ⟨c, hc1, rfl⟩
      have hs2 := (Adds.addEdge (B := fun _ => True) s1 (c.ident ++ '.' :: nm.name) c.ident defaultDep hc2).has
        ⟨sub, h2, h3⟩
      exact ⟨(h1.addEdge (.fromPackage hf hp hi) hc2).addEdge (.fromName hf hp hi) hs2,
        hgn.trans ((Adds.addEdge _ _ _ _ hc2).trans (.addEdge _ _ _ _ hs2))⟩
    split
    · rename_i hmiss
      cases hk : c.kind with
      | package fr init sp hd ns =>
        simp only []
        split
        · rename_i hsix
          have h6 : SixMoves c := ⟨fr, init, sp, hd, ns, hk, hsix⟩
          cases hv : sixMove nm.name with
          | none =>
            simp only []
            exact link (h1.core.subLinked hT hf hc1 hp ⟨sub, h2, h3, fun _ => .inl ⟨h6, hv⟩⟩)
          | some t =>
            simp only []
            have hsent : S.Sent c nm.name t := h1.core.sent hT hf h6 hv ⟨sub, h2, h3, hmiss⟩
            have hneed' : S.Needs (.module t false) := by
              obtain ⟨k1, k2, k3, t', b', k4, k5, k6⟩ := hf
              exact .sixMoves k1 k4 k5 k6 k2 k3 hsent
            refine .bind (hR.findOrLoad (some a) t true s1 h1 hneed') ?_
            intro dep s2 hg2
            have hgn2 := hg2.named ⟨_, hneed'⟩
            obtain ⟨q1, q2, q3, q4⟩ := hg2
            rw [M.addEdge_apply (has_of_Has ⟨a, hgn2.nodes _ ha1, rfl⟩) (has_of_Has ⟨dep, q2, rfl⟩), q3]
            have hd2 : Has s2 t := ⟨dep, q2, q3⟩
            exact ⟨q1.addEdge (.sixMoves hf hsent) hd2, hgn.trans (hgn2.trans (.addEdge _ _ _ _ hd2))⟩
        · rename_i hsix
          have h6 : ¬ SixMoves c := by
            rintro ⟨_, _, _, _, _, k1, k2⟩
            rw [hk] at k1
            cases k1
            exact hsix k2
          split
          · exact ⟨h1, hgn⟩
          · rename_i hgw
            refine link (h1.core.subLinked hT hf hc1 hp ⟨sub, h2, h3, fun _ => .inr ⟨h6, .inr ?_⟩⟩)
            have hns : c.isNamespacePkg = false := by simp [Node.isNamespacePkg, hk]
            simpa [St.globalsWritten, hns] using hgw
      | _ =>
        refine link (h1.core.subLinked hT hf hc1 hp ⟨sub, h2, h3, fun _ => .inr ⟨?_, .inl ?_⟩⟩)
        · rintro ⟨_, _, _, _, _, k1, _⟩
          rw [hk] at k1
          cases k1
        · simp [Node.isPackage, hk]
    · rename_i hmiss
      exact link (h1.core.subLinked hT hf hc1 hp ⟨sub, h2, h3, fun h => absurd h hmiss⟩)
  have hmod : ¬ c.isModule = true → (c.isPackage = true ∨ c.isNamespacePkg = true) := by
    intro hm
    rcases hk with hk | hk | hk
    · exact .inl hk
    · exact .inr hk
    · exact absurd hk hm
  unfold processName
  rw [M.bind_get]
  simp only []
  split
  · rename_i hgw
    cases hre : reexported env s c nm.name with
    | some t =>
      have hg' : c.isNamespacePkg = false ∧ nm.name ∈ s.gw c.ident := by
        unfold St.globalsWritten at hgw
        split at hgw
        · simp at hgw
        · exact ⟨by simp_all, by simpa using hgw⟩
      obtain ⟨d, h1, h2⟩ := Props.reexported_some hO hre
      have hce := h.core.edges _ _ _ h1
      obtain ⟨h3, h4, _⟩ := hT.passedOn a i c nm hf (h.core.gw _ _ hg'.2) hg'.1 _ _ hce h2
      have ht := h.ends _ _ _ h1
      simp only []
      rw [M.addEdge_apply (has_of_Has ⟨a, ha, rfl⟩) (has_of_Has ht)]
      exact ⟨h.addEdge (.passedOn hf h3 h4 hce h2) ht, .addEdge _ _ _ _ ht⟩
    | none =>
      simp only []
      split
      · exact ⟨h, .refl s⟩
      · rename_i hm
        exact hsub (hmod hm)
  · split
    · exact ⟨h, .refl s⟩
    · rename_i hm
      exact hsub (hmod hm)

theorem processNames_ne (hO : env.OrderExact) (hT : S.Tame) (hD : S.Describes env)
    (hR : NEGood I S rec) (a b c i) (s) (h : Ready I S s) (hst : Event.started (.nl a b i) ∈ s.log) (hc : NlTarget s b c)
    (hs : i.starImport = false)
    (hk : c.isPackage = true ∨ c.isNamespacePkg = true ∨ c.isModule = true) :
    NE (processNames env rec a c i s) fun _ s' => Ready I S s' ∧ Adds S.NodeName s s' := by
  have hC := exactCtx env hO hT hD
  obtain ⟨ha, -⟩ := h.core.items _ (.inr hst)
  have hfr : ∀ nm ∈ i.importNames, S.FromImport a i c nm ∧ c ∈ s.nodes :=
    fun nm hn => h.core.fromImport hT hst hc hs hn
  unfold processNames
  rw [M.bind_modify]
  have hg1 : Adds S.NodeName s (s.addGlobals a.ident (i.importNames.map ImpName.name)) :=
    .same rfl (fun _ h => h) rfl rfl fun h => h
  have h1 : Ready I S (s.addGlobals a.ident (i.importNames.map ImpName.name)) :=
    h.grew (hC.globals _ ⟨h.core, by simp⟩ hst (.inl rfl)).1 hg1
  refine NE.forEach (I := fun s' => Ready I S s' ∧ Adds S.NodeName s s') ?_ ⟨h1, hg1⟩
  rintro nm hn s1 ⟨h2, h3⟩
  refine (processName_ne hO hT hR a c i nm s1 h2 (h3.nodes _ ha) (h3.nodes _ (hfr nm hn).2) (hfr nm hn).1 hk).weaken ?_
  rintro _ s2 ⟨h4, h5⟩
  exact ⟨h4, h3.trans h5⟩

theorem processNamelist_ne (hO : env.OrderExact) (hT : S.Tame) (hS : S.Safe) (hD : S.Describes env)
    (hR : NEGood I S rec) (a b i) (s) (h : Ready I S s) (hal : AliasOk s) (hst : Event.started (.nl a b i) ∈ s.log) :
    NE (processNamelist env rec a b i s) fun _ s' => Ready I S s' ∧ Adds S.NodeName s s' := by
  have hC := exactCtx env hO hT hD
  obtain ⟨ha, hb, hneed, href⟩ := h.core.items _ (.inr hst)
  unfold processNamelist
  rw [M.bind_assert _ (hS.code hT hneed)]
  cases hs : i.starImport with
  | true =>
    rw [if_pos rfl]
    split
    · rename_i hk
      have hg1 : Adds S.NodeName s (s.addGlobals a.ident (s.gw b.ident)) :=
        .same rfl (fun _ h => h) rfl rfl fun h => h
      exact ⟨h.grew (hC.globals _ ⟨h.core, by simp⟩ hst (.inr ⟨hs, by simpa using hk, rfl⟩)).1 hg1, hg1⟩
    · exact ⟨h, .refl s⟩
  | false =>
    rw [if_neg (by simp)]
    split
    · rename_i hk
      cases hkb : b.kind with
      | alias t =>
        simp only []
        rw [M.bind_modify]
        have hg1 : Adds S.NodeName s (s.addGlobals a.ident (i.importNames.map ImpName.name)) :=
          .same rfl (fun _ h => h) rfl rfl fun h => h
        have h1 : Ready I S (s.addGlobals a.ident (i.importNames.map ImpName.name)) :=
          h.grew (hC.globals _ ⟨h.core, by simp⟩ hst (.inl rfl)).1 hg1
        have hnt : S.NeedsModule t := by
          cases h.core.nodes b hb with
          | module h2 h3 =>
            obtain ⟨tr, h2⟩ := h2
            exact ⟨_, .alias h2 h3 (.inl hkb)⟩
          | _ => cases hkb
        refine NE.findModule h1.core hT (hnt.noDist hT) ?_ ?_
        · rintro n hf hn rfl
          simp only []
          split
          · rename_i hkn
            refine (processNames_ne hO hT hD hR a b n i _ h1 hst (.inr ⟨hkb, hn⟩) hs ?_).weaken ?_
            · simp only [Bool.or_eq_true] at hkn
              rcases hkn with (h2 | h2) | h2
              · exact .inl h2
              · exact .inr (.inl h2)
              · exact .inr (.inr h2)
            · rintro _ s2 ⟨h2, h3⟩
              exact ⟨h2, hg1.trans h3⟩
          · exact ⟨h1, hg1⟩
        · intro _ hh
          have := has_of_Has (hg1.has (hal b hb t hkb))
          rw [hh] at this; cases this
      | _ =>
        have hna : b.isAlias = false := by simp [Node.isAlias, hkb]
        refine processNames_ne hO hT hD hR a b b i s h hst (.inl ⟨rfl, hna⟩) hs ?_
        simp only [hna, Bool.or_eq_true, Bool.and_eq_true, Bool.or_false] at hk
        rcases hk.2 with (h2 | h2) | h2
        · exact .inl h2
        · exact .inr (.inl h2)
        · exact .inr (.inr h2)
    · exact ⟨h, .refl s⟩

/-! ## The queue -/

theorem addRoot_ready {s : St W} (h : Ready I S s) {x} (hx : S.HasRoot x) : Ready I S (s.addRoot x) :=
  h.grew (h.core.addRoot hx) (B := fun _ => True) (.addRoot s x) (by unfold St.addRoot; split <;> rfl)

theorem bind_addRoot {β : Type} {s : St W} {x} (f : Unit → M W β) (hx : s.has x = true) :
    M.bind (M.addRoot x) f s = f () (s.addRoot x) := by
  unfold M.bind M.addRoot
  simp [hx]

theorem addModule_ne (hT : S.Tame) (hR : NEGood I S rec) {x : Str} (hx : S.Needs (.module x false))
    (hroot : S.HasRoot x) (s) (h : Ready I S s)
    (hal : AliasOk s) :
    NE (addModule rec x s) fun n s' => Ready I S s' ∧ Adds S.NodeName s s' ∧ n ∈ s'.nodes ∧ n.ident = x := by
  unfold addModule
  have hb : ∀ y, S.Brings x y → S.NodeName y :=
    fun y hy => .inl (Setup.NeedsModule.brings ⟨_, hx⟩ hy)
  refine NE.findModule h.core hT (Setup.NeedsModule.noDist hT ⟨_, hx⟩) ?_ ?_
  · rintro n _ h1 rfl
    simp only []
    rw [M.bind_of_ok (rfl : (M.pure n : M W Node) s = (.ok n, s))]
    rw [bind_addRoot _ (has_of_Has ⟨_, h1, rfl⟩)]
    have hg : Adds S.NodeName s (s.addRoot n.ident) := .addRoot ..
    refine .bind (hR.runStack _ (addRoot_ready h hroot) (hal.grew hg)) ?_
    rintro _ s2 ⟨h2, h3⟩
    exact ⟨h2, hg.trans h3, h3.nodes _ ((Adds.addRoot (B := fun _ => True) _ _).nodes _ h1), rfl⟩
  · intro _ _
    simp only []
    refine .bind (hR.findOrLoad none x true s h hx) ?_
    rintro n s1 ⟨h1, h2, rfl, h3⟩
    rw [bind_addRoot _ (has_of_Has ⟨_, h2, rfl⟩)]
    have hg : Adds S.NodeName s (s1.addRoot n.ident) := (h3.imp hb).trans (.addRoot ..)
    refine .bind (hR.runStack _ (addRoot_ready h1 hroot) (hal.grew hg)) ?_
    rintro _ s2 ⟨h4, h5⟩
    exact ⟨h4, hg.trans h5, h5.nodes _ ((Adds.addRoot (B := fun _ => True) _ _).nodes _ h2), rfl⟩

theorem addModuleOp_ne (hT : S.Tame) (hR : NEGood I S rec) (x) (s) (h : Ready I S s) (hal : AliasOk s)
    (hx : S.Needs (.module x false)) (hroot : S.HasRoot x) :
    NE (opBody env rec (.addModule x) s) fun r s' => Ready I S s' ∧ Adds S.NodeName s s' ∧
      ∃ h, r = some h ∧ h ∈ s'.nodes ∧ h.ident = x := by
  have hb : NE (apiBody env rec (.addModule x) s) fun r s' => Ready I S s' ∧ Adds S.NodeName s s' ∧
      ∃ h, r = some h ∧ h ∈ s'.nodes ∧ h.ident = x :=
    .bind (addModule_ne hT hR hx hroot s h hal) fun n _ h => ⟨h.1, h.2.1, n, rfl, h.2.2⟩
  unfold opBody
  revert hb
  generalize apiBody env rec (.addModule x) s = r
  intro hb
  obtain ⟨r, s'⟩ := r
  cases r with
  | ok a => exact hb
  | error e => exact hb

/-! ## Modules compiled with mypyc -/

theorem mypyc_ne (hD : S.Describes env) (hW : S.Works env) (hI : S.Stays env I) (hR : NEGood I S rec) {n} (s)
    (h : Ready I S s) (hal : AliasOk s) (hm : n ∈ s.nodes) :
    NE (mypycHook env rec n s) fun _ s' => Ready I S s' ∧ Adds S.NodeName s s' := by
  have hn := h.core.nodes n hm
  by_cases hmy : ∃ file helper, MypycModule n file helper
  case neg =>
    rw [Props.C46_other _ _ _ _ fun file helper h => hmy ⟨file, helper, h⟩]
    exact ⟨h, .refl s⟩
  obtain ⟨file, helper, hmy⟩ := hmy
  obtain ⟨source, hso⟩ : ∃ source, SourceOf file source := by
    cases hD.compiled n hn with
    | no h1 => exact absurd hmy (h1 _ _)
    | noSource h1 h2 => rw [(h1.same hmy).1] at h2; exact ⟨_, h2⟩
    | source h1 h2 => rw [(h1.same hmy).1] at h2; exact ⟨_, h2⟩
  have hms : S.MypycSource source := ⟨n, file, helper, hn, hmy, hso⟩
  obtain ⟨hf, d, hd, hfind⟩ := Props.mypycModule_iff.mp hmy
  unfold mypycHook
  simp only [hf, hd, hfind, Props.sourceNextTo_eq hso]
  have h1 := h.world (env.isFile source s.world).2 (hI.looks source s.world hms h.inv)
  have hg1 : Adds S.NodeName s { s with world := (env.isFile source s.world).2 } := .world ..
  rcases hW.compiled source s.world hms with hw | ⟨hw, hrd⟩
  · rw [M.bind_ext (a := false) (w := (env.isFile source s.world).2) _ (Prod.ext hw rfl)]
    exact ⟨h1, hg1⟩
  rw [M.bind_ext (a := true) (w := (env.isFile source s.world).2) _ (Prod.ext hw rfl)]
  simp only [Bool.not_true, Bool.false_eq_true, if_false]
  have hat : MypycAt env n file helper := ⟨hf, ⟨d, hd, hfind⟩, s.world, by rw [Props.sourceNextTo_eq hso]; exact hw⟩
  obtain ⟨infos, hc, hl⟩ := hat.said hD hn
  rw [Props.sourceNextTo_eq hso] at hl
  obtain ⟨x, tr, hx, hnf⟩ := hn.needed hat.kind
  have hxi : n.ident = x := hnf.ident
  refine .bind (hR.addModule helper _ h1 (hal.grew hg1) (.helper hx hnf hc) (.inr ⟨n, infos, hn, hc⟩)) ?_
  rintro _ s2 ⟨h2, hg2, y, rfl, hy, hyi⟩
  simp only []
  have hm2 : n ∈ s2.nodes := hg2.nodes _ (hg1.nodes _ hm)
  rw [M.bind_addEdge _ (has_of_Has ⟨n, hm2, rfl⟩) (has_of_Has ⟨y, hy, rfl⟩)]
  rw [hyi]
  have hys : Has s2 helper := ⟨y, hy, hyi⟩
  have h3 := h2.addEdge (a := n.ident) (b := helper) (d := defaultDep) (hxi ▸ .helper ⟨_, hx⟩ hnf hc) hys
  have hg3 : Adds S.NodeName s (s2.addEdge n.ident helper defaultDep) := hg1.trans (hg2.trans (.addEdge _ _ _ _ hys))
  revert h3 hg3
  generalize s2.addEdge n.ident helper defaultDep = s3
  intro h3 hg3
  obtain ⟨code, hcode⟩ := hrd.read s3.world
  rw [M.bind_ext (a := code) (w := (env.readBytes source s3.world).2) _ (Prod.ext hcode rfl)]
  have h4 := h3.world (env.readBytes source s3.world).2 (hI.opens source s3.world hms ⟨_, hw⟩ h3.inv)
  have hg4 : Adds S.NodeName s { s3 with world := (env.readBytes source s3.world).2 } := hg3.trans (.world ..)
  revert h4 hg4
  generalize ({ s3 with world := (env.readBytes source s3.world).2 } : St W) = s4
  intro h4 hg4
  have h5 := h4.world (env.compileAst code s4.world).2
    (hI.parses source s3.world s4.world code hms ⟨_, hw⟩ hcode h4.inv)
  have hg5 : Adds S.NodeName s { s4 with world := (env.compileAst code s4.world).2 } := hg4.trans (.world ..)
  rcases hrd.parsed s3.world s4.world code hcode with ⟨l, hp⟩ | hp
  · refine .bind (P := fun r s' => r = .ok l ∧ s' = { s4 with world := (env.compileAst code s4.world).2 }) ?_ ?_
    · unfold M.attempt M.ext
      simp [hp, NE]
    rintro _ _ ⟨rfl, rfl⟩
    simp only []
    split
    · exact ⟨h5, hg5⟩
    rw [M.bind_schedule]
    have := hl _ _ _ _ hcode hp
    subst this
    revert h5 hg5
    generalize ({ s4 with world := (env.compileAst code s4.world).2 } : St W) = s5
    intro h5 hg5
    have hm5 := hg5.nodes _ hm
    have hg6 : Adds S.NodeName s (s5.schedule n l) := hg5.trans (.schedule ..)
    have h6 : Ready I S (s5.schedule n l) :=
      h5.grew (h5.core.schedule hm5 fun i hi => .inCompiled hx hnf hc hi) (Adds.schedule (B := fun _ => True) ..)
    refine (hR.runStack _ h6 (hal.grew hg6)).weaken ?_
    rintro _ s7 ⟨h7, hg7⟩
    exact ⟨h7, hg6.trans hg7⟩
  · refine .bind (P := fun r s' => r = .error .syntaxError ∧
      s' = { s4 with world := (env.compileAst code s4.world).2 }) ?_ ?_
    · unfold M.attempt M.ext
      simp [hp, NE]
    rintro _ _ ⟨rfl, rfl⟩
    exact ⟨h5, hg5⟩

theorem callPost_ne (hD : S.Describes env) (hW : S.Works env) (hI : S.Stays env I) (hR : NEGood I S rec) (k n) (s)
    (h : Ready I S s) (hal : AliasOk s) (hn : n ∈ s.nodes) :
    NE (callPostBody env rec k n s) fun _ s' => Ready I S s' ∧ Adds S.NodeName s s' := by
  unfold callPostBody
  rw [M.bind_get]
  cases hh : s.postHooks[k]? with
  | none => exact ⟨h, .refl s⟩
  | some hk =>
    have hk' := h.post hk (List.mem_of_getElem? hh)
    subst hk'
    simp only []
    rw [M.bind_modify]
    have h1 := h.event (.called .mypyc n.ident) (by simp)
    have hg1 : Adds S.NodeName s (s.event (.called .mypyc n.ident)) := .event s _ (by simp)
    refine .bind (mypyc_ne hD hW hI hR _ h1 (hal.grew hg1) hn) ?_
    rintro _ s2 ⟨h2, hg2⟩
    have hg := hg1.trans hg2
    refine (hR.callPost _ n _ h2 (hal.grew hg) (hg.nodes _ hn)).weaken ?_
    rintro _ s' ⟨h3, h4⟩
    exact ⟨h3, hg.trans h4⟩

theorem runStack_ne (hO : env.OrderExact) (hT : S.Tame) (hS : S.Safe) (hD : S.Describes env)
    (hR : NEGood I S rec) (s) (h : Ready I S s) (hal : AliasOk s) :
    NE (runStackBody env rec s) fun _ s' => Ready I S s' ∧ Adds S.NodeName s s' := by
  have hC := exactCtx env hO hT hD
  unfold runStackBody popItem
  cases hl : s.stack.getLast? with
  | none =>
    refine .bind (P := fun r s' => r = none ∧ s' = s) (by rw [hl]; exact ⟨rfl, rfl⟩) ?_
    rintro _ _ ⟨rfl, rfl⟩
    exact ⟨h, .refl _⟩
  | some it =>
    refine .bind (P := fun r s' => r = some it ∧ s' =
      { s with stack := s.stack.dropLast, log := s.log ++ [.started it] }) (by rw [hl]; exact ⟨rfl, rfl⟩) ?_
    rintro _ _ ⟨rfl, rfl⟩
    have hstk : s.stack = s.stack.dropLast ++ [it] := by
      have hne : s.stack ≠ [] := by rintro he; simp [he] at hl
      have := List.dropLast_concat_getLast hne
      rw [List.getLast?_eq_some_getLast hne] at hl
      simp only [Option.some.injEq] at hl
      rw [hl] at this
      exact this.symm
    have hg0 : Adds S.NodeName s { s with stack := s.stack.dropLast, log := s.log ++ [.started it] } :=
      .same rfl (fun _ h => List.mem_append_left _ h) rfl rfl (by simp)
    have h0 := h.grew (hC.pop (s := s) ⟨h.core, by simp⟩ hstk).1 hg0
    have hst : Event.started it ∈ ({ s with stack := s.stack.dropLast, log := s.log ++ [.started it] } : St W).log := by
      simp
    revert hg0 h0 hst
    generalize ({ s with stack := s.stack.dropLast, log := s.log ++ [.started it] } : St W) = s0
    intro hg0 h0 hst
    simp only []
    refine .bind (P := fun _ s' => Ready I S s' ∧ Adds S.NodeName s0 s') ?_ ?_
    · have hit := h0.core.items it (.inr hst)
      cases it with
      | pp n =>
        exact hR.callPost 0 n s0 h0 (hal.grew hg0) hit
      | imp m i => exact processImport_ne hO hT hS hD hR m i s0 h0 hst
      | nl a b i => exact processNamelist_ne hO hT hS hD hR a b i s0 h0 (hal.grew hg0) hst
      | pkg _ _ => exact hit.elim
    · rintro _ s1 ⟨h1, h2⟩
      have hg := hg0.trans h2
      refine (hR.runStack s1 h1 (hal.grew hg)).weaken ?_
      rintro _ s2 ⟨h3, h4⟩
      exact ⟨h3, hg.trans h4⟩

theorem NEGood.calls (hO : env.OrderExact) (hT : S.Tame) (hS : S.Safe) (hD : S.Describes env) (hW : S.Works env)
    (hI : S.Stays env I) (n : Nat) : NEGood I S (calls env n) := by
  induction n with
  | zero =>
    constructor <;> intros <;> exact rfl
  | succ n ih =>
    exact ⟨findOrLoad_ne hT hS ih, implied_ne ih, loadModule_ne hT hS hD hW hI ih, createMissing_ne ih,
      callMissing_ne hT ih, runStack_ne hO hT hS hD ih, callPost_ne hD hW hI ih, addModuleOp_ne hT ih⟩

end
end Verif
