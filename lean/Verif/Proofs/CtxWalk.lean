import Verif.Proofs.Ctx
/-! # Contextual closure theorem: the walk over all methods -/
namespace Verif
open M Spec
variable {W : Type}

/-- The result is the node for `name`, and it is in the graph. -/
def Is (name : Str) (n : Node) (s : St W) : Prop := n.ident = name ∧ n ∈ s.nodes

theorem Is.has {name n} {s : St W} (h : Is name n s) : Has s name := ⟨n, h.2, h.1⟩
theorem Is.later {name n} {s s' : St W} (h : Is name n s) (hl : Later s s') : Is name n s' :=
  ⟨h.1, hl.node h.2⟩

/-- The outcome of an API call. -/
def RetO (J : List Obl → St W → Prop) (s : St W) (r : Except Exc (Option Node) × St W) : Prop :=
  J [] r.2 ∧ Later s r.2

structure RGood (env : Env W) (A : ApiOp → Prop) (Why : Str → Bool → Prop)
    (J : List Obl → St W → Prop) (E : St W → Prop) (rec : Calls W) : Prop where
  findOrLoad : ∀ imp name lm O s, J O s → (lm = true ∨ Tried s.nodes s.log name) → Why name lm →
    Ret J E O (Is name) s (rec.findOrLoad imp name lm s)
  implied : ∀ imp name p lm O s, J (.load name p lm :: O) s → Free s p →
    Ret J E (.load name p lm :: O) (fun r s' => (∀ n, r = some n → Is name n s') ∧
      (r = none → s'.has name = true ∨ s'.lazy name = none)) s (rec.implied imp name s)
  loadModule : ∀ imp name p lm O s, J (.load name p lm :: O) s →
    (s.has name = true ∨ s.lazy name = none) → Free s p →
    Ret J E (.load name p lm :: O) (Is name) s (rec.loadModule imp name s)
  createMissing : ∀ imp name p lm O s, J (.load name p lm :: O) s → MissR env s name p →
    RetM J (.load name p lm :: O) (Is name) s (rec.createMissing imp name s)
  callMissing : ∀ i imp name p lm O s, J (.load name p lm :: O) s → MissR env s name p →
    RetM J (.load name p lm :: O) (fun r s' => (∀ n, r = some n → Is name n s') ∧
      (r = none → Quiet s s' ∧ ∀ h ∈ s.missHooks.drop i, (∃ i, Event.asked h name i ∈ s'.log))) s
      (rec.callMissing i imp name s)
  importPackage : ∀ a name s, J [] s →
    (Event.started (.pkg a name) ∈ s.log ∨ A (.importPackage a name)) →
    Ret J E [] (Is name) s (rec.importPackage a name s)
  runStack : ∀ s, J [] s → Ret J E [] (fun _ _ => True) s (rec.runStack s)
  callPost : ∀ i n s, J [] s → Event.started (.pp n) ∈ s.log →
    Ret J E [] (fun _ _ => True) s (rec.callPost i n s)
  op : ∀ o s, A o → J [] s → RetO J s (rec.op o s)
  opModule : ∀ name s r s', A (.addModule name) → J [] s → rec.op (.addModule name) s = (.ok r, s') →
    ∀ n, r = some n → Is name n s'

section
variable {env : Env W} {A : ApiOp → Prop} {Why : Str → Bool → Prop} {J : List Obl → St W → Prop}
  {E : St W → Prop} {rec : Calls W}

theorem Free.later {s s' : St W} {p} (h : Free s p) (hl : Later s s') : Free s' p :=
  h.imp id fun ⟨q, h1, h2⟩ => ⟨q, hl.node h1, h2⟩

theorem MissR.quiet {s s' : St W} {name p} (h : MissR env s name p) (hq : Quiet s s') :
    MissR env s' name p := by
  rcases h with ⟨q, h1, h2, h3⟩ | ⟨h, h2, h3⟩
  · exact .inl ⟨q, by rw [hq.nodes]; exact h1, h2, h3⟩
  · exact .inr ⟨by rw [hq.lazy]; exact h, h2.later hq.later, h3⟩

theorem interp_passive (hC : RCtx env A Why J E) {h : Hook W} (hh : h.Passive) {O s} (hs : J O s) :
    RetQ J O (fun r _ => r = none) s (interp rec h s) := by
  induction hh generalizing s with
  | ret => exact RetQ.pure hs rfl
  | raise e => exact RetQ.throw hs
  | look _ ih =>
    have h1 := ih s (hC.looked hs)
    refine ⟨h1.1, Quiet.trans ⟨later_event _ _, rfl, rfl, rfl⟩ h1.2.1, h1.2.2⟩
  | @setWorld w _ _ ih =>
    have h1 := ih (hC.world w hs)
    refine ⟨h1.1, Quiet.trans ⟨later_world _ w, rfl, rfl, rfl⟩ h1.2.1, h1.2.2⟩

theorem swig_ctx (hC : RCtx env A Why J E) {imp name p lm O s} (hs : J (.load name p lm :: O) s)
    (hm : MissR env s name p) :
    RetM J (.load name p lm :: O) (fun r s' => (∀ n, r = some n → Is name n s') ∧
      (r = none → Quiet s s')) s (swigHook env imp name s) := by
  have none_ : ∀ {s1 : St W}, J (.load name p lm :: O) s1 → Quiet s s1 →
      RetM J (.load name p lm :: O) (fun r s' => (∀ n, r = some n → Is name n s') ∧
      (r = none → Quiet s s')) s1 (M.pure none s1) := fun h hq =>
    .pure h ⟨by simp, fun _ => hq⟩
  unfold swigHook
  cases imp with
  | none => exact none_ hs (.refl s)
  | some imp =>
    simp only []
    split
    · exact none_ hs (.refl s)
    split
    · exact none_ hs (.refl s)
    rename_i hname
    simp only [ne_eq, Decidable.not_not] at hname
    rw [M.bind_of_ok (M.get_apply s)]
    have hs1 := hs
    have hq1 := Quiet.refl s
    split
    · exact none_ hs1 hq1
    rename_i hgw
    have hsw : ∃ s0, J (.load name p lm :: O) s0 ∧ c!"swig_import_helper" ∈ s0.gw imp.ident := by
      refine ⟨s, hs, ?_⟩
      simp only [Bool.not_eq_true', Bool.not_eq_false, List.contains_iff_mem] at hgw
      unfold St.globalsWritten at hgw
      split at hgw
      · cases hgw
      · exact hgw
    refine RetQ.bind (Q1 := fun _ _ => True)
      (RetQ.attempt (RetQ.ext hC hs1 fun _ _ _ _ => trivial) fun _ _ _ => trivial) ?_
    intro r s2 hs2 hq2 _
    refine RetQ.bind (Q1 := fun _ _ => True) ?_ ?_
    · cases r with
      | ok spec => exact RetQ.pure hs2 trivial
      | error e =>
        simp only []
        split
        · refine RetQ.bindQ (Q1 := fun _ _ => True) (RetQ.ext hC hs2 fun _ _ _ _ => trivial) ?_
          intro sp s3 hs3 _ _
          cases sp with
          | none => exact RetQ.throw hs3
          | some sp =>
            simp only []
            cases sp.origin with
            | none => exact RetQ.throw hs3
            | some origin =>
              refine RetQ.bindQ (Q1 := fun _ _ => True)
                (RetQ.modify (f := fun s => { s with world := _ }) (hC.world _ hs3)
                  ⟨later_world _ _, rfl, rfl, rfl⟩ trivial) ?_
              intro _ s4 hs4 _ _
              refine RetQ.bindQ (Q1 := fun _ _ => True) (RetQ.ext hC hs4 fun _ _ _ _ => trivial) ?_
              intro _ s5 hs5 _ _
              refine RetQ.bindQ (Q1 := fun _ _ => True) (RetQ.ext hC hs5 fun _ _ _ _ => trivial) ?_
              intro _ s6 hs6 _ _
              exact RetQ.pure hs6 trivial
        · exact RetQ.throw hs2
    · intro spec s3 hs3 hq3 _
      cases spec with
      | none => exact none_ hs3 (hq1.trans (hq2.trans hq3))
      | some spec =>
        refine RetQ.bind (Q1 := fun _ _ => True) (RetQ.ext hC hs3 fun _ _ _ _ => trivial) ?_
        intro pr s4 hs4 hq4 _
        have hq := hq1.trans (hq2.trans (hq3.trans hq4))
        split
        · exact none_ hs4 hq
        rename_i hext
        simp only [Bool.not_eq_true', Bool.not_eq_false] at hext
        refine RetQ.bind (Q1 := fun _ _ => True) ?_ ?_
        · unfold M.assert
          split
          · exact RetQ.pure hs4 trivial
          · exact RetQ.throw hs4
        · intro _ s5 hs5 hq5 _
          have hm5 := hm.quiet (hq.trans hq5)
          have hext' : ({ pr.1 with ident := name } : Node).isExtension = true := hext
          cases hh : s5.has name with
          | true =>
            rw [M.bind_of_error (e := .valueError false) (s' := s5)
              (by unfold M.addNode; rw [if_pos hh])]
            exact ⟨hs5, .refl _, rfl, rfl⟩
          | false =>
            rw [M.bind_of_ok (a := ()) (s' := s5.addNode { pr.1 with ident := name })
              (by unfold M.addNode; rw [if_neg (by simp [hh])])]
            refine ⟨hC.addSwig { pr.1 with ident := name } imp.ident hs5 hh hm5 hext' hname hsw,
              later_addNode _ _, ?_, by simp⟩
            intro n hn
            simp only [Option.some.injEq] at hn
            subst hn
            exact ⟨rfl, by simp [St.addNode, M.pure]⟩

theorem callMissing_ctx (hC : RCtx env A Why J E) (hM : ∀ k i n, (env.userMissing k i n).Passive)
    (hR : RGood env A Why J E rec) {i imp name p lm O s} (hs : J (.load name p lm :: O) s)
    (hm : MissR env s name p) :
    RetM J (.load name p lm :: O) (fun r s' => (∀ n, r = some n → Is name n s') ∧
      (r = none → Quiet s s' ∧ ∀ h ∈ s.missHooks.drop i, (∃ i, Event.asked h name i ∈ s'.log))) s
      (callMissingBody env rec i imp name s) := by
  unfold callMissingBody
  rw [M.bind_of_ok (M.get_apply s)]
  cases hi : s.missHooks[i]? with
  | none =>
    refine .pure hs ⟨by simp, fun _ => ⟨.refl s, ?_⟩⟩
    rw [List.drop_eq_nil_of_le (List.getElem?_eq_none_iff.mp hi)]
    simp
  | some h =>
    simp only []
    rw [M.bind_of_ok (M.modify_apply s _)]
    have hs1 := hC.asked h name imp hs
    have hq1 : Quiet s (s.event (.asked h name imp)) := ⟨later_event _ _, rfl, rfl, rfl⟩
    have ha1 : ∃ i, Event.asked h name i ∈ (s.event (.asked h name imp)).log := by simp [St.event]
    generalize s.event (.asked h name imp) = s1 at hs1 hq1 ha1
    refine RetM.bind (Q1 := fun r s' => (∀ n, r = some n → Is name n s') ∧
      (r = none → Quiet s s' ∧ (∃ i, Event.asked h name i ∈ s'.log))) ?_ ?_
    · refine RetM.shift hq1 ?_
      cases h with
      | swig =>
        exact (swig_ctx hC (imp := imp) hs1 (hm.quiet hq1)).weaken
          fun a s' _ hl h => ⟨h.1, fun hn => ⟨hq1.trans (h.2 hn), ha1.imp fun _ => hl.ev⟩⟩
      | user k =>
        exact (interp_passive (rec := rec) hC (hM k imp name) hs1).toRetM
          fun a s' hq ha => ⟨by simp [ha], fun _ => ⟨hq1.trans hq, ha1.imp fun _ => hq.later.ev⟩⟩
    · intro a s2 h2 hl2 ⟨h3, h4⟩
      cases a with
      | some n => exact ⟨h2, hl2, by intro m hm; exact h3 m hm, by simp⟩
      | none =>
        obtain ⟨hq, ha2⟩ := h4 rfl
        refine RetM.shift hq ((hR.callMissing (i + 1) imp name p lm O s2 h2 (hm.quiet hq)).weaken
          fun a s' _ hl h => ⟨h.1, fun hn => ⟨hq.trans (h.2 hn).1, ?_⟩⟩)
        intro h' hh'
        obtain ⟨hil, hie⟩ := List.getElem?_eq_some_iff.mp hi
        rw [List.drop_eq_getElem_cons hil, hie] at hh'
        rcases List.mem_cons.mp hh' with rfl | hh'
        · exact ha2.imp fun _ => hl.ev
        · exact (h.2 hn).2 h' (by rw [hq.hooks]; exact hh')

theorem createMissing_ctx (hC : RCtx env A Why J E) (hR : RGood env A Why J E rec)
    {imp name p lm O s} (hs : J (.load name p lm :: O) s) (hm : MissR env s name p) :
    RetM J (.load name p lm :: O) (Is name) s (createMissingBody rec imp name s) := by
  unfold createMissingBody
  refine RetM.bind (hR.callMissing 0 imp name p lm O s hs hm) ?_
  intro a s1 h1 h2 ⟨h3, h4⟩
  cases a with
  | some n => exact ⟨h1, h2, h3 n rfl⟩
  | none =>
    obtain ⟨hq, hask⟩ := h4 rfl
    simp only []
    cases hh : s1.has name with
    | true =>
      rw [M.bind_of_error (e := .valueError false) (s' := s1) (by unfold M.addNode; rw [if_pos (by simpa [missingNode] using hh)])]
      exact ⟨h1, h2, hq.nodes, hq.lazy⟩
    | false =>
      rw [M.bind_of_ok (a := ()) (s' := s1.addNode (missingNode name))
        (by unfold M.addNode; rw [if_neg (by simp [missingNode, hh])])]
      refine ⟨hC.addMissing h1 hh (hm.quiet hq) (by rw [hq.hooks]; simpa using hask), (h2.trans (later_addNode _ _)).trans
        (later_schedule _ _ _), rfl, ?_⟩
      exact (later_schedule _ _ _).node (by simp [St.addNode])

theorem implied_ctx (hC : RCtx env A Why J E) (hR : RGood env A Why J E rec)
    {imp name p lm O s} (hs : J (.load name p lm :: O) s) (hfr : Free s p) :
    Ret J E (.load name p lm :: O) (fun r s' => (∀ n, r = some n → Is name n s') ∧
      (r = none → s'.has name = true ∨ s'.lazy name = none)) s (impliedBody rec imp name s) := by
  unfold impliedBody
  rw [M.bind_of_ok (M.findNode_apply s name)]
  cases hf : s.find name with
  | some n =>
    exact .pure hs ⟨by simp, fun _ => .inl (has_of_Has ⟨n, find_some hf⟩)⟩
  | none =>
    have hh := find_none hf
    simp only []
    rw [M.bind_of_ok (M.get_apply s)]
    cases hl : s.lazy name with
    | none => exact .pure hs ⟨by simp, fun _ => .inr hl⟩
    | some v =>
      simp only []
      rw [M.bind_of_ok (M.modify_apply s _)]
      refine .shift (later_popLazy s name) ?_
      cases v with
      | excluded =>
        refine .addSched' hh (hC.popExcluded hs hh hl hfr) ?_
        intro s1 h1 _ hn _
        exact .pure h1 ⟨by intro n hn'; simp at hn'; subst hn'; exact ⟨rfl, hn⟩, by simp⟩
      | alias t =>
        refine .addSched' hh (hC.popAlias hs hh hl hfr) ?_
        intro s1 h1 _ hn _
        refine .bind (hR.findOrLoad _ _ _ _ _ h1 (.inl rfl) (hC.whyAlias h1)) ?_
        intro other s2 h2 hl2 ho
        refine .bind (O1 := .load name p lm :: O) (Q1 := fun _ s' => Is name (aliasNode name t) s')
          (.addEdge hC h2 (fun _ _ => ?_) ?_) ?_
        · rw [ho.1]
          exact hC.doneAlias h2 ⟨_, hl2.node hn, rfl⟩ ho.has
        · exact ⟨rfl, (later_addEdge _ _ _ _).node (hl2.node hn)⟩
        · intro _ s3 h3 hl3 hi
          exact .pure h3 ⟨by intro n hn'; simp at hn'; subst hn'; exact hi, by simp⟩
      | virtual t =>
        refine .addSched' hh (hC.popVirtual hs hh hl hfr) ?_
        intro s1 h1 _ hn _
        refine .bind (hR.findOrLoad _ _ _ _ _ h1 (.inl rfl) (hC.whyAlias h1)) ?_
        intro other s2 h2 hl2 ho
        refine .bind (O1 := .load name p lm :: O) (Q1 := fun _ s' => Is name (virtualNode name t) s')
          (.addEdge hC h2 (fun _ _ => ?_) ?_) ?_
        · rw [ho.1]
          exact hC.doneAlias h2 ⟨_, hl2.node hn, rfl⟩ ho.has
        · exact ⟨rfl, (later_addEdge _ _ _ _).node (hl2.node hn)⟩
        · intro _ s3 h3 hl3 hi
          exact .pure h3 ⟨by intro n hn'; simp at hn'; subst hn'; exact hi, by simp⟩
      | refs names =>
        have h1 := hC.popRefs hs hh hl hfr
        refine .bind (hR.findOrLoad _ _ _ _ _ h1 (.inl rfl) (hC.whySelf h1)) ?_
        intro node s1 h1 hl1 hn
        have loop : ∀ (rest : List Str) (s2 : St W),
            J (.refs name names rest :: .load name p lm :: O) s2 → Is name node s2 →
            Ret J E (.refs name names [] :: .load name p lm :: O) (fun _ s' => Is name node s') s2
              (M.forEach rest (fun ref => M.bind (rec.findOrLoad (some node) ref true) fun other =>
                M.addEdge node.ident other.ident defaultDep) s2) := by
          intro rest
          induction rest with
          | nil => intro s2 h2 hn2; exact .pure h2 hn2
          | cons r rest ih =>
            intro s2 h2 hn2
            refine .bind (O1 := .refs name names rest :: .load name p lm :: O)
              (Q1 := fun _ s' => Is name node s') ?_ ?_
            · refine .bind (hR.findOrLoad _ _ _ _ _ h2 (.inl rfl) (hC.whyRef h2)) ?_
              intro other s3 h3 hl3 ho
              refine .addEdge hC h3 (fun _ _ => ?_) ?_
              · rw [ho.1, hn2.1]
                exact hC.doneRef h3 (hn2.later hl3).has ho.has
              · exact (hn2.later hl3).later (later_addEdge _ _ _ _)
            · intro _ s3 h3 _ hn3
              exact ih s3 h3 hn3
        refine .bind (loop names s1 h1 hn) ?_
        intro _ s3 h3 _ hn3
        exact .pure (hC.doneRefs h3 hn3.has) ⟨by intro n hn'; simp at hn'; subst hn'; exact hn3, by simp⟩

theorem addLoaded_ctx (hC : RCtx env A Why J E) (hR : RGood env A Why J E rec)
    {name p lm O s spec} (hs : J (.load name p lm :: O) s)
    (hlz : s.has name = true ∨ s.lazy name = none) (hfr : Free s p)
    (hsp : ∃ w, (resolveSpec env name w).1 = .ok (some spec)) :
    Ret J E (.load name p lm :: O) (Is name) s (addLoaded env rec name spec s) := by
  unfold addLoaded
  refine .bind (Q1 := fun pr s' => FromSpec env name pr.1 pr.2 ∧
    (s'.has name = true ∨ s'.lazy name = none)) (.ext hC hs ?_) ?_
  · intro a w ha w'
    obtain ⟨w0, hw0⟩ := hsp
    exact ⟨⟨spec, w0, w, hw0, ha⟩, hlz⟩
  · intro pr s1 h1 hl1 ⟨hfs, hlz1⟩
    have hfr1 := hfr.later hl1
    obtain ⟨node, imports⟩ := pr
    simp only []
    split
    · rename_i hne
      refine .addSched hC h1 (fun hh => hC.addAlias h1 hh ?_ hfr1 hfs hne) ?_
      · rcases hlz1 with h | h
        · exact absurd hh (by show ¬ s1.has name = false; simp [h])
        · exact h
      · intro s2 h2 _ hal _
        rw [M.bind_of_ok (M.findNode_apply s2 node.ident)]
        refine .bind (O1 := .alias name node.ident :: .load name p lm :: O)
          (Q1 := fun _ s' => Has s' node.ident) ?_ ?_
        · cases hf : s2.find node.ident with
          | some m => exact .pure h2 ⟨m, find_some hf⟩
          | none =>
            refine .addSched hC h2 (fun hh => hC.addTarget h2 hh hfs hne) ?_
            intro s3 h3 _ hn3 _
            refine .bind (Q1 := fun sp s' => splitPackage node.ident = .ok sp ∧ node ∈ s'.nodes)
              (.ofExcept hC h3 fun a ha => ⟨ha, hn3⟩) ?_
            intro sp s4 h4 _ ⟨hsplit, hn4⟩
            obtain ⟨pk, base⟩ := sp
            cases pk with
            | none => exact .pure (hC.doneTarget h4 hsplit hn4) ⟨node, hn4, rfl⟩
            | some pkg =>
              refine .bind (hR.findOrLoad _ _ _ _ _ h4 (.inl rfl) (hC.whyTarget h4 hsplit)) ?_
              intro parent s5 h5 hl5 hp
              refine .addEdge hC h5 (fun _ _ => ?_) ?_
              · rw [hp.1]
                exact hC.doneTargetLink h5 hsplit (hl5.node hn4) hp.has
              · exact ⟨node, (later_addEdge _ _ _ _).node (hl5.node hn4), rfl⟩
        · intro _ s3 h3 hl3 hn3
          refine .bind (Q1 := fun _ s' => Is name (aliasNode name node.ident) s')
            (.addEdge hC h3 (fun _ _ => hC.doneAlias h3 ⟨_, hl3.node hal, rfl⟩ hn3)
              ⟨rfl, (later_addEdge _ _ _ _).node (hl3.node hal)⟩) ?_
          intro _ s4 h4 _ hi
          exact .pure h4 hi
    · rename_i hne
      simp only [ne_eq, Decidable.not_not] at hne
      subst hne
      refine .bind (O1 := .node node imports :: .load node.ident p lm :: O)
        (Q1 := fun _ s' => node ∈ s'.nodes)
        (.addNode hC h1 (fun hh => hC.addLoaded h1 hh ?_ hfr1 hfs) (by simp [St.addNode])) ?_
      · rcases hlz1 with h | h
        · simp [h] at hh
        · exact h
      · intro _ s2 h2 _ hn2
        refine .bind (O1 := .node node imports :: .load node.ident p lm :: O)
          (Q1 := fun _ s' => node ∈ s'.nodes ∧ NsLinked s' node) ?_ ?_
        · cases hk : node.kind with
          | package fr init sp hd ns =>
            cases ns with
            | none => exact .pure h2 ⟨hn2, by intro _ _ _ _ _ h; rw [hk] at h; cases h⟩
            | some ns =>
              refine .bind (hR.findOrLoad _ _ _ _ _ h2 (.inl rfl) (hC.whyNs h2 hk)) ?_
              intro nspkg s3 h3 hl3 hp
              refine .addEdge hC h3 (fun _ _ => ?_) ?_
              · rw [hp.1]
                exact hC.nsEdge h3 hk (hl3.node hn2) hp.has
              · refine ⟨(later_addEdge _ _ _ _).node (hl3.node hn2), ?_⟩
                intro _ _ _ _ _ h
                rw [hk] at h
                cases h
                rw [hp.1]
                exact addEdge_mem _ _ _ _
          | _ => exact .pure h2 ⟨hn2, by intro _ _ _ _ _ h; rw [hk] at h; cases h⟩
        · intro _ s3 h3 _ ⟨hn3, hns3⟩
          refine .bind (O1 := .load node.ident p lm :: O) (Q1 := fun _ s' => Is node.ident node s')
            (.modify (hC.schedNode h3 hn3 hns3) (later_schedule _ _ _)
              ⟨rfl, (later_schedule _ _ _).node hn3⟩) ?_
          intro _ s4 h4 _ hi
          exact .pure h4 hi

theorem loadFallback_ctx (hC : RCtx env A Why J E) (hR : RGood env A Why J E rec)
    {imp name p lm O s e} (hs : J (.load name p lm :: O) s)
    (hlz : s.has name = true ∨ s.lazy name = none) (hfr : Free s p)
    (hnf : ∃ w, ∀ spec, (resolveSpec env name w).1 ≠ .ok (some spec)) (hh : s.has name = false) :
    Ret J E (.load name p lm :: O) (Is name) s (loadFallback env rec imp name e s) := by
  have hmc : ∀ s' : St W, Quiet s s' → MissR env s' name p := by
    intro s' hq
    rcases hlz with h | h
    · simp [h] at hh
    · exact .inr ⟨by rw [hq.lazy]; exact h, hfr.later hq.later, hnf⟩
  unfold loadFallback
  split
  · simp only []
    rw [M.bind_of_ok (M.get_apply s)]
    split
    · exact .throw hC hs
    refine .bind (Q1 := fun _ s' => Quiet s s') (.ext hC hs fun _ _ _ w => ⟨later_world s w, rfl, rfl, rfl⟩) ?_
    intro sp s1 h1 _ hq1
    cases sp with
    | none => exact .throw hC h1
    | some spec =>
      simp only []
      rw [M.bind_of_ok (M.get_apply s1)]
      split
      · exact .throw hC h1
      refine .bind (Q1 := fun _ s' => Quiet s s')
        (.ext hC h1 fun _ _ _ w => hq1.trans ⟨later_world s1 w, rfl, rfl, rfl⟩) ?_
      intro isPkg s2 h2 _ hq2
      split
      · cases spec.origin with
        | none => exact .throw hC h2
        | some path =>
          simp only []
          split
          · exact .throw hC h2
          · refine .bind (Q1 := fun _ s' => Quiet s s')
              (.modify (f := fun s => { s with world := _ }) (hC.world _ h2) (later_world _ _)
                (hq2.trans ⟨later_world s2 _, rfl, rfl, rfl⟩)) ?_
            intro _ s3 h3 _ hq3
            refine hR.loadModule _ _ _ _ _ _ h3 ?_ (hfr.later hq3.later)
            rcases hlz with h | h
            · simp [h] at hh
            · exact .inr (by rw [hq3.lazy]; exact h)
      · exact (hR.createMissing _ _ _ _ _ _ h2 (hmc _ hq2)).toRet hC
  · exact (hR.createMissing _ _ _ _ _ _ hs (hmc _ (.refl s))).toRet hC

theorem loadModule_ctx (hC : RCtx env A Why J E) (hR : RGood env A Why J E rec)
    {imp name p lm O s} (hs : J (.load name p lm :: O) s)
    (hlz : s.has name = true ∨ s.lazy name = none) (hfr : Free s p) :
    Ret J E (.load name p lm :: O) (Is name) s (loadModuleBody env rec imp name s) := by
  unfold loadModuleBody
  split
  · exact .throw hC hs
  rw [M.bind_of_ok (M.findNode_apply s name)]
  cases hf : s.find name with
  | some n => exact .pure hs ⟨(find_some hf).2, (find_some hf).1⟩
  | none =>
    have hh := find_none hf
    have hl : s.lazy name = none := by
      rcases hlz with h | h
      · simp [h] at hh
      · exact h
    simp only []
    have key : RetM J (.load name p lm :: O) (fun r s' => (∀ n, r = Sum.inl n → Is name n s') ∧
        ∀ spec, r = Sum.inr spec → Quiet s s' ∧ ∃ w, (resolveSpec env name w).1 = .ok (some spec)) s
        (M.bind (M.ext (resolveSpec env name)) (fun sp => match sp with
          | none => M.bind (rec.createMissing imp name) fun n => M.pure (Sum.inl n)
          | some spec => M.pure (Sum.inr spec)) s) := by
      refine RetQ.bind (Q1 := fun sp s' => Quiet s s' ∧ ∃ w, (resolveSpec env name w).1 = .ok sp)
        (RetQ.ext hC hs fun a w ha w' => ⟨⟨later_world _ _, rfl, rfl, rfl⟩, w, ha⟩) ?_
      intro sp s1 h1 _ ⟨hq, hw⟩
      cases sp with
      | some spec => exact .pure h1 ⟨by simp, by intro sp' h; simp at h; subst h; exact ⟨hq, hw⟩⟩
      | none =>
        have := hR.createMissing imp name p lm O s1 h1
          (.inr ⟨by rw [hq.lazy]; exact hl, hfr.later hq.later, by
            obtain ⟨w, hw⟩ := hw
            exact ⟨w, by intro spec h; rw [hw] at h; cases h⟩⟩)
        simp only []
        unfold M.bind
        revert this
        cases rec.createMissing imp name s1 with
        | mk r s2 =>
          intro h
          cases r with
          | error e => exact h
          | ok n => exact ⟨h.1, h.2.1, by intro m hm; simp at hm; subst hm; exact h.2.2, by simp⟩
    revert key
    generalize hm : M.bind (M.ext (resolveSpec env name)) (fun sp => match sp with
          | none => M.bind (rec.createMissing imp name) fun n => M.pure (Sum.inl n)
          | some spec => M.pure (Sum.inr spec)) = m
    intro key
    cases hms : m s with
    | mk r s1 =>
      rw [hms] at key
      rcases M.attempt_cases hms with ⟨hr, ha⟩ | ha
      · rw [M.bind_of_error ha]
        subst hr
        exact ⟨hC.toE key.1, key.2.1⟩
      · rw [M.bind_of_ok ha]
        cases r with
        | ok x =>
          cases x with
          | inl n =>
            obtain ⟨h1, h2, h3, _⟩ := key
            exact .shift h2 (.pure h1 (h3 n rfl))
          | inr spec =>
            obtain ⟨h1, h2, _, h3⟩ := key
            obtain ⟨hq, hw⟩ := h3 spec rfl
            exact .shift h2 (addLoaded_ctx hC hR h1 (.inr (by rw [hq.lazy]; exact hl))
              (hfr.later hq.later) hw)
        | error e =>
          obtain ⟨h1, h2, h3, h4⟩ := key
          have hnf : ∃ w, ∀ spec, (resolveSpec env name w).1 ≠ .ok (some spec) := by
            refine ⟨s.world, fun spec hsp => ?_⟩
            have : m s = (.ok (Sum.inr spec), { s with world := (resolveSpec env name s.world).2 }) := by
              rw [← hm, M.bind_of_ok (a := some spec)
                (s' := { s with world := (resolveSpec env name s.world).2 })]
              · rfl
              · unfold M.ext
                rw [← hsp]
            rw [hms] at this
            cases this
          refine .shift h2 ?_
          simp only []
          split
          · exact loadFallback_ctx hC hR h1 (.inr (by rw [h4]; exact hl)) (hfr.later h2) hnf
              (by unfold St.has at *; rw [h3]; exact hh)
          · exact .throw hC h1

theorem findOrLoad_ctx (hC : RCtx env A Why J E) (hR : RGood env A Why J E rec)
    {imp name lm O s} (hs : J O s) (ht : lm = true ∨ Tried s.nodes s.log name) (hw : Why name lm) :
    Ret J E O (Is name) s (findOrLoadBody rec imp name lm s) := by
  unfold findOrLoadBody
  refine .bind (Q1 := fun r s' => (∀ n, r = some n → Is name n s'))
    (.findModule hC hs (fun n _ h1 h2 => by intro m hm; simp at hm; subst hm; exact ⟨h2, h1⟩)
      (fun _ => by simp)) ?_
  intro r s1 h1 hl1 hr
  have ht1 : lm = true ∨ Tried s1.nodes s1.log name := ht.imp id (·.later hl1)
  cases r with
  | some n => exact .pure h1 (hr n rfl)
  | none =>
    simp only []
    refine .bind (Q1 := fun sp s' => splitPackage name = .ok sp) (.ofExcept hC h1 fun a ha => ha) ?_
    intro sp s2 h2 hl2 hsp
    have ht2 : lm = true ∨ Tried s2.nodes s2.log name := ht1.imp id (·.later hl2)
    obtain ⟨pk, base⟩ := sp
    refine .bind (O1 := .load name pk lm :: O)
      (Q1 := fun pn s' => (∀ n, pn.2 = some n → Is name n s') ∧
        (∀ q, pk = some q → ∃ q', pn.1 = some q' ∧ Is q q' s') ∧ (pk = none → pn.1 = none) ∧
        (pn.2 = none → Free s' pk)) ?_ ?_
    · cases pk with
      | none =>
        exact .pure (hC.pushLoad lm h2 hsp (by simp) hw)
          ⟨by simp, by simp, by simp, fun _ => .inl rfl⟩
      | some pkg =>
        refine .bind (hR.findOrLoad _ _ _ _ _ h2 (.inl rfl) (hC.whyPackage hw hsp)) ?_
        intro parent s3 h3 _ hp
        have h3' := hC.pushLoad lm h3 hsp (by intro q hq; simp at hq; subst hq; exact hp.has) hw
        split
        · rename_i hmiss
          refine .bind ((hR.createMissing _ _ _ _ _ _ h3'
            (.inl ⟨parent, hp.2, by rw [hp.1], hmiss⟩)).toRet hC) ?_
          intro n s4 h4 hl4 hn
          exact .pure h4 ⟨by intro m hm; simp at hm; subst hm; exact hn,
            by intro q hq; simp at hq; subst hq; exact ⟨parent, rfl, hp.later hl4⟩, by simp, by simp⟩
        · rename_i hnm
          split
          · rename_i hex
            refine .addSched hC h3' (fun hh => hC.addExcludedSub h3' hp.2 (by rw [hp.1]) hex hh) ?_
            intro s4 h4 hl4 hn _
            exact .pure h4 ⟨by intro m hm; simp at hm; subst hm; exact ⟨rfl, hn⟩,
              by intro q hq; simp at hq; subst hq; exact ⟨parent, rfl, hp.later hl4⟩, by simp, by simp⟩
          · rename_i hnx
            exact .pure h3' ⟨by simp,
              by intro q hq; simp at hq; subst hq; exact ⟨parent, rfl, hp⟩, by simp,
              fun _ => .inr ⟨parent, hp.2, by rw [hp.1], by simpa using hnm, by simpa using hnx⟩⟩
    · intro pn s3 h3 hl3 ⟨hp1, hp2, hp3, hp4⟩
      have ht3 : lm = true ∨ Tried s3.nodes s3.log name := ht2.imp id (·.later hl3)
      refine .bind (O1 := .load name pk lm :: O) (Q1 := Is name) ?_ ?_
      · cases hpn : pn.2 with
        | some n => exact .pure h3 (hp1 n hpn)
        | none =>
          refine .bind (hR.implied imp name pk lm O s3 h3 (hp4 hpn)) ?_
          intro i s4 h4 hl4 ⟨hi1, hi2⟩
          cases i with
          | some n => exact .pure h4 (hi1 n rfl)
          | none => exact hR.loadModule _ _ _ _ _ _ h4 (hi2 rfl) ((hp4 hpn).later hl4)
      · intro node s4 h4 hl4 hn
        have ht4 : lm = true ∨ Tried s4.nodes s4.log name := ht3.imp id (·.later hl4)
        cases pk with
        | none =>
          rw [hp3 rfl]
          exact .pure (hC.popLoad h4 hn.has) hn
        | some q =>
          obtain ⟨q', hq', hiq⟩ := hp2 q rfl
          rw [hq']
          simp only []
          split
          · rename_i hlm
            refine .bind (O1 := O) (Q1 := fun _ s' => Is name node s') (.addEdge hC h4 (fun _ _ => ?_)
              (hn.later (later_addEdge _ _ _ _))) ?_
            · rw [hn.1, hiq.1]
              refine hC.popLoadLink h4 hn.has (hiq.later hl4).has ?_
              simp only [Bool.or_eq_true, Bool.not_eq_true'] at hlm
              exact hlm.imp id fun h => ⟨node, hn.2, hn.1, h⟩
            · intro _ s5 h5 _ hi
              exact .pure h5 hi
          · rename_i hlm
            simp only [Bool.or_eq_true, Bool.not_eq_true', not_or, Bool.not_eq_true,
              Bool.not_eq_false] at hlm
            obtain ⟨hlm, hmiss⟩ := hlm
            subst hlm
            rcases ht4 with h | ht4
            · simp at h
            · refine .pure (hC.popLoadMissing (n := node) (p := q) ?_ hn.2 hmiss (by rw [hn.1]; exact ht4)) hn
              rw [hn.1]; exact h4


theorem processImport_ctx (hC : RCtx env A Why J E) (hR : RGood env A Why J E rec) {m i s} (hs : J [] s)
    (hst : Event.started (.imp m i) ∈ s.log) :
    Ret J E [] (fun _ _ => True) s (processImport rec m i s) := by
  unfold processImport
  refine .bind (Q1 := fun a _ => absoluteName m i = .ok a) (.ofExcept hC hs fun a ha => ha) ?_
  intro a s1 h1 hl1 ha
  have hst1 := hl1.ev hst
  cases a with
  | none =>
    simp only []
    refine .bind (Q1 := fun r s' => ∀ n, r = some n →
        Is (List.replicate i.importLevel '.' ++ i.importModule.name) n s')
      (.findModule hC h1 (fun n _ h1 h2 => by intro m hm; simp at hm; subst hm; exact ⟨h2, h1⟩)
        (fun _ => by simp)) ?_
    intro r s2 h2 hl2 hr
    have hst2 := hl2.ev hst1
    refine .bind (O1 := []) (Q1 := fun n s' =>
      Is (List.replicate i.importLevel '.' ++ i.importModule.name) n s' ∧ n.isInvalidRel = true) ?_ ?_
    · cases r with
      | none =>
        refine .addSched hC h2 (fun hh => hC.addInvalid h2 hst2 ha hh) ?_
        intro s3 h3 _ hn _
        exact .pure h3 ⟨⟨rfl, hn⟩, rfl⟩
      | some n =>
        refine .bind (Q1 := fun _ s' => n.isInvalidRel = true ∧
          Is (List.replicate i.importLevel '.' ++ i.importModule.name) n s')
          (.assert hC h2 fun hb => ⟨hb, hr n rfl⟩) ?_
        intro _ s3 h3 _ ⟨hb, hi⟩
        exact .pure h3 ⟨hi, hb⟩
    · intro n s3 h3 hl3 ⟨hi, hb⟩
      exact .addEdgeMod hC h3
        (fun hm _ => hC.finishInvalid h3 (hl3.ev hst2) ha hi.2 hb hi.1 hm)
        (later_event _ _) trivial
  | some name =>
    simp only []
    rw [M.bind_of_ok (M.get_apply s1)]
    refine .bind (hR.findOrLoad _ _ _ _ _ h1 (.inl rfl) (hC.whyImport h1 hst1 ha)) ?_
    intro node s2 h2 hl2 hn
    refine .addEdgeMod hC h2 (fun hm _ => ?_) ?_ trivial
    · exact hC.finishImp s1.stack.length h2 (hl2.ev hst1) (by rw [ha, hn.1]) hn.2 hm
    · exact ⟨List.prefix_rfl, by simp, rfl, fun _ h => h⟩

theorem processName_ctx (hC : RCtx env A Why J E) (hR : RGood env A Why J E rec) {a b c i nm s} (hs : J [] s)
    (hst : Event.started (.nl a b i) ∈ s.log) (ht : NlTarget s b c) (hstar : i.starImport = false)
    (hc : c.isPackage = true ∨ c.isNamespacePkg = true ∨ c.isModule = true) (hnm : nm ∈ i.importNames) :
    Ret J E [] (fun _ _ => True) s (processName env rec a c i nm s) := by
  unfold processName
  rw [M.bind_of_ok (M.get_apply s)]
  simp only []
  have hsub (hc : c.isPackage = true ∨ c.isNamespacePkg = true) : Ret J E [] (fun _ _ => True) s
      (M.bind (rec.findOrLoad (some a) (c.ident ++ '.' :: nm.name) false) (fun sub =>
        M.bind M.get fun s =>
        if sub.isMissing then
          match c.kind with
          | .package _ init _ _ _ =>
            if init.name = c!"@@SIX_MOVES@@" then
              match sixMove nm.name with
              | some target =>
                M.bind (rec.findOrLoad (some a) target true) fun depNode =>
                M.addEdge a.ident depNode.ident defaultDep
              | none => M.bind (M.addEdge sub.ident c.ident defaultDep) fun _ =>
                  M.addEdge a.ident sub.ident (fromImportInfo i true nm.asname)
            else if (s.globalsWritten c).contains nm.name then M.pure ()
            else M.bind (M.addEdge sub.ident c.ident defaultDep) fun _ =>
                  M.addEdge a.ident sub.ident (fromImportInfo i true nm.asname)
          | _ => M.bind (M.addEdge sub.ident c.ident defaultDep) fun _ =>
                  M.addEdge a.ident sub.ident (fromImportInfo i true nm.asname)
        else M.bind (M.addEdge sub.ident c.ident defaultDep) fun _ =>
                  M.addEdge a.ident sub.ident (fromImportInfo i true nm.asname)) s) := by
    have htried : Tried s.nodes s.log (c.ident ++ '.' :: nm.name) :=
      ⟨a, b, c, i, nm, hst, hstar, hnm, ht.imp And.left id, hc, rfl⟩
    refine .bind (hR.findOrLoad _ _ _ _ _ hs (.inr htried) (hC.whyFrom hs hst ht hstar hc hnm)) ?_
    intro sub s1 h1 hl1 hsb
    have ht1 : ∀ s', Later s1 s' → NlTarget s' b c := by
      intro s' hl
      exact ht.imp id fun h => ⟨h.1, hl.node (hl1.node h.2)⟩
    rw [M.bind_of_ok (M.get_apply s1)]
    have hlink (hlk : sub.isMissing = true → (SixMoves c ∧ sixMove nm.name = none) ∨
        (¬ SixMoves c ∧ (c.isPackage = false ∨ nm.name ∉ s1.gw c.ident))) : Ret J E [] (fun _ _ => True) s1
        (M.bind (M.addEdge sub.ident c.ident defaultDep) (fun _ =>
          M.addEdge a.ident sub.ident (fromImportInfo i true nm.asname)) s1) := by
      have hsl : SubLinked s1 c nm.name := ⟨sub, hsb.2, hsb.1, hlk⟩
      rw [hsb.1]
      refine .bind (O1 := []) (Q1 := fun _ s' => Later s1 s' ∧ SubLinked s' c nm.name)
        (.addEdge hC h1 (fun _ hh =>
          hC.subLink h1 (hl1.ev hst) (ht1 s1 (.refl _)) hstar hc hnm hsl hh)
          ⟨later_addEdge _ _ _ _, ?_⟩) ?_
      · obtain ⟨x, hx1, hx2, hx3⟩ := hsl
        refine ⟨x, (later_addEdge _ _ _ _).node hx1, hx2, fun h => (hx3 h).imp id (And.imp id (Or.imp id ?_))⟩
        intro h
        unfold St.addEdge
        split <;> exact h
      · intro _ s2 h2 _ ⟨hl2, hsl2⟩
        exact .addEdge hC h2 (fun ha _ => hC.subEdge h2 (hl2.ev (hl1.ev hst)) (ht1 s2 hl2) hstar hc hnm
          hsl2 ha) trivial
    split
    · rename_i hmiss
      cases hk : c.kind with
      | package fr init sp hd ns =>
        simp only []
        split
        · rename_i hsix
          cases hsm : sixMove nm.name with
          | none => exact hlink fun _ => .inl ⟨⟨fr, init, sp, _, ns, hk, hsix⟩, hsm⟩
          | some target =>
            refine .bind (hR.findOrLoad _ _ _ _ _ h1 (.inl rfl) (hC.whySix h1 (hl1.ev hst)
              (ht1 s1 (.refl _)) hstar hnm ⟨fr, init, sp, _, ns, hk, hsix⟩ hsm
              ⟨sub, hsb.2, hsb.1, hmiss⟩)) ?_
            intro dep s2 h2 hl2 hd
            refine .addEdge hC h2 (fun ha _ => ?_) trivial
            rw [hd.1]
            exact hC.sixEdge h2 (hl2.ev (hl1.ev hst)) (ht1 s2 hl2) hstar hnm hsm hd.has ha
              ⟨fr, init, sp, _, ns, hk, hsix⟩ ⟨sub, hl2.node hsb.2, hsb.1, hmiss⟩
        · rename_i hsix
          split
          · exact .pure h1 trivial
          · rename_i hg
            refine hlink fun _ => .inr ⟨?_, .inr ?_⟩
            · rintro ⟨_, init', _, _, _, hk', h7⟩
              rw [hk] at hk'
              cases hk'
              exact hsix h7
            · simpa [St.globalsWritten, Node.isNamespacePkg, hk] using hg
      | _ => exact hlink fun _ => .inr ⟨fun ⟨_, _, _, _, _, h, _⟩ => (by rw [hk] at h; cases h),
          .inl (by simp [Node.isPackage, hk])⟩
    · rename_i hm
      exact hlink fun h => absurd h hm
  have hc' : ¬ c.isModule = true → c.isPackage = true ∨ c.isNamespacePkg = true := by
    intro h
    rcases hc with hc | hc | hc
    · exact .inl hc
    · exact .inr hc
    · exact absurd hc h
  split
  · rename_i hg
    cases hre : reexported env s c nm.name with
    | some t => exact .addEdge hC hs (fun ha htt => hC.reexport hs hst ht hstar hnm (by simpa using hg)
        hre ha htt) trivial
    | none =>
      simp only []
      split
      · exact .pure hs trivial
      · exact hsub (hc' (by assumption))
  · split
    · exact .pure hs trivial
    · exact hsub (hc' (by assumption))

theorem processNames_ctx (hC : RCtx env A Why J E) (hR : RGood env A Why J E rec) {a b c i s} (hs : J [] s)
    (hst : Event.started (.nl a b i) ∈ s.log) (ht : NlTarget s b c) (hstar : i.starImport = false)
    (hc : c.isPackage = true ∨ c.isNamespacePkg = true ∨ c.isModule = true) :
    Ret J E [] (fun _ _ => True) s (processNames env rec a c i s) := by
  unfold processNames
  rw [M.bind_of_ok (M.modify_apply s _)]
  have hl : Later s (s.addGlobals a.ident (i.importNames.map ImpName.name)) :=
    ⟨List.prefix_rfl, List.prefix_rfl, rfl, fun _ h => h⟩
  refine .shift hl (.forEach (P := fun s' => Event.started (.nl a b i) ∈ s'.log ∧ NlTarget s' b c)
    ?_ ?_ (hC.globals _ hs hst (.inl rfl)) ⟨hst, ht⟩ fun _ _ => trivial)
  · intro s1 s2 hl ⟨h1, h2⟩
    exact ⟨hl.ev h1, h2.imp id fun h => ⟨h.1, hl.node h.2⟩⟩
  · intro nm hnm s1 h1 ⟨h2, h3⟩
    exact processName_ctx hC hR h1 h2 h3 hstar hc hnm

theorem processNamelist_ctx (hC : RCtx env A Why J E) (hR : RGood env A Why J E rec) {a b i s} (hs : J [] s)
    (hst : Event.started (.nl a b i) ∈ s.log) :
    Ret J E [] (fun _ _ => True) s (processNamelist env rec a b i s) := by
  unfold processNamelist
  refine .bind (Q1 := fun _ _ => True) (.assert hC hs fun _ => trivial) ?_
  intro _ s1 h1 hl1 _
  have hst1 := hl1.ev hst
  have hg : ∀ names, Later s1 (s1.addGlobals a.ident names) := fun _ =>
    ⟨List.prefix_rfl, List.prefix_rfl, rfl, fun _ h => h⟩
  split
  · rename_i hstar
    split
    · rename_i hb
      exact .modify (hC.globals _ h1 hst1 (.inr ⟨hstar, by simpa using hb, rfl⟩)) (hg _) trivial
    · exact .pure h1 trivial
  · rename_i hstar
    have hstar : i.starImport = false := by simpa using hstar
    split
    · rename_i hb
      cases hk : b.kind with
      | alias actual =>
        simp only []
        refine .bind (O1 := []) (Q1 := fun _ s' => Later s1 s')
          (.modify (hC.globals _ h1 hst1 (.inl rfl)) (hg _) (hg _)) ?_
        intro _ s2 h2 _ hl2
        refine .bind (Q1 := fun r s' => Later s1 s' ∧ ∀ n, r = some n → Is actual n s')
          (.findModule hC h2 (fun n _ h1 h2 => ⟨hl2, by intro m hm; simp at hm; subst hm; exact ⟨h2, h1⟩⟩)
            (fun _ => ⟨hl2, by simp⟩)) ?_
        intro r s3 h3 _ ⟨hl3, hr⟩
        cases r with
        | none => exact .throw hC h3
        | some n =>
          have hi := hr n rfl
          simp only []
          split
          · rename_i hkind
            exact processNames_ctx hC hR h3 (hl3.ev hst1) (.inr ⟨by rw [hk, hi.1], hi.2⟩) hstar
              (by simp only [Bool.or_eq_true, or_assoc] at hkind; exact hkind)
          · exact .pure h3 trivial
      | _ =>
        have hna : b.isAlias = false := by simp [Node.isAlias, hk]
        refine processNames_ctx hC hR h1 hst1 (.inl ⟨rfl, hna⟩) hstar ?_
        simp only [hna, Bool.or_false, Bool.and_eq_true, Bool.or_eq_true, or_assoc] at hb
        exact hb.2
    · exact .pure h1 trivial

theorem importPackage_ctx (hC : RCtx env A Why J E) (hR : RGood env A Why J E rec) {a name s} (hs : J [] s)
    (hst : Event.started (.pkg a name) ∈ s.log ∨ A (.importPackage a name)) :
    Ret J E [] (Is name) s (importPackageBody env rec a name s) := by
  unfold importPackageBody
  refine .bind (Q1 := fun r s' => ∀ n, r = some n → Is name n s')
    (.findModule hC hs (fun n _ h1 h2 => by intro m hm; simp at hm; subst hm; exact ⟨h2, h1⟩)
      (fun _ => by simp)) ?_
  intro r s1 h1 hl1 hr
  have hst1 := hst.imp hl1.ev id
  refine .bind (O1 := []) (Q1 := Is name) ?_ ?_
  · unfold M.savedStack
    have hin : Ret J E [] (Is name) { s1 with stack := [], hidden := s1.hidden ++ s1.stack }
        ((M.bind (match r with
          | some n => M.pure n
          | none => rec.findOrLoad none name true) fun node =>
        M.bind rec.runStack fun _ => M.pure node)
          { s1 with stack := [], hidden := s1.hidden ++ s1.stack }) := by
      refine .bind (O1 := []) (Q1 := Is name) ?_ ?_
      · cases r with
        | some n => exact .pure (hC.enter h1) (hr n rfl)
        | none => exact hR.findOrLoad _ _ _ _ _ (hC.enter h1) (.inl rfl) (hC.whyPkg h1 hst1)
      · intro node s2 h2 _ hn
        refine .bind (hR.runStack _ h2) ?_
        intro _ s3 h3 hl3 _
        exact .pure h3 (hn.later hl3)
    simp only []
    revert hin
    generalize (M.bind (match r with
          | some n => M.pure n
          | none => rec.findOrLoad none name true) fun node =>
        M.bind rec.runStack fun _ => M.pure node)
          { s1 with stack := [], hidden := s1.hidden ++ s1.stack } = res
    intro hin
    cases res with
    | mk r2 s2 =>
      cases r2 with
      | ok n =>
        obtain ⟨h2, hl2, hn⟩ := hin
        exact ⟨hC.exit h1 h2 hl2.hidden, ⟨hl2.nodes, hl2.log, rfl, hl2.roots⟩, hn⟩
      | error e =>
        obtain ⟨h2, hl2⟩ := hin
        exact ⟨hC.exitE h1 h2 hl2.hidden, ⟨hl2.nodes, hl2.log, rfl, hl2.roots⟩⟩
  · intro node s2 h2 hl2 hn
    have hst2 := hst1.imp hl2.ev id
    refine .bind (O1 := []) (Q1 := fun _ s' => Is name node s') (.addEdge hC h2 (fun ha _ => ?_)
      (hn.later (later_addEdge _ _ _ _))) ?_
    · rw [hn.1]
      exact hC.pkgEdge h2 hst2 hn.has ha
    · intro _ s3 h3 hl3 hn3
      have hst3 := hst2.imp hl3.ev id
      split
      · exact .pure h3 hn3
      · rename_i hpk
        simp only [Bool.not_eq_true', Bool.not_eq_false] at hpk
        refine .bind (Q1 := fun _ s' => Is name node s') (.ext hC h3 fun _ _ _ w => ⟨hn3.1, hn3.2⟩) ?_
        intro spec s4 h4 hl4 hn4
        have hst4 := hst3.imp hl4.ev id
        cases spec with
        | none => exact .throw hC h4
        | some spec =>
          simp only []
          have hlat : ∀ s s' : St W, Later s s' →
              (Is name node s ∧ (Event.started (.pkg a name) ∈ s.log ∨ A (.importPackage a name))) →
              (Is name node s' ∧ (Event.started (.pkg a name) ∈ s'.log ∨ A (.importPackage a name))) :=
            fun _ _ hl h => ⟨h.1.later hl, h.2.imp hl.ev id⟩
          refine .bind (O1 := []) (Q1 := fun _ s' => Is name node s') ?_ ?_
          · refine .forEach (P := fun s' => Is name node s' ∧
              (Event.started (.pkg a name) ∈ s'.log ∨ A (.importPackage a name))) hlat ?_ h4
              ⟨hn4, hst4⟩ fun _ h => h.1
            intro path _ s5 h5 hn5
            refine .bind (Q1 := fun _ s' => Later s5 s')
              (.ext hC h5 fun _ _ _ w => later_world _ w) ?_
            intro stems s6 h6 _ hl6
            have hn6 := hlat _ _ hl6 hn5
            refine .bind (O1 := []) (Q1 := fun _ s' => Later s6 s') ?_ ?_
            · refine (Ret.forEach (Q := fun _ _ => True) (P := fun s' => Is name node s' ∧
                (Event.started (.pkg a name) ∈ s'.log ∨ A (.importPackage a name))) hlat ?_ h6 hn6
                fun _ _ => trivial).weaken fun _ _ _ hl _ => hl
              intro stem _ s7 h7 hn7
              split
              · exact .pure h7 trivial
              · refine .bind (hR.findOrLoad _ _ _ _ _ h7 (.inl rfl) (by
                  rw [← hn7.1.1]
                  exact hC.whyPkgSub (a := a) h7 hn7.1.2 hpk (by rw [hn7.1.1]; exact hn7.2))) ?_
                intro m s8 h8 hl8 hm
                have hn8 := hlat _ _ hl8 hn7
                refine .bind (O1 := []) (Q1 := fun _ s' => Later s8 s')
                  (.addEdge hC h8 (fun _ _ => ?_) (later_addEdge _ _ _ _)) ?_
                · rw [hm.1, ← hn7.1.1]
                  exact hC.pkgSub (a := a) h8 hn8.1.2 hpk (by rw [hn8.1.1]; exact hn8.2)
                    (by rw [hn8.1.1]; exact hm.has)
                · intro _ s9 h9 _ hl9
                  have hn9 := hlat _ _ hl9 hn8
                  refine .modify ?_ ⟨List.prefix_rfl, List.prefix_rfl, rfl, fun _ h => h⟩ trivial
                  rw [← hn9.1.1]
                  exact hC.pushPkg (a := a) h9 hn9.1.2 hpk (by rw [hn9.1.1]; exact hn9.2)
            · intro _ s7 h7 _ hl7
              have hn7 := hlat _ _ hl7 hn6
              refine .bind (Q1 := fun _ s' => Later s7 s')
                (.ext hC h7 fun _ _ _ w => later_world _ w) ?_
              intro dirs s8 h8 _ hl8
              have hn8 := hlat _ _ hl8 hn7
              refine .forEach (P := fun s' => Is name node s' ∧
                (Event.started (.pkg a name) ∈ s'.log ∨ A (.importPackage a name))) hlat ?_ h8 hn8
                fun _ _ => trivial
              intro d _ s9 h9 hn9
              split
              · exact .pure h9 trivial
              · refine .modify ?_ ⟨List.prefix_rfl, List.prefix_rfl, rfl, fun _ h => h⟩ trivial
                rw [← hn9.1.1]
                exact hC.pushPkg (a := a) h9 hn9.1.2 hpk (by rw [hn9.1.1]; exact hn9.2)
          · intro _ s5 h5 _ hn5
            exact .pure h5 hn5

theorem runItem_ctx (hC : RCtx env A Why J E) (hR : RGood env A Why J E rec) {it s} (hs : J [] s)
    (hst : Event.started it ∈ s.log) : Ret J E [] (fun _ _ => True) s (runItem env rec it s) := by
  cases it with
  | pp n => exact hR.callPost 0 n s hs hst
  | imp n i => exact processImport_ctx hC hR hs hst
  | nl a b i => exact processNamelist_ctx hC hR hs hst
  | pkg n name =>
    refine .bind (hR.importPackage n name s hs (.inl hst)) ?_
    intro _ s1 h1 _ _
    exact .pure h1 trivial

theorem runStack_ctx (hC : RCtx env A Why J E) (hR : RGood env A Why J E rec) {s} (hs : J [] s) :
    Ret J E [] (fun _ _ => True) s (runStackBody env rec s) := by
  unfold runStackBody
  refine .bind (O1 := []) (Q1 := fun r s' => ∀ it, r = some it → Event.started it ∈ s'.log) ?_ ?_
  · unfold popItem
    rcases List.eq_nil_or_concat s.stack with h | ⟨st, it, h⟩
    · rw [h]
      exact ⟨hs, .refl s, by simp⟩
    · rw [List.concat_eq_append] at h
      rw [h, List.getLast?_concat, List.dropLast_concat]
      exact ⟨hC.pop hs h, ⟨List.prefix_rfl, by simp, rfl, fun _ h => h⟩, by intro i hi; simp at hi; subst hi; simp⟩
  · intro it s1 h1 _ hit
    cases it with
    | none => exact .pure h1 trivial
    | some it =>
      refine .bind (runItem_ctx hC hR h1 (hit it rfl)) ?_
      intro _ s2 h2 _ _
      exact hR.runStack s2 h2

/-- Hook code that uses allowed operations. -/
theorem interp_ctx (hC : RCtx env A Why J E) (hR : RGood env A Why J E rec) {h : Hook W} (hh : h.Only A) {s}
    (hs : J [] s) : RetO J s (interp rec h s) := by
  induction hh generalizing s with
  | ret r => exact ⟨hs, .refl s⟩
  | raise e => exact ⟨hs, .refl s⟩
  | look _ ih =>
    have := ih s (hC.looked hs)
    exact ⟨this.1, (later_event _ _).trans this.2⟩
  | @setWorld w _ _ ih =>
    have := ih (hC.world w hs)
    exact ⟨this.1, (later_world s w).trans this.2⟩
  | @call op k ho _ ih =>
    have h1 := hR.op op s ho hs
    show RetO J s (M.bind (M.attempt (rec.op op)) (fun r => interp rec (k r)) s)
    cases hr : rec.op op s with
    | mk r s1 =>
      rw [hr] at h1
      rcases M.attempt_cases hr with ⟨_, ha⟩ | ha
      · rw [M.bind_of_error ha]
        exact h1
      · rw [M.bind_of_ok ha]
        have := ih r h1.1
        exact ⟨this.1, h1.2.trans this.2⟩

theorem mypyc_ctx (hC : RCtx env A Why J E) (hR : RGood env A Why J E rec) {n s} (hs : J [] s)
    (hst : Event.started (.pp n) ∈ s.log) :
    Ret J E [] (fun _ _ => True) s (mypycHook env rec n s) := by
  unfold mypycHook
  cases hfile : mypycFile n with
  | none => exact .pure hs trivial
  | some file =>
    have hkind : n.isExtension = true ∨ n.isPackage = true := by
      unfold mypycFile at hfile
      cases hk : n.kind with
      | package a b c d e => exact .inr (by simp [Node.isPackage, hk])
      | module mk =>
        rw [hk] at hfile
        cases mk <;> simp at hfile
        exact .inl (by simp [Node.isExtension, hk])
      | _ => rw [hk] at hfile; simp at hfile
    cases hd : n.distribution with
    | none => exact .pure hs trivial
    | some dist =>
      cases file with
      | none => exact .pure hs trivial
      | some file =>
        simp only []
        cases hf : dist.importNames.find? (endsWith c!"__mypyc") with
        | none => exact .pure hs trivial
        | some helper =>
          simp only []
          refine .bind (Q1 := fun b _ => ∃ w, (env.isFile (sourceNextTo file) w).1 = .ok b)
            (.ext hC hs fun _ w hw _ => ⟨w, hw⟩) ?_
          intro b s1 h1 hl1 hb
          split
          · exact .pure h1 trivial
          · rename_i hbt
            have hbt : b = true := by simpa using hbt
            subst hbt
            have hat : MypycAt env n file helper := ⟨hfile, ⟨dist, hd, hf⟩, hb⟩
            refine .bind (O1 := []) (Q1 := fun r s' => ∀ h, r = some h → Is helper h s') ?_ ?_
            · have hh := hC.aAddModule h1 (hl1.ev hst) hat
              have ho := hR.op (.addModule helper) s1 hh h1
              have hm := hR.opModule helper s1
              cases hr : rec.op (.addModule helper) s1 with
              | mk r s2 =>
                rw [hr] at ho
                cases r with
                | error e => exact ⟨hC.toE ho.1, ho.2⟩
                | ok a => exact ⟨ho.1, ho.2, hm a s2 hh h1 hr⟩
            · intro h s2 h2 hl2 hh
              cases h with
              | none => exact .throw hC h2
              | some h =>
                have hi := hh h rfl
                simp only []
                refine .bind (O1 := []) (Q1 := fun _ s' => True) (.addEdge hC h2 (fun hn _ => ?_) trivial) ?_
                · rw [hi.1]
                  exact hC.mypycEdge h2 (hl2.ev (hl1.ev hst)) hat hn hi.has
                · intro _ s3 h3 hl3 _
                  refine .bind (Q1 := fun code _ => ∃ w, (env.readBytes (sourceNextTo file) w).1 = .ok code)
                    (.ext hC h3 fun _ w hw _ => ⟨w, hw⟩) ?_
                  intro code s4 h4 hl4 hcode
                  refine .bind (O1 := []) (Q1 := fun r s' => ∀ x, r = .ok x →
                    ∃ w, (env.compileAst code w).1 = .ok x) ?_ ?_
                  · have hq : RetQ J [] (fun r s' => ∀ x, r = Except.ok x →
                        ∃ w, (env.compileAst code w).1 = .ok x) s4
                        (M.attempt (M.ext (env.compileAst code)) s4) :=
                      RetQ.attempt (RetQ.ext hC h4 fun _ _ _ _ => trivial) (by
                        intro r s' hr x hx
                        subst hx
                        refine ⟨s4.world, ?_⟩
                        have := congrArg Prod.fst hr
                        exact this)
                    exact (hq.toRetM fun _ _ _ h => h).toRet hC
                  · intro r s5 h5 hl5 hr
                    cases r with
                    | error e =>
                      cases e <;> first
                        | exact .pure h5 trivial
                        | exact .throw hC h5
                    | ok imports =>
                      simp only []
                      split
                      · exact .pure h5 trivial
                      · refine .bind (O1 := []) (Q1 := fun _ _ => True)
                          (.modify (hC.mypycSched h5 (hl5.ev (hl4.ev (hl3.ev (hl2.ev (hl1.ev hst)))))
                            hat ⟨code, _, _, hcode.choose_spec, (hr imports rfl).choose_spec⟩ hkind) (later_schedule _ _ _) trivial) ?_
                        intro _ s6 h6 _ _
                        exact hR.runStack s6 h6

theorem callPost_ctx (hC : RCtx env A Why J E) (hP : ∀ k n, (env.userPost k n).Only A)
    (hR : RGood env A Why J E rec) {i n s} (hs : J [] s) (hst : Event.started (.pp n) ∈ s.log) :
    Ret J E [] (fun _ _ => True) s (callPostBody env rec i n s) := by
  unfold callPostBody
  rw [M.bind_of_ok (M.get_apply s)]
  cases s.postHooks[i]? with
  | none => exact .pure hs trivial
  | some h =>
    simp only []
    refine .bind (O1 := []) (Q1 := fun _ _ => True)
      (.modify (hC.called h n.ident hs) (later_event _ _) trivial) ?_
    intro _ s1 h1 hl1 _
    refine .bind (O1 := []) (Q1 := fun _ _ => True) ?_ ?_
    · cases h with
      | mypyc => exact mypyc_ctx hC hR h1 (hl1.ev hst)
      | user k =>
        refine .bind (O1 := []) (Q1 := fun _ _ => True) ?_ ?_
        · have := interp_ctx hC hR (hP k n) h1
          revert this
          cases interp rec (env.userPost k n) s1 with
          | mk r s2 =>
            intro h
            cases r with
            | ok a => exact ⟨h.1, h.2, trivial⟩
            | error e => exact ⟨hC.toE h.1, h.2⟩
        · intro _ s2 h2 _ _
          exact .pure h2 trivial
    · intro _ s2 h2 hl2 _
      exact hR.callPost (i + 1) n s2 h2 (hl2.ev (hl1.ev hst))

theorem addModule_ctx (hC : RCtx env A Why J E) (hR : RGood env A Why J E rec) {o name s}
    (hA : A o) (ha : AsksFor env o name) (ho : o.AsksModules) (hs : J [] s) : Ret J E [] (Is name) s (addModule rec name s) := by
  unfold addModule
  refine .bind (Q1 := fun r s' => ∀ n, r = some n → Is name n s')
    (.findModule hC hs (fun n _ h1 h2 => by intro m hm; simp at hm; subst hm; exact ⟨h2, h1⟩)
      (fun _ => by simp)) ?_
  intro r s1 h1 _ hr
  refine .bind (O1 := []) (Q1 := Is name) ?_ ?_
  · cases r with
    | some n => exact .pure h1 (hr n rfl)
    | none => exact hR.findOrLoad _ _ _ _ _ h1 (.inl rfl) (hC.whyAsked hA ha ho)
  · intro node s2 h2 _ hn
    refine .bind (Q1 := fun _ s' => Is name node s') (.addRoot hC h2 (hn.1 ▸ ⟨o, hA, ha⟩) (hn.later (later_addRoot _ _))) ?_
    intro _ s3 h3 _ hn3
    refine .bind (hR.runStack s3 h3) ?_
    intro _ s4 h4 hl4 _
    exact .pure h4 (hn3.later hl4)

theorem addDistribution_ctx (hC : RCtx env A Why J E) (hR : RGood env A Why J E rec) {d s} (hs : J [] s)
    (hA : A (.addDistribution d) ∨
      ∃ nm, A (.addDistributionNamed nm) ∧ ∃ w, (env.distributionNamed nm w).1 = .ok (some d))
    (ha : RootAsked env A d.identifier) : Ret J E [] (fun _ _ => True) s (addDistribution rec d s) := by
  unfold addDistribution
  rw [M.bind_of_ok (M.findNode_apply s _)]
  cases s.find d.identifier with
  | some n =>
    refine .bind (Q1 := fun _ _ => True) (.assert hC hs fun _ => trivial) ?_
    intro _ s1 h1 _ _
    exact .pure h1 trivial
  | none =>
    simp only []
    refine .bind (O1 := [.dist d d.importNames]) (Q1 := fun _ s' => Has s' d.identifier)
      (.addNode hC hs (fun hh => hC.addDist d hs hh hA) ⟨distNode d, by simp [St.addNode], rfl⟩) ?_
    intro _ s1 h1 _ hd1
    refine .bind (Q1 := fun _ s' => Has s' d.identifier ∧ d.identifier ∈ s'.roots)
      (.addRoot hC h1 ha ⟨(later_addRoot _ _).has hd1, by unfold St.addRoot; split <;> simp_all⟩) ?_
    intro _ s2 h2 _ ⟨hd2, hr2⟩
    have loop : ∀ (rest : List Str) (s2 : St W), J [.dist d rest] s2 → Has s2 d.identifier →
        Ret J E [.dist d []] (fun _ _ => True) s2 (M.forEach rest (fun name =>
          M.bind (rec.findOrLoad none name true) fun node =>
          M.addEdge d.identifier node.ident defaultDep) s2) := by
      intro rest
      induction rest with
      | nil => intro s2 h2 _; exact .pure h2 trivial
      | cons r rest ih =>
        intro s2 h2 hd2
        refine .bind (O1 := [.dist d rest]) (Q1 := fun _ s' => Has s' d.identifier) ?_ ?_
        · refine .bind (hR.findOrLoad _ _ _ _ _ h2 (.inl rfl) (hC.whyDist h2)) ?_
          intro node s3 h3 hl3 hn
          refine .addEdge hC h3 (fun _ _ => ?_) ((later_addEdge _ _ _ _).has (hl3.has hd2))
          rw [hn.1]
          exact hC.distEdge h3 (hl3.has hd2) hn.has
        · intro _ s3 h3 _ hd3
          exact ih s3 h3 hd3
    refine .bind (loop d.importNames s2 h2 hd2) ?_
    intro _ s3 h3 hl3 _
    refine .bind (hR.runStack s3 (hC.doneDist h3 (hl3.roots hr2))) ?_
    intro _ s4 h4 _ _
    exact .pure h4 trivial

theorem api_ctx (hC : RCtx env A Why J E) (hR : RGood env A Why J E rec) {o s} (hA : A o) (hs : J [] s) :
    Ret J E [] (fun _ _ => True) s (apiBody env rec o s) := by
  have pure_ : ∀ {α : Type} {Q : α → St W → Prop} {m : M W α} {f : α → Option Node},
      Ret J E [] Q s (m s) → Ret J E [] (fun _ _ => True) s (M.bind m (fun a => M.pure (f a)) s) := by
    intro α Q m f h
    refine .bind h ?_
    intro _ s1 h1 _ _
    exact .pure h1 trivial
  cases o with
  | addScript path =>
    refine pure_ (Q := fun _ _ => True) ?_
    unfold addScript
    refine .bind (Q1 := fun r s' => True) (.findModule hC hs (fun _ _ _ _ => trivial) fun _ => trivial) ?_
    intro r s1 h1 _ _
    cases r with
    | some n => exact .throw hC h1
    | none =>
      simp only []
      refine .bind (Q1 := fun pr s' => ∃ w, (env.loadScript path w).1 = .ok pr)
        (.ext hC h1 fun a w ha w' => ⟨w, ha⟩) ?_
      intro pr s2 h2 _ hpr
      refine .addSched hC h2 (fun hh => hC.script h2 hA hh hpr) ?_
      intro s3 h3 _ _ _
      refine .bind (Q1 := fun _ _ => True) (.addRoot hC h3 ⟨_, hA, .script path⟩ trivial) ?_
      intro _ s4 h4 _ _
      refine .bind (hR.runStack s4 h4) ?_
      intro _ s5 h5 _ _
      exact .pure h5 trivial
  | addModule name => exact pure_ (addModule_ctx hC hR hA (.module name) trivial hs)
  | addDependenciesForSource src =>
    refine pure_ (Q := fun _ _ => True) ?_
    unfold addDependenciesForSource
    refine .bind (Q1 := fun infos _ => ∃ w, (env.parseSource src w).1 = .ok infos)
      (.ext hC hs fun _ w hw _ => ⟨w, hw⟩) ?_
    intro infos s1 h1 _ ⟨w, hw⟩
    refine .forEach (P := fun _ => True) (fun _ _ _ _ => trivial) ?_ h1 trivial fun _ _ => trivial
    intro info hi s2 h2 _
    refine .bind (addModule_ctx hC hR hA (.source hw hi) trivial h2) ?_
    intro _ s3 h3 _ _
    refine .forEach (P := fun _ => True) (fun _ _ _ _ => trivial) ?_ h3 trivial fun _ _ => trivial
    intro nm hn s4 h4 _
    refine .bind (addModule_ctx hC hR hA (.sourceName hw hi hn) trivial h4) ?_
    intro _ s5 h5 _ _
    exact .pure h5 trivial
  | addDistribution d => exact pure_ (addDistribution_ctx hC hR hs (.inl hA) ⟨_, hA, .dist d⟩)
  | addDistributionNamed nm =>
    refine pure_ (Q := fun _ _ => True) ?_
    unfold addDistributionNamed
    refine .bind (Q1 := fun r _ => ∃ w, (env.distributionNamed nm w).1 = .ok r)
      (.ext hC hs fun _ w hw _ => ⟨w, hw⟩) ?_
    intro r s1 h1 _ ⟨w, hw⟩
    cases r with
    | none => exact .throw hC h1
    | some d => exact addDistribution_ctx hC hR h1 (.inr ⟨nm, hA, w, hw⟩) ⟨_, hA, .distNamed hw⟩
  | importModule i name =>
    refine pure_ (Q := fun _ _ => True) ?_
    unfold importModule
    refine .bind (Q1 := fun r s' => ∀ n, r = some n → Is name n s')
      (.findModule hC hs (fun n _ h1 h2 => by intro m hm; simp at hm; subst hm; exact ⟨h2, h1⟩)
        (fun _ => by simp)) ?_
    intro r s1 h1 _ hr
    refine .bind (O1 := []) (Q1 := Is name) ?_ ?_
    · cases r with
      | some n => exact .pure h1 (hr n rfl)
      | none => exact hR.findOrLoad _ _ _ _ _ h1 (.inl rfl) (hC.whyModule hA)
    · intro node s2 h2 _ hn
      refine .bind (O1 := []) (Q1 := fun _ _ => True) (.addEdge hC h2 (fun hi _ => ?_) trivial) ?_
      · rw [hn.1]
        exact hC.importModule h2 hA hi hn.has
      · intro _ s3 h3 _ _
        exact .pure h3 trivial
  | importPackage i name => exact pure_ (hR.importPackage i name s hs (.inr hA))
  | runStack => exact pure_ (f := fun _ => none) (hR.runStack s hs)
  | addMissingHook h =>
    exact pure_ (f := fun _ => none) (Q := fun _ _ => True)
      (.modify (hC.missHook h hA hs) ⟨List.prefix_rfl, List.prefix_rfl, rfl, fun _ h => h⟩ trivial)
  | addPostHook h =>
    exact pure_ (f := fun _ => none) (Q := fun _ _ => True)
      (.modify (hC.postHook h hA hs) ⟨List.prefix_rfl, List.prefix_rfl, rfl, fun _ h => h⟩ trivial)
  | addExcludes names =>
    refine pure_ (f := fun _ => none) (Q := fun _ _ => True) (.modify (hC.exclude names hA hs) ?_ trivial)
    exact foldl_pres (P := Later s) (f := addExclude)
      (fun s' a h => h.trans ⟨List.prefix_rfl, List.prefix_rfl, rfl, fun _ h => h⟩) names s (.refl s)
  | addExcludesStr name => exact .throw hC hs
  | addImplies l =>
    refine pure_ (f := fun _ => none) (Q := fun _ _ => True) (.modify (hC.imply l hA hs) ?_ trivial)
    refine foldl_pres (P := Later s) (fun s' a h => ?_) l s (.refl s)
    unfold addImply
    split
    · exact h
    · exact h.trans ⟨List.prefix_rfl, List.prefix_rfl, rfl, fun _ h => h⟩
  | addNode n =>
    exact pure_ (f := fun _ => none) (Q := fun _ _ => True)
      (.addNode hC hs (fun hh => hC.apiAddNode n hA hs hh) trivial)
  | addEdge a b d =>
    exact pure_ (f := fun _ => none) (Q := fun _ _ => True)
      (.addEdge hC hs (fun ha hb => hC.apiAddEdge a b d hA hs ha hb) trivial)
  | addRoot id =>
    exact pure_ (f := fun _ => none) (Q := fun _ _ => True) (.addRoot hC hs ⟨_, hA, .root id⟩ trivial)
  | processImportList n infos =>
    exact pure_ (f := fun _ => none) (Q := fun _ _ => True)
      (.modify (hC.apiSchedule n infos hA hs) (later_schedule _ _ _) trivial)

/-- The contextual closure theorem. -/
theorem calls_rctx (hC : RCtx env A Why J E) (hP : ∀ k n, (env.userPost k n).Only A)
    (hM : ∀ k i n, (env.userMissing k i n).Passive) (n : Nat) : RGood env A Why J E (calls env n) := by
  induction n with
  | zero =>
    have thr : ∀ {α : Type} {O O'} {Q : α → St W → Prop} {s}, J O s →
        Ret J E O' Q s (M.throw Exc.fuel s) := fun h => .throw hC h
    exact {
      findOrLoad := fun _ _ _ _ _ h _ _ => thr h
      implied := fun _ _ _ _ _ _ h _ => thr h
      loadModule := fun _ _ _ _ _ _ h _ _ => thr h
      createMissing := fun _ _ _ _ _ _ h _ => .throw h
      callMissing := fun _ _ _ _ _ _ _ h _ => .throw h
      importPackage := fun _ _ _ h _ => thr h
      runStack := fun _ h => thr h
      callPost := fun _ _ _ h _ => thr h
      op := fun _ s _ h => ⟨h, .refl s⟩
      opModule := fun _ _ _ _ _ _ h => by simp [calls, callsZero, M.throw] at h }
  | succ n ih =>
    exact {
      findOrLoad := fun _ _ _ _ _ h ht hw => findOrLoad_ctx hC ih h ht hw
      implied := fun _ _ _ _ _ _ h hf => implied_ctx hC ih h hf
      loadModule := fun _ _ _ _ _ _ h hl hf => loadModule_ctx hC ih h hl hf
      createMissing := fun _ _ _ _ _ _ h hm => createMissing_ctx hC ih h hm
      callMissing := fun _ _ _ _ _ _ _ h hm => callMissing_ctx hC hM ih h hm
      importPackage := fun _ _ _ h hst => importPackage_ctx hC ih h hst
      runStack := fun _ h => runStack_ctx hC ih h
      callPost := fun _ _ _ h hst => callPost_ctx hC hP ih h hst
      op := by
        intro o s hA hs
        have := api_ctx hC ih hA hs
        show RetO J s (opBody env (calls env n) o s)
        unfold opBody
        revert this
        cases apiBody env (calls env n) o s with
        | mk r s' =>
          intro h
          cases r with
          | ok a => exact ⟨h.1, h.2.1⟩
          | error e => exact ⟨hC.failed h.1, h.2.trans (later_event _ _)⟩
      opModule := by
        intro name s r s' hA hs h m hm
        have h' : opBody env (calls env n) (.addModule name) s = (.ok r, s') := h
        have ha : apiBody env (calls env n) (.addModule name) s = (.ok r, s') := by
          unfold opBody at h'
          split at h' <;> simp_all
        obtain ⟨x, s1, h1, h2⟩ := M.bind_ok ha
        obtain ⟨hx, rfl⟩ := M.pure_ok h2
        subst hm
        simp at hx
        subst hx
        have := addModule_ctx hC ih (name := name) hA (.module name) trivial hs
        rw [h1] at this
        exact this.2.2 }

/-- The invariant after a client program. -/
theorem client_rctx (hC : RCtx env A Why J E) (hP : ∀ k n, (env.userPost k n).Only A)
    (hM : ∀ k i n, (env.userMissing k i n).Passive) (n : Nat) {p : Hook W} (hp : p.Only A) (s : St W)
    (hs : J [] s) : J [] (runClient env n p s).2 :=
  (interp_ctx hC (calls_rctx hC hP hM n) hp hs).1

/-- What remains of `RGood` without reasons. -/
structure CGood (env : Env W) (A : ApiOp → Prop) (J : List Obl → St W → Prop) (E : St W → Prop)
    (rec : Calls W) : Prop where
  findOrLoad : ∀ imp name lm O s, J O s → (lm = true ∨ Tried s.nodes s.log name) →
    Ret J E O (Is name) s (rec.findOrLoad imp name lm s)
  importPackage : ∀ a name s, J [] s →
    (Event.started (.pkg a name) ∈ s.log ∨ A (.importPackage a name)) →
    Ret J E [] (Is name) s (rec.importPackage a name s)
  runStack : ∀ s, J [] s → Ret J E [] (fun _ _ => True) s (rec.runStack s)
  callPost : ∀ i n s, J [] s → Event.started (.pp n) ∈ s.log →
    Ret J E [] (fun _ _ => True) s (rec.callPost i n s)
  op : ∀ o s, A o → J [] s → RetO J s (rec.op o s)
  opModule : ∀ name s r s', A (.addModule name) → J [] s → rec.op (.addModule name) s = (.ok r, s') →
    ∀ n, r = some n → Is name n s'

/-- The contextual closure theorem, without reasons. -/
theorem calls_ctx (hC : Ctx env A J E) (hP : ∀ k n, (env.userPost k n).Only A)
    (hM : ∀ k i n, (env.userMissing k i n).Passive) (n : Nat) : CGood env A J E (calls env n) :=
  have h := calls_rctx hC.rich hP hM n
  ⟨fun _ _ _ _ _ h1 h2 => h.findOrLoad _ _ _ _ _ h1 h2 trivial, h.importPackage, h.runStack,
    h.callPost, h.op, h.opModule⟩

theorem client_ctx (hC : Ctx env A J E) (hP : ∀ k n, (env.userPost k n).Only A)
    (hM : ∀ k i n, (env.userMissing k i n).Passive) (n : Nat) {p : Hook W} (hp : p.Only A) (s : St W)
    (hs : J [] s) : J [] (runClient env n p s).2 :=
  client_rctx hC.rich hP hM n hp s hs

end
end Verif
