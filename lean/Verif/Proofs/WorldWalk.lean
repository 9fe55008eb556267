import Verif.Proofs.Exec
import Verif.Spec.SysSpec
/-!
# Relations between the outside world before and after

A reflexive and transitive relation between worlds that each use of the outside world respects holds
between the world before and after every method and every client program.
-/
namespace Verif
variable {W : Type} {α β : Type}

/-- What the walk needs of a relation between worlds. -/
structure WRel (env : Env W) (R : W → W → Prop) : Prop where
  refl : ∀ w, R w w
  trans : ∀ {a b c}, R a b → R b c → R a c
  resolve : ∀ name w, R w (resolveSpec env name w).2
  findSpec : ∀ name w, R w (env.findSpec name w).2
  findSpecRel : ∀ name pkg w, R w (env.findSpecRel name pkg w).2
  isPackage : ∀ sp w, R w (env.isPackage sp w).2
  nodeForSpec : ∀ sp w, R w (env.nodeForSpec sp w).2
  loadScript : ∀ p w, R w (env.loadScript p w).2
  parseSource : ∀ p w, R w (env.parseSource p w).2
  distributionNamed : ∀ p w, R w (env.distributionNamed p w).2
  globPy : ∀ p w, R w (env.globPy p w).2
  subdirs : ∀ p w, R w (env.subdirs p w).2
  isFile : ∀ p w, R w (env.isFile p w).2
  readBytes : ∀ p w, R w (env.readBytes p w).2
  compileAst : ∀ p w, R w (env.compileAst p w).2
  fake : ∀ parent dir spec w, env.inSysModules parent w = false →
    (env.findSpec parent w).1 = .ok (some spec) →
    (env.isPackage spec (env.findSpec parent w).2).1 = .ok true →
    R w (env.setFake parent dir (env.isPackage spec (env.findSpec parent w).2).2)
  swig : ∀ missing pkg dir spec w e, (env.findSpecRel missing pkg w).1 = .error e →
    e.isImportError = true → (env.findSpec pkg (env.findSpecRel missing pkg w).2).1 = .ok (some spec) →
    R w (env.findSpecRel missing pkg
      (env.setFake pkg dir (env.findSpec pkg (env.findSpecRel missing pkg w).2).2)).2 ∧
    R w (env.delModule pkg (env.findSpecRel missing pkg
      (env.setFake pkg dir (env.findSpec pkg (env.findSpecRel missing pkg w).2).2)).2).2

/-- `m` moves the world along `R`. -/
def WS (R : W → W → Prop) (m : M W α) : Prop := ∀ s, R s.world (m s).2.world

structure WCalls (R : W → W → Prop) (rec : Calls W) : Prop where
  findOrLoad : ∀ i n b, WS R (rec.findOrLoad i n b)
  implied : ∀ i n, WS R (rec.implied i n)
  loadModule : ∀ i n, WS R (rec.loadModule i n)
  createMissing : ∀ i n, WS R (rec.createMissing i n)
  importPackage : ∀ i n, WS R (rec.importPackage i n)
  runStack : WS R rec.runStack
  callPost : ∀ k n, WS R (rec.callPost k n)
  callMissing : ∀ k i n, WS R (rec.callMissing k i n)
  op : ∀ o, WS R (rec.op o)

section
variable {R : W → W → Prop} {env : Env W} (hR : WRel env R)
include hR

theorem WS.pure (a : α) : WS R (M.pure a : M W α) := fun s => hR.refl s.world
theorem WS.throw (e) : WS R (M.throw e : M W α) := fun s => hR.refl s.world
theorem WS.get : WS R (M.get : M W (St W)) := fun s => hR.refl s.world
theorem WS.ofExcept (r : Except Exc α) : WS R (M.ofExcept r : M W α) := fun s => hR.refl s.world
theorem WS.findNode (n) : WS R (M.findNode n : M W _) := fun s => hR.refl s.world
theorem WS.findModule (n) : WS R (M.findModule n : M W _) := fun s => by
  unfold M.findModule
  cases s.find n with
  | none => exact hR.refl _
  | some x => dsimp only; split <;> exact hR.refl _
theorem WS.addNode (n) : WS R (M.addNode n : M W _) := fun s => by
  unfold M.addNode; split <;> exact hR.refl _
theorem WS.addEdge (a b d) : WS R (M.addEdge a b d : M W _) := fun s => by
  unfold M.addEdge; split
  · simp only [addEdge_world]; exact hR.refl _
  · exact hR.refl _
theorem WS.addRoot (a) : WS R (M.addRoot a : M W _) := fun s => by
  unfold M.addRoot; split
  · unfold St.addRoot; split <;> exact hR.refl _
  · exact hR.refl _
theorem WS.schedule (n i) : WS R (M.schedule n i : M W _) := fun s => by
  change R s.world (s.schedule n i).world
  rw [schedule_world]; exact hR.refl _
theorem WS.assert (b) : WS R (M.assert b : M W _) := by
  unfold M.assert; split
  · exact .pure hR _
  · exact .throw hR _
theorem WS.modify {f : St W → St W} (h : ∀ s, (f s).world = s.world) : WS R (M.modify f) := fun s => by
  unfold M.modify; simp only [h]; exact hR.refl _
theorem WS.bind {m : M W α} {f : α → M W β} (h : WS R m) (h' : ∀ a, WS R (f a)) :
    WS R (M.bind m f) := by
  intro s
  unfold M.bind
  have := h s
  cases hm : m s with
  | mk r s1 =>
    rw [hm] at this
    cases r with
    | ok a => exact hR.trans this (h' a s1)
    | error e => exact this
omit hR in
theorem WS.attempt {m : M W α} (h : WS R m) : WS R (M.attempt m) := by
  intro s
  have := h s
  unfold M.attempt
  cases hm : m s with
  | mk r s1 =>
    rw [hm] at this
    cases r with
    | ok a => exact this
    | error e => cases e <;> exact this
omit hR in
theorem WS.savedStack {m : M W α} (h : WS R m) : WS R (M.savedStack m) := by
  intro s
  exact h { s with stack := [], hidden := s.hidden ++ s.stack }
theorem WS.forEach {l : List α} {f : α → M W Unit} (h : ∀ a, WS R (f a)) : WS R (M.forEach l f) := by
  induction l with
  | nil => exact .pure hR ()
  | cons x xs ih => exact .bind hR (h x) fun _ => ih
omit hR in
theorem WS.ext {x : Ext W α} (h : ∀ w, R w (x w).2) : WS R (M.ext x) := fun s => h s.world

/-- The steps that only look at the state or change the graph. -/
macro "ws" hR:ident : tactic => `(tactic| repeat' first
  | with_reducible exact WS.pure $hR _ | with_reducible exact WS.throw $hR _ | with_reducible exact WS.get $hR | with_reducible exact WS.ofExcept $hR _
  | with_reducible exact WS.findNode $hR _ | with_reducible exact WS.findModule $hR _ | with_reducible exact WS.addNode $hR _
  | with_reducible exact WS.addEdge $hR _ _ _ | with_reducible exact WS.addRoot $hR _ | with_reducible exact WS.schedule $hR _ _
  | with_reducible exact WS.assert $hR _ | ((with_reducible refine WS.modify $hR ?_); intro _; rfl)
  | with_reducible exact WS.ext (($hR).findSpec _) | with_reducible exact WS.ext (($hR).findSpecRel _ _)
  | with_reducible exact WS.ext (($hR).isPackage _) | with_reducible exact WS.ext (($hR).nodeForSpec _)
  | with_reducible exact WS.ext (($hR).loadScript _) | with_reducible exact WS.ext (($hR).parseSource _)
  | with_reducible exact WS.ext (($hR).distributionNamed _) | with_reducible exact WS.ext (($hR).globPy _)
  | with_reducible exact WS.ext (($hR).subdirs _) | with_reducible exact WS.ext (($hR).isFile _)
  | with_reducible exact WS.ext (($hR).readBytes _) | with_reducible exact WS.ext (($hR).compileAst _)
  | with_reducible exact WS.ext (($hR).resolve _)
  | with_reducible refine WS.forEach $hR (fun _ => ?_) | with_reducible refine WS.attempt ?_ | with_reducible refine WS.savedStack ?_
  | with_reducible refine WS.bind $hR ?_ (fun _ => ?_) | (dsimp only; done) | split | dsimp only)

theorem WS.swigHook (i n) : WS R (swigHook env i n) := by
  unfold Verif.swigHook
  split
  · exact .pure hR _
  · split
    · exact .pure hR _
    · split
      · exact .pure hR _
      · refine .bind hR (.get hR) fun s => ?_
        split
        · exact .pure hR _
        · rename_i imp _ _ _
          dsimp only
          generalize (if imp.isPackage = true then imp.ident else _) = pkg
          rw [← M.bind_assoc]
          refine .bind hR ?_ fun sp => ?_
          · intro s0
            cases hf : env.findSpecRel n pkg s0.world with
            | mk r w1 =>
              have h0 := hR.findSpecRel n pkg s0.world
              rw [hf] at h0
              have he : M.ext (env.findSpecRel n pkg) s0 = (r, { s0 with world := w1 }) := by
                unfold M.ext; rw [hf]
              cases r with
              | ok sp =>
                rw [M.bind_of_ok (a := .ok sp) (s' := { s0 with world := w1 })
                  (by unfold M.attempt; rw [he])]
                exact h0
              | error e =>
                by_cases hx : e = .fuel
                · subst hx
                  rw [M.bind_of_error (e := .fuel) (s' := { s0 with world := w1 })
                    (by unfold M.attempt; rw [he])]
                  exact h0
                · rw [M.bind_of_ok (a := .error e) (s' := { s0 with world := w1 })
                    (by unfold M.attempt; rw [he]; cases e <;> first | rfl | exact absurd rfl hx)]
                  dsimp only
                  by_cases hie : e.isImportError = true
                  · rw [if_pos hie]
                    have h1 := hR.findSpec pkg w1
                    have hsw := fun dir spec => hR.swig n pkg dir spec s0.world e (by rw [hf]) hie
                    rw [hf] at hsw
                    dsimp only at hsw
                    cases hg : env.findSpec pkg w1 with
                    | mk r2 w2 =>
                      rw [hg] at h1 hsw
                      dsimp only at h1 hsw
                      have he2 : M.ext (env.findSpec pkg) { s0 with world := w1 } =
                          (r2, { s0 with world := w2 }) := by
                        unfold M.ext; simp only [hg]
                      cases r2 with
                      | error e2 =>
                        rw [M.bind_of_error he2]
                        exact hR.trans h0 h1
                      | ok o =>
                        rw [M.bind_of_ok he2]
                        cases o with
                        | none => exact hR.trans h0 h1
                        | some sp =>
                          dsimp only
                          cases ho : sp.origin with
                          | none => exact hR.trans h0 h1
                          | some origin =>
                            dsimp only
                            rw [M.bind_modify]
                            have hs := hsw (rpartition '/' origin).1 sp rfl
                            dsimp only
                            cases hk : env.findSpecRel n pkg
                                (env.setFake pkg (rpartition '/' origin).1 w2) with
                            | mk r3 w3 =>
                              rw [hk] at hs
                              dsimp only at hs
                              have he3 : M.ext (env.findSpecRel n pkg)
                                  { s0 with world := env.setFake pkg (rpartition '/' origin).1 w2 } =
                                  (r3, { s0 with world := w3 }) := by
                                unfold M.ext; simp only [hk]
                              cases r3 with
                              | error e3 => rw [M.bind_of_error he3]; exact hs.1
                              | ok sp3 =>
                                rw [M.bind_of_ok he3]
                                cases hl : env.delModule pkg w3 with
                                | mk r4 w4 =>
                                  rw [hl] at hs
                                  have he4 : M.ext (env.delModule pkg) { s0 with world := w3 } =
                                      (r4, { s0 with world := w4 }) := by
                                    unfold M.ext; simp only [hl]
                                  cases r4 with
                                  | error e4 => rw [M.bind_of_error he4]; exact hs.2
                                  | ok u => rw [M.bind_of_ok he4]; exact hs.2
                  · rw [if_neg hie]
                    exact h0
          · ws hR

theorem WS.interp {rec : Calls W} (hC : WCalls R rec) {p : Hook W} (hp : p.Calm) :
    WS R (interp rec p) := by
  induction hp with
  | ret r => exact .pure hR r
  | raise e => exact .throw hR e
  | look _ ih => exact fun s => ih s (s.event _)
  | call _ ih => exact .bind hR (.attempt (hC.op _)) fun r => ih r

theorem WS.loadFallback {rec : Calls W} (hC : WCalls R rec) (i n e) :
    WS R (loadFallback env rec i n e) := by
  unfold Verif.loadFallback
  split
  · dsimp only
    intro s
    rw [M.bind_get]
    by_cases hin : env.inSysModules (rpartition '.' n).1 s.world = true
    · rw [if_pos hin]; exact hR.refl _
    · rw [if_neg hin]
      have hin : env.inSysModules (rpartition '.' n).1 s.world = false := by simpa using hin
      generalize (rpartition '.' n).1 = parent at hin ⊢
      have h0 := hR.findSpec parent s.world
      have hfk := fun dir spec => hR.fake parent dir spec s.world hin
      cases hf : env.findSpec parent s.world with
      | mk r w1 =>
        rw [hf] at h0 hfk
        dsimp only at h0 hfk
        have he : M.ext (env.findSpec parent) s = (r, { s with world := w1 }) := by
          unfold M.ext; rw [hf]
        cases r with
        | error e => rw [M.bind_of_error he]; exact h0
        | ok o =>
          rw [M.bind_of_ok he]
          cases o with
          | none => exact h0
          | some spec =>
            dsimp only
            rw [M.bind_get]
            dsimp only
            by_cases hl : (!env.isInspectLoader spec.loader w1) = true
            · rw [if_pos hl]; exact h0
            · rw [if_neg hl]
              have h1 := hR.isPackage spec w1
              have hk := fun dir => hfk dir spec rfl
              cases hp : env.isPackage spec w1 with
              | mk r2 w2 =>
                rw [hp] at h1 hk
                dsimp only at h1 hk
                have he2 : M.ext (env.isPackage spec) { s with world := w1 } =
                    (r2, { s with world := w2 }) := by
                  unfold M.ext; simp only [hp]
                have h2 := hR.trans h0 h1
                cases r2 with
                | error e => rw [M.bind_of_error he2]; exact h2
                | ok b =>
                  rw [M.bind_of_ok he2]
                  cases b with
                  | false => exact hR.trans h2 (hC.createMissing i n { s with world := w2 })
                  | true =>
                    rw [if_pos rfl]
                    cases ho : spec.origin with
                    | none => exact h2
                    | some path =>
                      dsimp only
                      split
                      · exact h2
                      · rw [M.bind_modify]
                        exact hR.trans (hk (dirname path) rfl)
                          (hC.loadModule i n { s with world := env.setFake parent (dirname path) w2 })
  · exact hC.createMissing i n

theorem callsStep_ws {rec : Calls W} (hC : WCalls R rec) (hU : ∀ k n, (env.userPost k n).Calm)
    (hM : ∀ k i n, (env.userMissing k i n).Calm) : WCalls R (callsStep env rec) := by
  have hAM : ∀ n, WS R (addModule rec n) := by
    intro n; unfold addModule; ws hR <;> first | exact hC.findOrLoad _ _ _ | exact hC.runStack
  have hAD : ∀ d, WS R (addDistribution rec d) := by
    intro n; unfold addDistribution; ws hR <;> first | exact hC.findOrLoad _ _ _ | exact hC.runStack
  have hAL : ∀ n sp, WS R (addLoaded env rec n sp) := by
    intro n sp; unfold addLoaded; ws hR <;> exact hC.findOrLoad _ _ _
  have hPN : ∀ a b i nm, WS R (processName env rec a b i nm) := by
    intro a b i nm; unfold processName; ws hR <;> exact hC.findOrLoad _ _ _
  have hPI : ∀ n i, WS R (processImport rec n i) := by
    intro n i; unfold processImport; ws hR <;> exact hC.findOrLoad _ _ _
  have hPNs : ∀ a b i, WS R (processNames env rec a b i) := by
    intro a b i; unfold processNames; ws hR <;> first | exact hPN _ _ _ _
  have hPNl : ∀ a b i, WS R (processNamelist env rec a b i) := by
    intro a b i; unfold processNamelist; ws hR <;> first | exact hPNs _ _ _
  have hMy : ∀ n, WS R (mypycHook env rec n) := by
    intro n; unfold mypycHook; ws hR <;> first | exact hC.op _ | exact hC.runStack
  have hfold : ∀ {δ : Type} (f : St W → δ → St W), (∀ s a, (f s a).world = s.world) →
      ∀ (l : List δ) s, (l.foldl f s).world = s.world := by
    intro δ f hf l
    induction l with
    | nil => intro s; rfl
    | cons a l ih => intro s; rw [List.foldl_cons, ih, hf]
  refine {
    findOrLoad := fun i n b => ?_
    implied := fun i n => ?_
    loadModule := fun i n => ?_
    createMissing := fun i n => ?_
    importPackage := fun i n => ?_
    runStack := ?_
    callPost := fun k n => ?_
    callMissing := fun k i n => ?_
    op := fun o => ?_ }
  · change WS R (findOrLoadBody rec i n b)
    unfold findOrLoadBody
    ws hR <;> first | exact hC.findOrLoad _ _ _ | exact hC.createMissing _ _ | exact hC.implied _ _ | exact hC.loadModule _ _
  · change WS R (impliedBody rec i n)
    unfold impliedBody
    ws hR <;> first | exact hC.findOrLoad _ _ _
  · change WS R (loadModuleBody env rec i n)
    unfold loadModuleBody
    ws hR <;> first | exact hC.createMissing _ _ | exact hAL _ _ | exact .loadFallback hR hC _ _ _
  · change WS R (createMissingBody rec i n)
    unfold createMissingBody
    ws hR <;> first | exact hC.callMissing _ _ _
  · change WS R (importPackageBody env rec i n)
    unfold importPackageBody
    ws hR <;> first | exact hC.findOrLoad _ _ _ | exact hC.runStack
  · change WS R (runStackBody env rec)
    unfold runStackBody
    refine .bind hR (fun s => ?_) fun it => ?_
    · unfold popItem
      split <;> exact hR.refl _
    · cases it with
      | none => exact .pure hR ()
      | some it =>
        refine .bind hR ?_ fun _ => hC.runStack
        cases it with
        | pp n => exact hC.callPost 0 n
        | imp n info => exact hPI n info
        | nl a b info => exact hPNl a b info
        | pkg n name => exact .bind hR (hC.importPackage n name) fun _ => .pure hR ()
  · change WS R (callPostBody env rec k n)
    unfold callPostBody
    ws hR <;> first | exact hMy _ | exact .interp hR hC (hU _ _) | exact hC.callPost _ _
  · change WS R (callMissingBody env rec k i n)
    unfold callMissingBody
    ws hR <;> first | exact .swigHook hR _ _ | exact .interp hR hC (hM _ _ _) | exact hC.callMissing _ _ _
  · change WS R (opBody env rec o)
    have : WS R (apiBody env rec o) := by
      unfold apiBody
      split
      · unfold addScript; ws hR <;> first | exact hC.runStack
      · exact .bind hR (hAM _) fun _ => .pure hR _
      · unfold addDependenciesForSource; ws hR <;> exact hAM _
      · exact .bind hR (hAD _) fun _ => .pure hR _
      · unfold addDistributionNamed; ws hR <;> exact hAD _
      · unfold importModule; ws hR <;> exact hC.findOrLoad _ _ _
      · exact .bind hR (hC.importPackage _ _) fun _ => .pure hR _
      · exact .bind hR hC.runStack fun _ => .pure hR _
      · ws hR
      · ws hR
      · exact .bind hR (.modify hR fun s => hfold addExclude (fun _ _ => rfl) _ s) fun _ => .pure hR _
      · ws hR
      · refine .bind hR (.modify hR fun s => hfold addImply (fun s a => ?_) _ s) fun _ => .pure hR _
        unfold addImply; split <;> rfl
      · ws hR
      · ws hR
      · ws hR
      · ws hR
    intro s
    have h := this s
    unfold opBody
    cases ha : apiBody env rec o s with
    | mk r s1 =>
      rw [ha] at h
      cases r <;> exact h

theorem calls_ws (hU : ∀ k n, (env.userPost k n).Calm) (hM : ∀ k i n, (env.userMissing k i n).Calm)
    (n : Nat) : WCalls R (calls env n) := by
  induction n with
  | zero => exact ⟨fun _ _ _ => .throw hR _, fun _ _ => .throw hR _, fun _ _ => .throw hR _,
      fun _ _ => .throw hR _, fun _ _ => .throw hR _, .throw hR _, fun _ _ => .throw hR _,
      fun _ _ _ => .throw hR _, fun _ => .throw hR _⟩
  | succ n ih => exact callsStep_ws hR ih hU hM

end
end Verif
