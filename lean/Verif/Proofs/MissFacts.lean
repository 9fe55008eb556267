import Verif.Proofs.Results
/-! # Missing modules are created after all missing hooks were asked -/
namespace Verif
open M Spec
variable {W : Type}

structure AskCore (H : List MissHook) (N : Node → Prop) (s : St W) : Prop where
  hooks : ∀ h ∈ H, h ∈ s.missHooks
  asked : ∀ x ∈ s.nodes, x.isMissing = true → N x ∨ ∀ h ∈ H, ∃ i, Event.asked h x.ident i ∈ s.log

variable {H : List MissHook} {N : Node → Prop} {s s' : St W}

theorem AskCore.step (c : AskCore H N s) (hh : ∀ h ∈ s.missHooks, h ∈ s'.missHooks)
    (hl : ∀ e ∈ s.log, e ∈ s'.log) (hn : ∀ x ∈ s'.nodes, x ∈ s.nodes ∨ x.isMissing = false ∨ N x) :
    AskCore H N s' := by
  refine ⟨fun h hm => hh h (c.hooks h hm), ?_⟩
  intro x hx hm
  rcases hn x hx with h | h
  · rcases c.asked x h hm with h | h
    · exact .inl h
    · exact .inr fun k hk => (h k hk).imp fun _ => hl _
  · rcases h with h | h
    · rw [h] at hm; cases hm
    · exact .inl h

theorem AskCore.same (c : AskCore H N s) (hh : s'.missHooks = s.missHooks) (hl : s'.log = s.log)
    (hn : s'.nodes = s.nodes) : AskCore H N s' :=
  c.step (by rw [hh]; exact fun _ h => h) (by rw [hl]; exact fun _ h => h)
    (by rw [hn]; exact fun _ h => .inl h)

theorem AskCore.event (c : AskCore H N s) (e) : AskCore H N (s.event e) :=
  c.step (fun _ h => h) (fun _ h => List.mem_append_left _ h) (fun _ h => .inl h)

theorem AskCore.addEdge (c : AskCore H N s) (a b d) : AskCore H N (s.addEdge a b d) := by
  unfold St.addEdge; split
  · exact c
  · exact c.same rfl rfl rfl

theorem AskCore.addNode (c : AskCore H N s) {n : Node} (h : n.isMissing = false ∨ N n) :
    AskCore H N (s.addNode n) :=
  c.step (fun _ h => h) (fun _ h => h) (by
    intro x hx
    simp only [St.addNode, List.mem_append, List.mem_singleton] at hx
    rcases hx with hx | rfl
    · exact .inl hx
    · exact .inr h)

theorem AskCore.schedule (c : AskCore H N s) (n infos) : AskCore H N (s.schedule n infos) :=
  c.step (by rw [schedule_missHooks]; exact fun _ h => h)
    (by rw [log_schedule]; exact fun _ h => List.mem_append_left _ h)
    (by rw [schedule_nodes]; exact fun _ h => .inl h)

theorem AskCore.addSched (c : AskCore H N s) {n : Node} (h : n.isMissing = false ∨ N n) (infos) :
    AskCore H N ((s.addNode n).schedule n infos) := (c.addNode h).schedule ..

theorem askCtx (env : Env W) (H : List MissHook) (N : Node → Prop)
    (hN : ∀ name x imports, FromSpec env name x imports → N x) :
    Ctx env ApiOp.NoAddNode (fun _ => AskCore (W := W) H N) (AskCore H N) where
  aAddModule _ _ := trivial
  toE h := h
  world w h := h.same rfl rfl rfl
  looked h := h.event _
  asked _ _ _ h := h.event _
  called _ _ h := h.event _
  failed h := h.event _
  pushLoad _ h _ _ := h
  popLoad h _ := h
  popLoadLink h _ _ := h.addEdge ..
  popLoadMissing h _ _ _ := h
  addExcludedSub h _ _ _ _ := h.addSched (.inl rfl) _
  addMissing {O s name p lm} h _ _ ha := by
    refine AskCore.schedule (s := s.addNode (missingNode name)) ⟨h.hooks, ?_⟩ _ _
    intro x hx hm
    simp only [St.addNode, List.mem_append, List.mem_singleton] at hx
    rcases hx with hx | rfl
    · exact h.asked x hx hm
    · exact .inr fun k hk => ha k (h.hooks k hk)
  addSwig n _ h _ _ hx _ := h.addNode (.inl <| by
    unfold Node.isExtension at hx
    unfold Node.isMissing
    cases hk : n.kind <;> simp_all)
  popExcluded {O s name p lm} h _ _ :=
    AskCore.addSched (s := s.popLazy name) (h.same rfl rfl rfl) (.inl rfl) _
  popAlias {O s name p lm t} h _ _ :=
    AskCore.addSched (s := s.popLazy name) (h.same rfl rfl rfl) (.inl rfl) _
  popVirtual {O s name p lm t} h _ _ :=
    AskCore.addSched (s := s.popLazy name) (h.same rfl rfl rfl) (.inl rfl) _
  doneAlias h _ _ := h.addEdge ..
  popRefs h _ _ := h.same rfl rfl rfl
  doneRef h _ _ := h.addEdge ..
  doneRefs h _ := h
  addAlias h _ _ _ _ := h.addSched (.inl rfl) _
  addTarget h _ hf _ := h.addSched (.inr (hN _ _ _ hf)) _
  doneTarget h _ _ := h
  doneTargetLink h _ _ _ := h.addEdge ..
  addLoaded h _ _ hf := h.addNode (.inr (hN _ _ _ hf))
  nsEdge h _ _ _ := h.addEdge ..
  schedNode h _ _ := h.schedule _ _
  addInvalid h _ _ _ := h.addSched (.inl rfl) _
  finishInvalid h _ _ _ _ _ _ := (h.addEdge ..).event _
  finishImp _ h _ _ _ _ := (h.addEdge _ _ _).step (fun _ h => h)
    (fun _ h => List.mem_append_left _ h) (fun _ h => .inl h)
  globals _ h _ := h.same rfl rfl rfl
  reexport h _ _ _ _ _ _ := h.addEdge ..
  subLink h _ _ _ _ _ := h.addEdge ..
  subEdge h _ _ _ _ _ := h.addEdge ..
  sixEdge h _ _ _ _ _ _ _ := h.addEdge ..
  pkgEdge h _ _ _ := h.addEdge ..
  pkgSub h _ _ _ _ := h.addEdge ..
  pushPkg h _ _ _ := h.same rfl rfl rfl
  pop h _ := h.step (fun _ h => h) (fun _ h => List.mem_append_left _ h) (fun _ h => .inl h)
  enter h := h.same rfl rfl rfl
  exit _ h _ := h.same rfl rfl rfl
  exitE _ h _ := h.same rfl rfl rfl
  script h _ _ _ := h.addSched (.inl rfl) _
  addRoot h _ _ := by
    unfold St.addRoot; split
    · exact h
    · exact h.same rfl rfl rfl
  addDist _ h _ _ := h.addNode (.inl rfl)
  distEdge h _ _ := h.addEdge ..
  doneDist h _ := h
  importModule h _ _ _ := h.addEdge ..
  exclude {s} names _ h := by
    have : ∀ (l : List Str) (s : St W), AskCore H N s → AskCore H N (l.foldl addExclude s) :=
      fun l s hs => foldl_pres (f := addExclude) (fun s a h => h.same rfl rfl rfl) l s hs
    exact this names s h
  imply {s} l _ h := by
    have : ∀ (l : List (Str × Implies)) (s : St W), AskCore H N s → AskCore H N (l.foldl addImply s) :=
      fun l s hs => foldl_pres (f := addImply) (fun s a h => by
        unfold addImply; split
        · exact h
        · exact h.same rfl rfl rfl) l s hs
    exact this l s h
  missHook _ _ h := h.step (fun _ h => List.mem_cons_of_mem _ h) (fun _ h => h) (fun _ h => .inl h)
  postHook _ _ h := h.same rfl rfl rfl
  apiAddNode _ hA := hA.elim
  apiAddEdge _ _ _ _ h _ _ := h.addEdge ..
  apiSchedule _ _ _ h := h.schedule ..
  mypycEdge h _ _ _ _ _ := h.addEdge ..
  mypycSched h _ _ _ := h.schedule ..

/-! ## The SWIG hook does not write to the log -/

def KeepsLog {α : Type} (m : M W α) : Prop := ∀ s, (m s).2.log = s.log

theorem KeepsLog.bind {α β : Type} {m : M W α} {f : α → M W β} (h : KeepsLog m)
    (h' : ∀ a, KeepsLog (f a)) : KeepsLog (M.bind m f) := by
  intro s
  have hs := h s
  unfold M.bind
  cases hm : m s with
  | mk r s1 =>
    rw [hm] at hs
    cases r with
    | ok a => exact (h' a s1).trans hs
    | error e => exact hs
theorem KeepsLog.pure {α : Type} (a : α) : KeepsLog (M.pure a : M W α) := fun _ => rfl
theorem KeepsLog.throw {α : Type} (e) : KeepsLog (M.throw e : M W α) := fun _ => rfl
theorem KeepsLog.ext {α : Type} (x : Ext W α) : KeepsLog (M.ext x) := fun _ => rfl
theorem KeepsLog.attempt {α : Type} {m : M W α} (h : KeepsLog m) : KeepsLog (M.attempt m) := by
  intro s
  cases hm : m s with
  | mk r s1 =>
    have := h s
    rw [hm] at this
    rcases M.attempt_cases hm with ⟨_, ha⟩ | ha <;> rw [ha] <;> exact this

theorem swig_log (env : Env W) (i nm) : KeepsLog (swigHook env i nm) := by
  unfold swigHook
  split
  · exact .pure _
  split
  · exact .pure _
  split
  · exact .pure _
  refine .bind (fun _ => rfl) fun s => ?_
  split
  · exact .pure _
  simp only []
  refine .bind (.attempt (.ext _)) fun r => .bind ?_ fun sp => ?_
  · split
    · exact .pure _
    · split
      · refine .bind (.ext _) fun sp => ?_
        split
        · exact .throw _
        · split
          · exact .throw _
          · exact .bind (fun _ => rfl) fun _ => .bind (.ext _) fun _ => .bind (.ext _) fun _ => .pure _
      · exact .throw _
  · split
    · exact .pure _
    · refine .bind (.ext _) fun p => ?_
      split
      · exact .pure _
      · refine .bind ?_ fun _ => .bind ?_ fun _ => .pure _
        · intro s; unfold M.assert; split <;> rfl
        · intro s; unfold M.addNode; split <;> rfl

/-! ## The lists of hooks stay as they are -/

/-- Operations other than the registration of hooks. -/
def ApiOp.NoHookReg : ApiOp → Prop
  | .addPostHook _ | .addMissingHook _ => False
  | _ => True

def SameHooks (mh : List MissHook) (ph : List PostHook) (s : St W) : Prop :=
  s.missHooks = mh ∧ s.postHooks = ph

theorem SameHooks.addEdge {mh ph} {s : St W} (h : SameHooks mh ph s) (a b d) :
    SameHooks mh ph (s.addEdge a b d) := by
  unfold St.addEdge; split <;> exact h
theorem SameHooks.schedule {mh ph} {s : St W} (h : SameHooks mh ph s) (n i) :
    SameHooks mh ph (s.schedule n i) := by
  unfold SameHooks at *; rw [schedule_missHooks, schedule_postHooks]; exact h

theorem sameHooksClosed (mh : List MissHook) (ph : List PostHook) :
    Closed ApiOp.NoHookReg (fun _ => SameHooks (W := W) mh ph) (fun _ => SameHooks mh ph)
      (fun _ => True) where
  aAddModule _ := trivial
  toE h := h
  world _ h := h
  addNode _ h _ := h
  addEdge _ _ _ h _ _ := h.addEdge ..
  addRoot _ h _ := by unfold St.addRoot; split <;> exact h
  popExcluded _ h _ _ := SameHooks.schedule (by exact h) _ _
  popOther _ _ h _ _ _ := h
  exclude names _ h := foldl_pres (P := SameHooks mh ph) (f := addExclude) (fun _ _ h => h) names _ h
  imply l _ h := foldl_pres (P := SameHooks mh ph) (f := addImply)
    (fun _ _ h => by unfold addImply; split <;> exact h) l _ h
  schedule _ _ h := h.schedule ..
  addGlobals _ _ h := h
  apiAddNode _ _ h _ := h
  apiAddEdge _ _ _ _ h _ _ := h.addEdge ..
  apiAddRoot _ _ h _ := by unfold St.addRoot; split <;> exact h
  apiSchedule _ _ _ h := h.schedule ..
  looked h := h
  called _ _ h _ := h
  asked _ _ _ h := h
  failed h := h
  missHook _ hA := hA.elim
  postHook _ hA := hA.elim
  pushPkg _ _ h := h
  pop _ h _ := h
  okPp h := h
  okPkg h := h
  finishPp _ _ h _ := h
  finishPkg _ _ h := h
  finishNl _ _ h := h
  finishInvalid h _ _ _ := h
  finishImp _ h _ _ _ := h
  errItem h := h
  enter _ h := h
  exit _ _ h _ := h
  exitE _ _ h _ := h

section
variable {env : Env W} (hP : ∀ k n, (env.userPost k n).Only ApiOp.NoHookReg)
  (hH : ∀ k i n, (env.userMissing k i n).Only ApiOp.NoHookReg)
include hP hH

theorem hooks_good (n : Nat) (mh ph) : Good ApiOp.NoHookReg (fun _ => SameHooks (W := W) mh ph)
    (fun _ => SameHooks mh ph) (fun _ => True) (calls env n) :=
  calls_good (sameHooksClosed mh ph) hP (fun _ => .inl ⟨trivial, hH⟩) n

theorem interp_hooks {p : Hook W} (hp : p.Only ApiOp.NoHookReg) (n : Nat) (s : St W) :
    SameHooks s.missHooks s.postHooks (interp (calls env n) p s).2 :=
  (interp_run (sameHooksClosed _ _) (hooks_good hP hH n _ _) (β := []) trivial hp s ⟨rfl, rfl⟩).2

theorem mypyc_hooks (n : Nat) (nd : Node) (s : St W) :
    SameHooks s.missHooks s.postHooks (mypycHook env (calls env n) nd s).2 := by
  have := mypycHook_pres (env := env) (sameHooksClosed s.missHooks s.postHooks)
    (hooks_good hP hH n _ _) nd [] trivial s ⟨rfl, rfl⟩
  unfold Out at this
  split at this <;> exact this.2

omit hP hH in
theorem swig_hooks (i nm) (s : St W) :
    SameHooks s.missHooks s.postHooks (swigHook env i nm s).2 :=
  (swigHook_pres (sameHooksClosed s.missHooks s.postHooks) i nm [] s ⟨rfl, rfl⟩).2

end
end Verif
