import Verif.Spec.HookSpec
/-!
# Closure theorem

An invariant that is preserved by the primitive state changes is preserved by every method,
hook and client program.

`I β s` is the invariant when the work items `β` are being executed (each with the number of
post-processing hooks called so far for it); `E β s` is what remains
when a running method ends with an exception.  `okRun β` says when work items may be taken from
the stack.
-/
namespace Verif
open M

variable {W : Type}

theorem Hook.only_true (h : Hook W) : h.Only (fun _ => True) := by
  induction h with
  | ret r => exact .ret r
  | raise e => exact .raise e
  | look k ih => exact .look ih
  | setWorld w k ih => exact .setWorld ih
  | call op k ih => exact .call trivial ih

theorem Hook.Only.mono {P Q : ApiOp → Prop} {h : Hook W} (hh : h.Only P) (hPQ : ∀ o, P o → Q o) :
    h.Only Q := by
  induction hh with
  | ret r => exact .ret r
  | raise e => exact .raise e
  | look _ ih => exact .look ih
  | setWorld _ ih => exact .setWorld ih
  | call ho _ ih => exact .call (hPQ _ ho) ih

/-- A work item being executed, with the number of hooks called so far. -/
abbrev Busy := Item × Nat

/-- Removing a name from the table of lazy nodes. -/
def St.popLazy (s : St W) (name : Str) : St W :=
  { s with lazy := fun k => if k = name then none else s.lazy k }

/-- The conditions on the primitive state changes.  `A`: the operations that hooks and clients
may use; `R it s s'`: what is known when item `it` was started with state `s` and has completed with
state `s'`. -/
structure Closed (A : ApiOp → Prop) (I E : List Busy → St W → Prop) (okRun : List Busy → Prop)
    (R : Item → St W → St W → Prop := fun _ _ _ => True) : Prop where
  aAddModule : ∀ name, A (.addModule name)
  toE : ∀ {β s}, I β s → E β s
  world : ∀ {β s} w, I β s → I β { s with world := w }
  addNode : ∀ {β s} n, I β s → s.has n.ident = false → I β (s.addNode n)
  addEdge : ∀ {β s} a b d, I β s → s.has a = true → s.has b = true → I β (s.addEdge a b d)
  addRoot : ∀ {β s} a, I β s → s.has a = true → I β (s.addRoot a)
  popExcluded : ∀ {β s} name, I β s → s.has name = false → s.lazy name = some .excluded →
    I β (((s.popLazy name).addNode (excludedNode name)).schedule (excludedNode name) [])
  popOther : ∀ {β s} name v, I β s → s.has name = false → s.lazy name = some v → v ≠ .excluded →
    I β (s.popLazy name)
  exclude : ∀ {β s} names, A (.addExcludes names) → I β s → I β (names.foldl addExclude s)
  imply : ∀ {β s} l, A (.addImplies l) → I β s → I β (l.foldl addImply s)
  schedule : ∀ {β s} n infos, I β s → I β (s.schedule n infos)
  addGlobals : ∀ {β s} a names, I β s → I β (s.addGlobals a names)
  apiAddNode : ∀ {β s} n, A (.addNode n) → I β s → s.has n.ident = false → I β (s.addNode n)
  apiAddEdge : ∀ {β s} a b d, A (.addEdge a b d) → I β s → s.has a = true → s.has b = true →
    I β (s.addEdge a b d)
  apiAddRoot : ∀ {β s} a, A (.addRoot a) → I β s → s.has a = true → I β (s.addRoot a)
  apiSchedule : ∀ {β s} n infos, A (.processImportList n infos) → I β s → I β (s.schedule n infos)
  looked : ∀ {β s}, I β s → I β (s.event (.looked s.nodes s.edges s.roots))
  called : ∀ {β s k} h n, I ((.pp n, k) :: β) s → s.postHooks[k]? = some h →
    I ((.pp n, k + 1) :: β) (s.event (.called h n.ident))
  asked : ∀ {β s} h n i, I β s → I β (s.event (.asked h n i))
  failed : ∀ {β s}, E β s → I β (s.event .failed)
  missHook : ∀ {β s} h, A (.addMissingHook h) → I β s → I β { s with missHooks := h :: s.missHooks }
  postHook : ∀ {β s} h, A (.addPostHook h) → I β s → I β { s with postHooks := h :: s.postHooks }
  pushPkg : ∀ {β s} n name, I β s → I β { s with stack := s.stack ++ [.pkg n name] }
  pop : ∀ {β s st it}, okRun β → I β s → s.stack = st ++ [it] →
    I ((it, 0) :: β) { s with stack := st, log := s.log ++ [.started it] }
  okPp : ∀ {β n k}, okRun β → okRun ((.pp n, k) :: β)
  okPkg : ∀ {β n name k}, okRun β → okRun ((.pkg n name, k) :: β)
  finishPp : ∀ {β s1 s n k}, I ((.pp n, 0) :: β) s1 → R (.pp n) s1 s → I ((.pp n, k) :: β) s →
    s.postHooks[k]? = none → I β s
  finishPkg : ∀ {β s1 s n name k}, I ((.pkg n name, k) :: β) s1 → R (.pkg n name) s1 s →
    I ((.pkg n name, k) :: β) s → I β s
  finishNl : ∀ {β s1 s a b i k}, I ((.nl a b i, k) :: β) s1 → R (.nl a b i) s1 s →
    I ((.nl a b i, k) :: β) s → I β s
  finishInvalid : ∀ {β s n i t k}, I ((.imp n i, k) :: β) s → absoluteName n i = .ok none →
    (n.ident, t, fromImportInfo i false none) ∈ s.edges →
    (∃ s1, I ((.imp n i, k) :: β) s1 ∧ R (.imp n i) s1 (s.event (.imported n.ident i t))) →
    I β (s.event (.imported n.ident i t))
  finishImp : ∀ {β s n i t name k} (offset : Nat), I ((.imp n i, k) :: β) s →
    absoluteName n i = .ok (some name) →
    (n.ident, t.ident, fromImportInfo i false i.importModule.asname) ∈ s.edges →
    (∃ s1, I ((.imp n i, k) :: β) s1 ∧ R (.imp n i) s1
      { s with stack := s.stack.take offset ++ [.nl n t i] ++ s.stack.drop offset,
               log := s.log ++ [.imported n.ident i t.ident] }) →
    I β { s with stack := s.stack.take offset ++ [.nl n t i] ++ s.stack.drop offset,
                 log := s.log ++ [.imported n.ident i t.ident] }
  errItem : ∀ {β s it}, E (it :: β) s → E β s
  enter : ∀ {β s}, okRun β → I β s → I β { s with stack := [], hidden := s.hidden ++ s.stack }
  exit : ∀ {β s0 s}, okRun β → I β s0 → I β s → s.hidden = s0.hidden ++ s0.stack →
    I β { s with stack := s0.stack ++ s.stack, hidden := s0.hidden }
  exitE : ∀ {β s0 s}, okRun β → I β s0 → E β s → s.hidden = s0.hidden ++ s0.stack →
    E β { s with stack := s0.stack ++ s.stack, hidden := s0.hidden }

section
variable (I E : List Busy → St W → Prop) (okRun : List Busy → Prop)

/-- `m` keeps the invariant for `β`, however it ends. -/
def PIb {α : Type} (β : List Busy) (m : M W α) : Prop :=
  ∀ s, I β s → (m s).2.hidden = s.hidden ∧ I β (m s).2

/-- `m` keeps the invariant, however it ends. -/
def PI {α : Type} (m : M W α) : Prop := ∀ β, PIb I β m

/-- The outcome `r` of a method started in `s` keeps the invariant for `β` if it is a normal
return and leaves `E` if not. -/
def Out {α : Type} (β : List Busy) (s : St W) (r : Except Exc α × St W) : Prop :=
  r.2.hidden = s.hidden ∧
    (match r.1 with
     | .ok _ => I β r.2
     | .error _ => E β r.2)

/-- `m` keeps the invariant if it returns, and leaves `E` if it raises, for executing items
`β`. -/
def PEb {α : Type} (β : List Busy) (m : M W α) : Prop := ∀ s, I β s → Out I E β s (m s)

def PE {α : Type} (m : M W α) : Prop := ∀ β, okRun β → PEb I E β m
end

section
variable {A : ApiOp → Prop} {I E : List Busy → St W → Prop} {okRun : List Busy → Prop}
  {R : Item → St W → St W → Prop}
  {α γ : Type}

theorem PIb.toPEb (hC : Closed A I E okRun R) {β} {m : M W α} (h : PIb I β m) : PEb I E β m := by
  intro s hs
  obtain ⟨h1, h2⟩ := h s hs
  refine ⟨h1, ?_⟩
  split
  · exact h2
  · exact hC.toE h2

theorem M.bind_of_ok {m : M W α} {f : α → M W γ} {s s' : St W} {a : α} (h : m s = (.ok a, s')) :
    M.bind m f s = f a s' := by simp [M.bind, h]
theorem M.bind_of_error {m : M W α} {f : α → M W γ} {s s' : St W} {e : Exc}
    (h : m s = (.error e, s')) : M.bind m f s = (.error e, s') := by simp [M.bind, h]
theorem M.findNode_apply (s : St W) (n : Str) : M.findNode n s = (.ok (s.find n), s) := rfl
theorem M.get_apply (s : St W) : M.get s = (.ok s, s) := rfl
theorem M.modify_apply (s : St W) (f : St W → St W) : M.modify f s = (.ok (), f s) := rfl

theorem PIb.pure {β} (a : α) : PIb I β (M.pure a) := fun _ hs => ⟨rfl, hs⟩
theorem PIb.throw {β} (e : Exc) : PIb I β (M.throw e : M W α) := fun _ hs => ⟨rfl, hs⟩
theorem PIb.get {β} : PIb I β (M.get : M W _) := fun _ hs => ⟨rfl, hs⟩
theorem PIb.findNode {β} (a) : PIb I β (M.findNode a : M W _) := fun _ hs => ⟨rfl, hs⟩
theorem PIb.findModule {β} (a) : PIb I β (M.findModule a : M W _) := by
  intro s hs
  unfold M.findModule
  split
  · split <;> exact ⟨rfl, hs⟩
  · exact ⟨rfl, hs⟩
theorem PIb.ofExcept {β} (r : Except Exc α) : PIb I β (M.ofExcept r : M W α) := fun _ hs => ⟨rfl, hs⟩
theorem PIb.assert {β} (b) : PIb I β (M.assert b : M W _) := by
  unfold M.assert; split
  · exact .pure _
  · exact .throw _

theorem PIb.bind {β} {m : M W α} {f : α → M W γ} (h : PIb I β m) (h' : ∀ a, PIb I β (f a)) :
    PIb I β (M.bind m f) := by
  intro s hs
  obtain ⟨h1, h2⟩ := h s hs
  unfold M.bind
  cases hm : m s with
  | mk r s' =>
    simp only [hm] at h1 h2
    cases r with
    | ok a =>
      obtain ⟨h3, h4⟩ := h' a s' h2
      exact ⟨h3.trans h1, h4⟩
    | error e => exact ⟨h1, h2⟩

theorem PEb.bind {β} {m : M W α} {f : α → M W γ} (h : PEb I E β m)
    (h' : ∀ a, PEb I E β (f a)) : PEb I E β (M.bind m f) := by
  intro s hs
  obtain ⟨h1, h2⟩ := h s hs
  unfold M.bind
  cases hm : m s with
  | mk r s' =>
    simp only [hm] at h1 h2
    cases r with
    | ok a =>
      obtain ⟨h3, h4⟩ := h' a s' h2
      exact ⟨h3.trans h1, h4⟩
    | error e => exact ⟨h1, h2⟩

theorem PIb.attempt {β} {m : M W α} (h : PIb I β m) : PIb I β (M.attempt m) := by
  intro s hs
  have := h s hs
  unfold M.attempt
  split <;> simp_all

theorem PIb.ext (hC : Closed A I E okRun R) {β} (x : Ext W α) : PIb I β (M.ext x) :=
  fun _ hs => ⟨rfl, hC.world _ hs⟩

theorem PIb.forEach {β} {l : List α} {f : α → M W Unit} (h : ∀ a, PIb I β (f a)) :
    PIb I β (M.forEach l f) := by
  induction l with
  | nil => exact .pure _
  | cons x xs ih => exact .bind (h x) (fun _ => ih)

theorem PEb.forEach (hC : Closed A I E okRun R) {β} {l : List α} {f : α → M W Unit}
    (h : ∀ a, PEb I E β (f a)) : PEb I E β (M.forEach l f) := by
  induction l with
  | nil => exact (PIb.pure _).toPEb hC
  | cons x xs ih => exact .bind (h x) (fun _ => ih)

theorem PIb.addNode (hC : Closed A I E okRun R) {β} (n) : PIb I β (M.addNode n : M W _) := by
  intro s hs
  unfold M.addNode
  split
  · exact ⟨rfl, hs⟩
  · rename_i h; exact ⟨rfl, hC.addNode n hs (by simpa using h)⟩

theorem addEdge_hidden (s : St W) (a b d) : (s.addEdge a b d).hidden = s.hidden := by
  unfold St.addEdge; split <;> rfl

theorem addRoot_hidden (s : St W) (a) : (s.addRoot a).hidden = s.hidden := by
  unfold St.addRoot; split <;> rfl

theorem schedule_hidden (s : St W) (n i) : (s.schedule n i).hidden = s.hidden := by
  unfold St.schedule; simp only []; split <;> rfl

theorem PIb.addEdge (hC : Closed A I E okRun R) {β} (a b d) : PIb I β (M.addEdge a b d : M W _) := by
  intro s hs
  unfold M.addEdge
  split
  · rename_i h
    simp only [Bool.and_eq_true] at h
    exact ⟨addEdge_hidden _ _ _ _, hC.addEdge a b d hs h.1 h.2⟩
  · exact ⟨rfl, hs⟩

theorem PIb.addRoot (hC : Closed A I E okRun R) {β} (a) : PIb I β (M.addRoot a : M W _) := by
  intro s hs
  unfold M.addRoot
  split
  · rename_i h
    exact ⟨addRoot_hidden _ _, hC.addRoot a hs h⟩
  · exact ⟨rfl, hs⟩

theorem PIb.schedule (hC : Closed A I E okRun R) {β} (n i) : PIb I β (M.schedule n i : M W _) :=
  fun s hs => ⟨schedule_hidden s n i, hC.schedule n i hs⟩

/-- What the closure theorem says about a set of methods. -/
structure Good (A : ApiOp → Prop) (I E : List Busy → St W → Prop) (okRun : List Busy → Prop) (rec : Calls W) :
    Prop where
  findOrLoad : ∀ i n b, PI I (rec.findOrLoad i n b)
  implied : ∀ i n, PI I (rec.implied i n)
  loadModule : ∀ i n, PI I (rec.loadModule i n)
  createMissing : ∀ i n, PI I (rec.createMissing i n)
  callMissing : ∀ k i n, PI I (rec.callMissing k i n)
  importPackage : ∀ i n, PE I E okRun (rec.importPackage i n)
  runStack : PE I E okRun rec.runStack
  callPost : ∀ k n β s, okRun β → I ((.pp n, k) :: β) s →
    (∀ s' k', rec.callPost k n s = (.ok (), s') → I ((.pp n, k') :: β) s' → s'.postHooks[k']? = none → I β s') →
    Out I E β s (rec.callPost k n s)
  op : ∀ o β, A o → okRun β ∨ o.NoRun → PIb I β (rec.op o)

variable (hC : Closed A I E okRun R) {env : Env W}
  (hP : ∀ k n, (env.userPost k n).Only A)
  (hH : ∀ β, (okRun β ∧ ∀ k i n, (env.userMissing k i n).Only A) ∨
    ∀ k i n, (env.userMissing k i n).Only (fun o => A o ∧ o.NoRun))
include hC

theorem interp_run {rec : Calls W} (hR : Good A I E okRun rec) {β} (hβ : okRun β) {h : Hook W}
    (hA : h.Only A) : PIb I β (interp rec h) := by
  induction hA with
  | ret r => exact .pure _
  | raise e => exact .throw _
  | look _ ih => exact fun s hs => ih s _ (hC.looked hs)
  | setWorld _ ih => exact fun s hs => ih _ (hC.world _ hs)
  | call hA _ ih => exact .bind (.attempt (hR.op _ β hA (.inl hβ))) (fun r => ih r)

theorem interp_noRun {rec : Calls W} (hR : Good A I E okRun rec) {β} {h : Hook W}
    (hn : h.Only (fun o => A o ∧ o.NoRun)) : PIb I β (interp rec h) := by
  induction hn with
  | ret r => exact .pure _
  | raise e => exact .throw _
  | look _ ih => exact fun s hs => ih s _ (hC.looked hs)
  | setWorld _ ih => exact fun s hs => ih _ (hC.world _ hs)
  | call ho _ ih => exact .bind (.attempt (hR.op _ β ho.1 (.inr ho.2))) (fun r => ih r)

theorem PIb.modifyWorld {β} (f : W → W) :
    PIb I β (M.modify fun s : St W => { s with world := f s.world }) :=
  fun _ hs => ⟨rfl, hC.world _ hs⟩

theorem swigHook_pres (i : Option Node) (n : Str) : PI I (swigHook env i n) := by
  intro β
  unfold swigHook
  split
  · exact .pure _
  split
  · exact .pure _
  split
  · exact .pure _
  refine .bind .get fun s => ?_
  split
  · exact .pure _
  refine .bind (.attempt (.ext hC _)) fun r => ?_
  refine .bind ?_ fun spec => ?_
  · split
    · exact .pure _
    · split
      · refine .bind (.ext hC _) fun sp => ?_
        split
        · exact .throw _
        · split
          · exact .throw _
          · exact .bind (PIb.modifyWorld hC _) fun _ => .bind (.ext hC _) fun _ =>
              .bind (.ext hC _) fun _ => .pure _
      · exact .throw _
  · split
    · exact .pure _
    · refine .bind (.ext hC _) fun p => ?_
      split
      · exact .pure _
      · exact .bind (.assert _) fun _ => .bind (.addNode hC _) fun _ => .pure _

theorem mypycHook_pres {rec : Calls W} (hR : Good A I E okRun rec) (n : Node) :
    PE I E okRun (mypycHook env rec n) := by
  intro β hβ
  unfold mypycHook
  simp only []
  have hp : PEb I E β (M.pure () : M W Unit) := (PIb.pure _).toPEb hC
  split
  · exact hp
  split
  · exact hp
  split
  · exact hp
  split
  · exact hp
  refine .bind ((PIb.ext hC _).toPEb hC) fun b => ?_
  split
  · exact hp
  refine .bind ((hR.op _ β (hC.aAddModule _) (.inl hβ)).toPEb hC) fun h => ?_
  split
  · exact (PIb.throw _).toPEb hC
  refine .bind ((PIb.addEdge hC _ _ _).toPEb hC) fun _ => .bind ((PIb.ext hC _).toPEb hC) fun _ =>
    .bind ((PIb.attempt (.ext hC _)).toPEb hC) fun _ => ?_
  split
  · exact hp
  · exact (PIb.throw _).toPEb hC
  · split
    · exact hp
    · exact .bind ((PIb.schedule hC _ _).toPEb hC) fun _ => hR.runStack β hβ

/-- Sequencing when the work item `x` ends with the second part. -/
theorem Out.bindItem {β x} {m : M W α} {f : α → M W γ} {s : St W} (hm : PEb I E (x :: β) m)
    (hs : I (x :: β) s)
    (hf : ∀ a s', m s = (.ok a, s') → I (x :: β) s' → Out I E β s' (f a s')) :
    Out I E β s (M.bind m f s) := by
  have h := hm s hs
  unfold M.bind
  cases hms : m s with
  | mk r s' =>
    rw [hms] at h
    cases r with
    | ok a =>
      obtain ⟨h3, h4⟩ := hf a s' hms h.2
      exact ⟨h3.trans h.1, h4⟩
    | error e => exact ⟨h.1, hC.errItem h.2⟩

include hP in
theorem callPost_pres {rec : Calls W} (hR : Good A I E okRun rec) (k : Nat) (n : Node)
    (β : List Busy) (s : St W) (hβ : okRun β) (hs : I ((.pp n, k) :: β) s)
    (hfin : ∀ s' k', callPostBody env rec k n s = (.ok (), s') → I ((.pp n, k') :: β) s' →
      s'.postHooks[k']? = none → I β s') :
    Out I E β s (callPostBody env rec k n s) := by
  unfold callPostBody at hfin ⊢
  rw [M.bind_of_ok (M.get_apply s)] at hfin ⊢
  cases hk : s.postHooks[k]? with
  | none =>
    rw [hk] at hfin
    exact ⟨rfl, hfin s k rfl hs hk⟩
  | some h =>
    rw [hk] at hfin
    simp only [] at hfin ⊢
    rw [M.bind_of_ok (M.modify_apply s _)] at hfin ⊢
    have hs1 := hC.called h n hs hk
    refine Out.bindItem (s := s.event (.called h n.ident)) hC ?_ hs1 fun _ s2 he hs2 =>
      hR.callPost (k + 1) n β s2 hβ hs2 fun s' k' hs' => hfin s' k' (by rw [M.bind_of_ok he]; exact hs')
    split
    · exact mypycHook_pres hC hR n _ (hC.okPp hβ)
    · exact PIb.toPEb hC (.bind (interp_run hC hR (hC.okPp hβ) (hP _ _)) fun _ => .pure _)

theorem createMissing_pres {rec : Calls W} (hR : Good A I E okRun rec) (i : Option Node) (n : Str) :
    PI I (createMissingBody rec i n) := by
  intro β
  unfold createMissingBody
  refine .bind (hR.callMissing _ _ _ β) fun r => ?_
  split
  · exact .pure _
  · exact .bind (.addNode hC _) fun _ => .bind (.schedule hC _ _) fun _ => .pure _

theorem implied_pres {rec : Calls W} (hR : Good A I E okRun rec) (i : Option Node) (n : Str) :
    PI I (impliedBody rec i n) := by
  intro β s hs
  unfold impliedBody
  rw [M.bind_of_ok (M.findNode_apply s n)]
  cases hf : s.find n with
  | some x => exact ⟨rfl, hs⟩
  | none =>
    have hh : s.has n = false := by
      unfold St.find at hf; unfold St.has
      simpa using hf
    simp only []
    rw [M.bind_of_ok (M.get_apply s)]
    cases hl : s.lazy n with
    | none => exact ⟨rfl, hs⟩
    | some v =>
      simp only []
      rw [M.bind_of_ok (M.modify_apply s _)]
      cases v with
      | excluded =>
        have := hC.popExcluded n hs hh hl
        have h2 : (s.popLazy n).has n = false := hh
        show (M.bind (M.addNode (excludedNode n)) (fun _ => M.bind (M.schedule (excludedNode n) [])
          fun _ => M.pure (some (excludedNode n))) (s.popLazy n)).2.hidden = _ ∧ _
        have e : M.bind (M.addNode (excludedNode n)) (fun _ => M.bind (M.schedule (excludedNode n) [])
          fun _ => M.pure (some (excludedNode n))) (s.popLazy n) = (.ok (some (excludedNode n)),
            (((s.popLazy n).addNode (excludedNode n)).schedule (excludedNode n) [])) := by
          have h3 : (excludedNode n).ident = n := rfl
          simp [M.bind, M.addNode, h3, h2, M.schedule, M.modify, M.pure]
        refine ⟨?_, ?_⟩
        · rw [e]; exact schedule_hidden _ _ _
        · show I β (M.bind _ _ (s.popLazy n)).2
          rw [e]; exact this
      | alias t =>
        have hp := hC.popOther n _ hs hh hl (by simp)
        exact (PIb.bind (.addNode hC _) fun _ => .bind (.schedule hC _ _) fun _ =>
          .bind (hR.findOrLoad _ _ _ β) fun _ => .bind (.addEdge hC _ _ _) fun _ => .pure _)
          (s.popLazy n) hp
      | «virtual» t =>
        have hp := hC.popOther n _ hs hh hl (by simp)
        exact (PIb.bind (.addNode hC _) fun _ => .bind (.schedule hC _ _) fun _ =>
          .bind (hR.findOrLoad _ _ _ β) fun _ => .bind (.addEdge hC _ _ _) fun _ => .pure _)
          (s.popLazy n) hp
      | refs l =>
        have hp := hC.popOther n _ hs hh hl (by simp)
        exact (PIb.bind (hR.findOrLoad _ _ _ β) fun _ => .bind (.forEach fun _ =>
          .bind (hR.findOrLoad _ _ _ β) fun _ => .addEdge hC _ _ _) fun _ => .pure _)
          (s.popLazy n) hp

theorem addLoaded_pres {rec : Calls W} (hR : Good A I E okRun rec) (n : Str) (sp : Spec) :
    PI I (addLoaded env rec n sp) := by
  intro β
  unfold addLoaded
  refine .bind (.ext hC _) fun p => ?_
  simp only []
  split
  · refine .bind (.addNode hC _) fun _ => .bind (.schedule hC _ _) fun _ =>
      .bind (.findNode _) fun _ => .bind ?_ fun _ => .bind (.addEdge hC _ _ _) fun _ => .pure _
    split
    · exact .pure _
    · refine .bind (.addNode hC _) fun _ => .bind (.schedule hC _ _) fun _ =>
        .bind (.ofExcept _) fun _ => ?_
      split
      · exact .pure _
      · exact .bind (hR.findOrLoad _ _ _ β) fun _ => .addEdge hC _ _ _
  · refine .bind (.addNode hC _) fun _ => .bind ?_ fun _ => .bind (.schedule hC _ _) fun _ => .pure _
    split
    · exact .bind (hR.findOrLoad _ _ _ β) fun _ => .addEdge hC _ _ _
    · exact .pure _

theorem loadFallback_pres {rec : Calls W} (hR : Good A I E okRun rec) (i : Option Node) (n : Str)
    (e : Exc) : PI I (loadFallback env rec i n e) := by
  intro β
  unfold loadFallback
  split
  · refine .bind .get fun s => ?_
    split
    · exact .throw _
    refine .bind (.ext hC _) fun sp => ?_
    split
    · exact .throw _
    refine .bind .get fun s => ?_
    split
    · exact .throw _
    refine .bind (.ext hC _) fun b => ?_
    split
    · split
      · exact .throw _
      · split
        · exact .throw _
        · exact .bind (PIb.modifyWorld hC _) fun _ => hR.loadModule _ _ β
    · exact hR.createMissing _ _ β
  · exact hR.createMissing _ _ β

theorem loadModule_pres {rec : Calls W} (hR : Good A I E okRun rec) (i : Option Node) (n : Str) :
    PI I (loadModuleBody env rec i n) := by
  intro β
  unfold loadModuleBody
  split
  · exact .throw _
  refine .bind (.findNode _) fun r => ?_
  split
  · exact .pure _
  refine .bind (.attempt (.bind (.ext hC _) fun sp => ?_)) fun r => ?_
  · split
    · exact .bind (hR.createMissing _ _ β) fun _ => .pure _
    · exact .pure _
  · split
    · exact .pure _
    · exact addLoaded_pres hC hR _ _ β
    · split
      · exact loadFallback_pres hC hR _ _ _ β
      · exact .throw _

theorem findOrLoad_pres {rec : Calls W} (hR : Good A I E okRun rec) (i : Option Node) (n : Str)
    (b : Bool) : PI I (findOrLoadBody rec i n b) := by
  intro β
  unfold findOrLoadBody
  refine .bind (.findModule _) fun r => ?_
  split
  · exact .pure _
  refine .bind (.ofExcept _) fun sp => .bind ?_ fun pn => .bind ?_ fun node => ?_
  · split
    · exact .pure _
    · refine .bind (hR.findOrLoad _ _ _ β) fun parent => ?_
      split
      · exact .bind (hR.createMissing _ _ β) fun _ => .pure _
      · split
        · exact .bind (.addNode hC _) fun _ => .bind (.schedule hC _ _) fun _ => .pure _
        · exact .pure _
  · split
    · exact .pure _
    · refine .bind (hR.implied _ _ β) fun i => ?_
      split
      · exact .pure _
      · exact hR.loadModule _ _ β
  · split
    · split
      · exact .bind (.addEdge hC _ _ _) fun _ => .pure _
      · exact .pure _
    · exact .pure _

theorem processName_pres {rec : Calls W} (hR : Good A I E okRun rec) (a b : Node) (info : ImportInfo)
    (nm : ImpName) : PI I (processName env rec a b info nm) := by
  intro β
  unfold processName
  refine .bind .get fun s => ?_
  simp only []
  have link : ∀ (sub : Node) dep, PIb I β (M.bind (M.addEdge sub.ident b.ident defaultDep) fun _ =>
      M.addEdge a.ident sub.ident dep) := fun _ _ => .bind (.addEdge hC _ _ _) fun _ => .addEdge hC _ _ _
  have sub : PIb I β
      (M.bind (rec.findOrLoad (some a) (b.ident ++ '.' :: nm.name) false) fun sub =>
        M.bind M.get fun s =>
        if sub.isMissing then
          match b.kind with
          | .package _ init _ _ _ =>
            if init.name = c!"@@SIX_MOVES@@" then
              match sixMove nm.name with
              | some target =>
                M.bind (rec.findOrLoad (some a) target true) fun depNode =>
                M.addEdge a.ident depNode.ident defaultDep
              | none => M.bind (M.addEdge sub.ident b.ident defaultDep) fun _ =>
                  M.addEdge a.ident sub.ident (fromImportInfo info true nm.asname)
            else if (s.globalsWritten b).contains nm.name then M.pure ()
            else M.bind (M.addEdge sub.ident b.ident defaultDep) fun _ =>
                  M.addEdge a.ident sub.ident (fromImportInfo info true nm.asname)
          | _ => M.bind (M.addEdge sub.ident b.ident defaultDep) fun _ =>
                  M.addEdge a.ident sub.ident (fromImportInfo info true nm.asname)
        else M.bind (M.addEdge sub.ident b.ident defaultDep) fun _ =>
                  M.addEdge a.ident sub.ident (fromImportInfo info true nm.asname)) := by
    refine .bind (hR.findOrLoad _ _ _ β) fun sub => .bind .get fun s => ?_
    split
    · split
      · split
        · split
          · exact .bind (hR.findOrLoad _ _ _ β) fun _ => .addEdge hC _ _ _
          · exact link _ _
        · split
          · exact .pure _
          · exact link _ _
      · exact link _ _
    · exact link _ _
  split
  · split
    · exact .addEdge hC _ _ _
    · split
      · exact .pure _
      · exact sub
  · split
    · exact .pure _
    · exact sub

theorem processNames_pres {rec : Calls W} (hR : Good A I E okRun rec) (a b : Node)
    (info : ImportInfo) : PI I (processNames env rec a b info) := by
  intro β
  unfold processNames
  exact .bind (fun s hs => ⟨rfl, hC.addGlobals _ _ hs⟩) fun _ =>
    .forEach fun nm => processName_pres hC hR a b info nm β

theorem processNamelist_pres {rec : Calls W} (hR : Good A I E okRun rec) (a b : Node)
    (info : ImportInfo) : PI I (processNamelist env rec a b info) := by
  intro β
  unfold processNamelist
  refine .bind (.assert _) fun _ => ?_
  split
  · split
    · exact fun s hs => ⟨rfl, hC.addGlobals _ _ hs⟩
    · exact .pure _
  · split
    · split
      · refine .bind (fun s hs => ⟨rfl, hC.addGlobals _ _ hs⟩) fun _ => .bind (.findModule _) fun r => ?_
        split
        · exact .throw _
        · split
          · exact processNames_pres hC hR _ _ _ β
          · exact .pure _
      · exact processNames_pres hC hR _ _ _ β
    · exact .pure _

omit hC in
theorem addEdge_mem (s : St W) (a b d) : (a, b, d) ∈ (s.addEdge a b d).edges := by
  unfold St.addEdge; split
  · assumption
  · simp

/-- `_process_import` turns the invariant for the item being executed into the invariant
without it. -/
theorem processImport_pres {rec : Calls W} (hR : Good A I E okRun rec) (n : Node) (i : ImportInfo)
    (β : List Busy) (k : Nat) (s : St W) (hs : I ((.imp n i, k) :: β) s)
    (hRan : ∀ s', processImport rec n i s = (.ok (), s') → R (.imp n i) s s') :
    Out I E β s (processImport rec n i s) := by
  have bindE : ∀ {α : Type} {m : M W α} {f : α → M W Unit} {s : St W},
      PIb I ((.imp n i, k) :: β) m → I ((.imp n i, k) :: β) s →
      (∀ a s', m s = (.ok a, s') → I ((.imp n i, k) :: β) s' → Out I E β s' (f a s')) →
      Out I E β s (M.bind m f s) := fun hm hs hf => .bindItem hC (hm.toPEb hC) hs hf
  unfold processImport at hRan ⊢
  refine bindE (.ofExcept _) hs fun a s1 h1 hs1 => ?_
  rw [M.bind_of_ok h1] at hRan
  have ha : absoluteName n i = .ok a := by
    simp only [M.ofExcept, Prod.mk.injEq] at h1; exact h1.1
  split
  · refine bindE (.findModule _) hs1 fun r s2 h2 hs2 => ?_
    refine bindE ?_ hs2 fun node s3 h3 hs3 => ?_
    · split
      · exact .bind (.addNode hC _) fun _ => .bind (.schedule hC _ _) fun _ => .pure _
      · exact .bind (.assert _) fun _ => .pure _
    · refine bindE (.addEdge hC _ _ _) hs3 fun _ s4 h4 hs4 => ?_
      refine ⟨rfl, ?_⟩
      simp only [] at hRan
      rw [M.bind_of_ok h2, M.bind_of_ok h3, M.bind_of_ok h4] at hRan
      refine hC.finishInvalid hs4 ha ?_ ⟨s, hs, hRan _ rfl⟩
      unfold M.addEdge at h4
      split at h4
      · simp only [Prod.mk.injEq] at h4
        rw [← h4.2]; exact addEdge_mem _ _ _ _
      · simp at h4
  · refine bindE .get hs1 fun s2 s3 h2 hs3 => ?_
    refine bindE (hR.findOrLoad _ _ _ _) hs3 fun node s4 h4 hs4 => ?_
    refine bindE (.addEdge hC _ _ _) hs4 fun _ s5 h5 hs5 => ?_
    refine ⟨rfl, ?_⟩
    simp only [] at hRan
    rw [M.bind_of_ok h2, M.bind_of_ok h4, M.bind_of_ok h5] at hRan
    refine hC.finishImp _ hs5 ha ?_ ⟨s, hs, hRan _ rfl⟩
    unfold M.addEdge at h5
    split at h5
    · simp only [Prod.mk.injEq] at h5
      rw [← h5.2]; exact addEdge_mem _ _ _ _
    · simp at h5

theorem importPackage_pres {rec : Calls W} (hR : Good A I E okRun rec) (i : Node) (n : Str) :
    PE I E okRun (importPackageBody env rec i n) := by
  intro β hβ
  unfold importPackageBody
  refine .bind ((PIb.findModule _).toPEb hC) fun r => .bind ?_ fun node =>
    .bind ((PIb.addEdge hC _ _ _).toPEb hC) fun _ => ?_
  · have hm : PEb I E β (M.bind (match r with
      | some n => M.pure n
      | none => rec.findOrLoad none n true) fun node =>
        M.bind rec.runStack fun _ => M.pure node) := by
      refine .bind (PIb.toPEb hC ?_) fun _ => .bind (hR.runStack β hβ) fun _ => (PIb.pure _).toPEb hC
      split
      · exact .pure _
      · exact hR.findOrLoad _ _ _ β
    intro s hs
    obtain ⟨h1, h2⟩ := hm _ (hC.enter hβ hs)
    unfold M.savedStack
    refine ⟨rfl, ?_⟩
    simp only [] at h1 h2 ⊢
    generalize he : M.bind _ _ _ = q at h1 h2
    obtain ⟨r1, s1⟩ := q
    cases r1 with
    | ok a => exact hC.exit hβ hs h2 h1
    | error e => exact hC.exitE hβ hs h2 h1
  · apply PIb.toPEb hC
    split
    · exact .pure _
    · refine .bind (.ext hC _) fun sp => ?_
      split
      · exact .throw _
      · refine .bind (.forEach fun path => .bind (.ext hC _) fun _ => .bind (.forEach fun _ => ?_)
          fun _ => .bind (.ext hC _) fun _ => .forEach fun d => ?_) fun _ => .pure _
        · split
          · exact .pure _
          · exact .bind (hR.findOrLoad _ _ _ β) fun _ => .bind (.addEdge hC _ _ _) fun _ =>
              fun s hs => ⟨rfl, hC.pushPkg _ _ hs⟩
        · split
          · exact .pure _
          · exact fun s hs => ⟨rfl, hC.pushPkg _ _ hs⟩

/-- What is known when an item has completed. -/
def Ran (env : Env W) (it : Item) (s s' : St W) : Prop :=
  (∃ n, runItem env (calls env n) it s = (.ok (), s')) ∧ ∃ pre, s.log = pre ++ [.started it]

theorem runStack_pres {rec : Calls W} (hR : Good A I E okRun rec)
    (hRan : ∀ it s s', (∃ pre, s.log = pre ++ [.started it]) →
      runItem env rec it s = (.ok (), s') → R it s s') :
    PE I E okRun (runStackBody env rec) := by
  intro β hβ s hs
  unfold runStackBody
  rw [M.bind]
  unfold popItem
  cases hl : s.stack.getLast? with
  | none => exact ⟨rfl, hs⟩
  | some it =>
    simp only []
    have hst : s.stack = s.stack.dropLast ++ [it] := by
      obtain ⟨l, hl'⟩ := List.getLast?_eq_some_iff.mp hl
      simp [hl']
    have hp := hC.pop hβ hs hst
    generalize hs1 : { s with stack := s.stack.dropLast, log := s.log ++ [Event.started it] } = s1 at hp
    have hh : s.hidden = s1.hidden := by rw [← hs1]
    refine (show ∀ {r : Except Exc Unit × St W}, Out I E β s1 r → Out I E β s r from
      fun h => ⟨h.1.trans hh.symm, h.2⟩) ?_
    suffices h : Out I E β s1 (runItem env rec it s1) by
      unfold M.bind
      generalize runItem env rec it s1 = q at h ⊢
      obtain ⟨r2, s2⟩ := q
      cases r2 with
      | ok a =>
        obtain ⟨h3, h4⟩ := hR.runStack β hβ s2 h.2
        exact ⟨h3.trans h.1, h4⟩
      | error e => exact h
    have weak : PEb I E ((it, 0) :: β) (runItem env rec it) →
        (∀ {s1 s}, I ((it, 0) :: β) s1 → R it s1 s → I ((it, 0) :: β) s → I β s) →
        Out I E β s1 (runItem env rec it s1) := by
      intro hm hf
      have h := hm s1 hp
      refine ⟨h.1, ?_⟩
      have h2 := h.2
      split <;> rename_i he <;> rw [he] at h2
      · exact hf hp (hRan it s1 _ ⟨s.log, by rw [← hs1]⟩ (Prod.ext he rfl)) h2
      · exact hC.errItem h2
    cases it with
    | pp n => exact hR.callPost 0 n β s1 hβ hp fun s' k' hs' =>
        hC.finishPp hp (hRan (.pp n) s1 s' ⟨s.log, by rw [← hs1]⟩ hs')
    | imp n i => exact processImport_pres hC hR n i β 0 s1 hp fun s' h => hRan _ _ _ ⟨s.log, by rw [← hs1]⟩ h
    | nl a b i => exact weak ((processNamelist_pres hC hR a b i _).toPEb hC) hC.finishNl
    | pkg n name =>
      exact weak (.bind (hR.importPackage n name _ (hC.okPkg hβ)) fun _ => (PIb.pure _).toPEb hC)
        hC.finishPkg

theorem addModule_pres {rec : Calls W} (hR : Good A I E okRun rec) (n : Str) :
    PE I E okRun (addModule rec n) := by
  intro β hβ
  unfold addModule
  refine .bind ((PIb.findModule _).toPEb hC) fun r => .bind (PIb.toPEb hC ?_) fun node =>
    .bind ((PIb.addRoot hC _).toPEb hC) fun _ => .bind (hR.runStack β hβ) fun _ =>
    (PIb.pure _).toPEb hC
  split
  · exact .pure _
  · exact hR.findOrLoad _ _ _ β

theorem addScript_pres {rec : Calls W} (hR : Good A I E okRun rec) (n : Str) :
    PE I E okRun (addScript env rec n) := by
  intro β hβ
  unfold addScript
  refine .bind ((PIb.findModule _).toPEb hC) fun r => ?_
  split
  · exact (PIb.throw _).toPEb hC
  · exact .bind ((PIb.ext hC _).toPEb hC) fun _ => .bind ((PIb.addNode hC _).toPEb hC) fun _ =>
      .bind ((PIb.schedule hC _ _).toPEb hC) fun _ => .bind ((PIb.addRoot hC _).toPEb hC) fun _ =>
      .bind (hR.runStack β hβ) fun _ => (PIb.pure _).toPEb hC

theorem addDependencies_pres {rec : Calls W} (hR : Good A I E okRun rec) (n : Str) :
    PE I E okRun (addDependenciesForSource env rec n) := by
  intro β hβ
  unfold addDependenciesForSource
  exact .bind ((PIb.ext hC _).toPEb hC) fun _ => .forEach hC fun _ =>
    .bind (addModule_pres hC hR _ β hβ) fun _ => .forEach hC fun _ =>
    .bind (addModule_pres hC hR _ β hβ) fun _ => (PIb.pure _).toPEb hC

theorem addDistribution_pres {rec : Calls W} (hR : Good A I E okRun rec) (d : Dist) :
    PE I E okRun (addDistribution rec d) := by
  intro β hβ
  unfold addDistribution
  refine .bind ((PIb.findNode _).toPEb hC) fun r => ?_
  split
  · exact PIb.toPEb hC (.bind (.assert _) fun _ => .pure _)
  · exact .bind ((PIb.addNode hC _).toPEb hC) fun _ => .bind ((PIb.addRoot hC _).toPEb hC) fun _ =>
      .bind (PIb.toPEb hC (.forEach fun _ => .bind (hR.findOrLoad _ _ _ β) fun _ =>
        .addEdge hC _ _ _)) fun _ =>
      .bind (hR.runStack β hβ) fun _ => (PIb.pure _).toPEb hC

theorem addDistributionNamed_pres {rec : Calls W} (hR : Good A I E okRun rec) (n : Str) :
    PE I E okRun (addDistributionNamed env rec n) := by
  intro β hβ
  unfold addDistributionNamed
  refine .bind ((PIb.ext hC _).toPEb hC) fun r => ?_
  split
  · exact (PIb.throw _).toPEb hC
  · exact addDistribution_pres hC hR _ β hβ

theorem importModule_pres {rec : Calls W} (hR : Good A I E okRun rec) (i : Node) (n : Str) :
    PI I (importModule rec i n) := by
  intro β
  unfold importModule
  refine .bind (.findModule _) fun r => .bind ?_ fun _ => .bind (.addEdge hC _ _ _) fun _ => .pure _
  split
  · exact .pure _
  · exact hR.findOrLoad _ _ _ β

omit hC in
theorem foldl_pres {δ : Type} {P : St W → Prop} {f : St W → δ → St W} (h : ∀ s a, P s → P (f s a))
    (l : List δ) (s : St W) (hs : P s) : P (l.foldl f s) := by
  induction l generalizing s with
  | nil => exact hs
  | cons x xs ih => exact ih _ (h s x hs)

theorem apiBody_pres {rec : Calls W} (hR : Good A I E okRun rec) (o : ApiOp) (β : List Busy)
    (hA : A o) (hβ : okRun β ∨ o.NoRun) : PEb I E β (apiBody env rec o) := by
  have fin : ∀ {α : Type} {m : M W α} {f : α → Option Node}, PEb I E β m →
      PEb I E β (M.bind m fun n => M.pure (f n)) := fun h => .bind h fun _ => (PIb.pure _).toPEb hC
  have md : ∀ {f : St W → St W}, (∀ s, (f s).hidden = s.hidden) → (∀ s, I β s → I β (f s)) →
      PEb I E β (M.bind (M.modify f) fun _ => M.pure (none : Option Node)) := fun h1 h2 =>
    fin (f := fun _ => none) (PIb.toPEb hC fun s hs => ⟨h1 s, h2 s hs⟩)
  have no : ∀ {p : Prop}, okRun β ∨ p → (p → False) → okRun β := fun h hp => h.resolve_right hp
  cases o with
  | addScript p => exact fin (addScript_pres hC hR p β (no hβ id))
  | addModule p => exact fin (addModule_pres hC hR p β (no hβ id))
  | addDependenciesForSource p =>
    exact fin (f := fun _ => none) (addDependencies_pres hC hR p β (no hβ id))
  | addDistribution d => exact fin (addDistribution_pres hC hR d β (no hβ id))
  | addDistributionNamed d => exact fin (addDistributionNamed_pres hC hR d β (no hβ id))
  | importModule i n => exact fin ((importModule_pres hC hR i n β).toPEb hC)
  | importPackage i n => exact fin (hR.importPackage i n β (no hβ id))
  | runStack => exact fin (f := fun _ => none) (hR.runStack β (no hβ id))
  | addMissingHook h => exact md (fun _ => rfl) fun s hs => hC.missHook h hA hs
  | addPostHook h => exact md (fun _ => rfl) fun s hs => hC.postHook h hA hs
  | addExcludes l =>
    refine md (fun s => ?_) fun s hs => hC.exclude l hA hs
    exact foldl_pres (P := fun s' => s'.hidden = s.hidden) (f := addExclude) (fun _ _ h => h) l s rfl
  | addExcludesStr l => exact (PIb.throw _).toPEb hC
  | addImplies l =>
    refine md (fun s => ?_) fun s hs => hC.imply l hA hs
    refine foldl_pres (P := fun s' => s'.hidden = s.hidden) (fun s' p h => ?_) l s rfl
    unfold addImply; split <;> exact h
  | addNode n =>
    refine fin (f := fun _ => none) (PIb.toPEb hC fun s hs => ?_)
    unfold M.addNode
    split
    · exact ⟨rfl, hs⟩
    · rename_i h; exact ⟨rfl, hC.apiAddNode n hA hs (by simpa using h)⟩
  | addEdge a b d =>
    refine fin (f := fun _ => none) (PIb.toPEb hC fun s hs => ?_)
    unfold M.addEdge
    split
    · rename_i h
      simp only [Bool.and_eq_true] at h
      exact ⟨addEdge_hidden _ _ _ _, hC.apiAddEdge a b d hA hs h.1 h.2⟩
    · exact ⟨rfl, hs⟩
  | addRoot a =>
    refine fin (f := fun _ => none) (PIb.toPEb hC fun s hs => ?_)
    unfold M.addRoot
    split
    · rename_i h
      exact ⟨addRoot_hidden _ _, hC.apiAddRoot a hA hs h⟩
    · exact ⟨rfl, hs⟩
  | processImportList n i =>
    exact fin (f := fun _ => none) (PIb.toPEb hC fun s hs =>
      ⟨schedule_hidden s n i, hC.apiSchedule n i hA hs⟩)

theorem op_pres {rec : Calls W} (hR : Good A I E okRun rec) (o : ApiOp) (β : List Busy)
    (hA : A o) (hβ : okRun β ∨ o.NoRun) : PIb I β (opBody env rec o) := by
  intro s hs
  have h := apiBody_pres (env := env) hC hR o β hA hβ s hs
  unfold opBody
  cases hq : apiBody env rec o s with
  | mk r s' =>
    simp only [hq] at h
    cases r with
    | ok a => exact h
    | error e => exact ⟨h.1, hC.failed h.2⟩

include hH

theorem callMissing_pres {rec : Calls W} (hR : Good A I E okRun rec) (k : Nat) (i : Option Node)
    (n : Str) : PI I (callMissingBody env rec k i n) := by
  intro β
  unfold callMissingBody
  refine .bind .get fun s => ?_
  split
  · exact .pure _
  · refine .bind (fun s hs => ⟨rfl, hC.asked _ _ _ hs⟩) fun _ => .bind ?_ fun r => ?_
    · split
      · exact swigHook_pres hC i n β
      · rcases hH β with h | h
        · exact interp_run hC hR h.1 (h.2 _ _ _)
        · exact interp_noRun hC hR (h _ _ _)
    · split
      · exact .pure _
      · exact hR.callMissing _ _ _ β

include hP in
/-- The closure theorem for the methods. -/
theorem calls_good (n : Nat) (hRan : ∀ it s s', Ran env it s s' → R it s s' := by intros; trivial) :
    Good A I E okRun (calls env n) := by
  induction n with
  | zero =>
    have t : ∀ {α : Type} β, PIb I β (M.throw .fuel : M W α) := fun β => .throw _
    exact ⟨fun _ _ _ => t, fun _ _ => t, fun _ _ => t, fun _ _ => t, fun _ _ _ => t,
      fun _ _ β _ => (t β).toPEb hC, fun β _ => (t β).toPEb hC, fun _ _ β s _ hs _ => ⟨rfl, hC.errItem (hC.toE hs)⟩,
      fun _ β _ _ => t β⟩
  | succ n ih =>
    exact ⟨findOrLoad_pres hC ih, implied_pres hC ih, loadModule_pres hC ih,
      createMissing_pres hC ih, callMissing_pres hC hH ih, importPackage_pres hC ih,
      runStack_pres hC ih (fun it s s' h h' => hRan it s s' ⟨⟨n, h'⟩, h⟩), callPost_pres hC hP ih, op_pres hC ih⟩

include hP in
/-- The closure theorem for client programs. -/
theorem client_pres {β} (hβ : okRun β) (n : Nat) {p : Hook W} (hp : p.Only A) (s : St W)
    (hs : I β s) (hRan : ∀ it s s', Ran env it s s' → R it s s' := by intros; trivial) :
    I β (runClient env n p s).2 :=
  (interp_run hC (calls_good hC hP hH n hRan) hβ hp s hs).2

end

/-- Invariants that do not depend on the items being executed, are not weakened by exceptions
and allow work to be run at any time. -/
structure SimplyClosed (I : St W → Prop) : Prop where
  world : ∀ {s} w, I s → I { s with world := w }
  addNode : ∀ {s} n, I s → s.has n.ident = false → I (s.addNode n)
  addEdge : ∀ {s} a b d, I s → s.has a = true → s.has b = true → I (s.addEdge a b d)
  addRoot : ∀ {s} a, I s → s.has a = true → I (s.addRoot a)
  popExcluded : ∀ {s} name, I s → s.has name = false → s.lazy name = some .excluded →
    I (((s.popLazy name).addNode (excludedNode name)).schedule (excludedNode name) [])
  popOther : ∀ {s} name v, I s → s.has name = false → s.lazy name = some v → v ≠ .excluded →
    I (s.popLazy name)
  exclude : ∀ {s} name, I s → I (addExclude s name)
  imply : ∀ {s} p, I s → I (addImply s p)
  schedule : ∀ {s} n infos, I s → I (s.schedule n infos)
  addGlobals : ∀ {s} a names, I s → I (s.addGlobals a names)
  looked : ∀ {s}, I s → I (s.event (.looked s.nodes s.edges s.roots))
  called : ∀ {s} h n, I s → I (s.event (.called h n))
  asked : ∀ {s} h n i, I s → I (s.event (.asked h n i))
  failed : ∀ {s}, I s → I (s.event .failed)
  missHook : ∀ {s} h, I s → I { s with missHooks := h :: s.missHooks }
  postHook : ∀ {s} h, I s → I { s with postHooks := h :: s.postHooks }
  pushPkg : ∀ {s} n name, I s → I { s with stack := s.stack ++ [.pkg n name] }
  pop : ∀ {s st it}, I s → s.stack = st ++ [it] →
    I { s with stack := st, log := s.log ++ [.started it] }
  finishInvalid : ∀ {s n i t}, I s → absoluteName n i = .ok none →
    (n.ident, t, fromImportInfo i false none) ∈ s.edges →
    I (s.event (.imported n.ident i t))
  finishImp : ∀ {s n i t name} (offset : Nat), I s →
    absoluteName n i = .ok (some name) →
    (n.ident, t.ident, fromImportInfo i false i.importModule.asname) ∈ s.edges →
    I { s with stack := s.stack.take offset ++ [.nl n t i] ++ s.stack.drop offset,
               log := s.log ++ [.imported n.ident i t.ident] }
  enter : ∀ {s}, I s → I { s with stack := [], hidden := s.hidden ++ s.stack }
  exit : ∀ {s0 s}, I s0 → I s → s.hidden = s0.hidden ++ s0.stack →
    I { s with stack := s0.stack ++ s.stack, hidden := s0.hidden }

theorem SimplyClosed.closed {I : St W → Prop} (h : SimplyClosed I) :
    Closed (fun _ => True) (fun _ => I) (fun _ => I) (fun _ => True) where
  toE := id
  world := h.world
  addNode := h.addNode
  addEdge := h.addEdge
  addRoot := h.addRoot
  popExcluded := h.popExcluded
  popOther := h.popOther
  exclude := fun l _ hs => foldl_pres (fun _ _ h' => h.exclude _ h') l _ hs
  imply := fun l _ hs => foldl_pres (fun _ _ h' => h.imply _ h') l _ hs
  schedule := h.schedule
  addGlobals := h.addGlobals
  aAddModule := fun _ => trivial
  apiAddNode := fun n _ => h.addNode n
  apiAddEdge := fun a b d _ => h.addEdge a b d
  apiAddRoot := fun a _ => h.addRoot a
  apiSchedule := fun n i _ => h.schedule n i
  looked := h.looked
  called := fun _ _ hs _ => h.called _ _ hs
  asked := h.asked
  failed := h.failed
  missHook := fun k _ => h.missHook k
  postHook := fun k _ => h.postHook k
  pushPkg := h.pushPkg
  pop := fun _ => h.pop
  okPp := id
  okPkg := id
  finishPp := fun _ _ h _ => h
  finishPkg _ _ h := h
  finishNl _ _ h := h
  finishInvalid h1 h2 h3 _ := h.finishInvalid h1 h2 h3
  finishImp o h1 h2 h3 _ := h.finishImp o h1 h2 h3
  errItem := id
  enter := fun _ => h.enter
  exit := fun _ => h.exit
  exitE := fun _ => h.exit

theorem SimplyClosed.good {I : St W → Prop} (h : SimplyClosed I) (env : Env W) (n : Nat) :
    Good (fun _ => True) (fun _ => I) (fun _ => I) (fun _ => True) (calls env n) :=
  calls_good h.closed (fun _ _ => Hook.only_true _)
    (fun _ => .inl ⟨trivial, fun _ _ _ => Hook.only_true _⟩) n

theorem SimplyClosed.client {I : St W → Prop} (h : SimplyClosed I) {env : Env W} (n : Nat)
    (p : Hook W) (s : St W) (hs : I s) : I (runClient env n p s).2 :=
  (interp_run h.closed (h.good env n) (β := []) trivial (Hook.only_true p) s hs).2

theorem SimplyClosed.op {I : St W → Prop} (h : SimplyClosed I) {env : Env W} (n : Nat)
    (o : ApiOp) (s : St W) (hs : I s) : I ((calls env n).op o s).2 :=
  ((h.good env n).op o [] trivial (.inl trivial) s hs).2

end Verif
