import Verif.Proofs.Drain
import Verif.Spec.Demo
import Verif.Spec.GraphSpec
import Verif.Props.Structure
/-!
# C04, C05, C06, C07, C11, C44, C48: the work queue

`runClient env n p (initState ...)` is the run of an arbitrary client program `p` against a new
graph in an arbitrary outside world with arbitrary hooks; `log` is the history of the run.
-/
namespace Verif.Props
open Verif Spec

variable {W : Type}

/-! ## C04 -/

/-- C04: post-processing is started at most once for each node identifier, whatever the client
and the hooks do and whatever fails. -/
theorem C04_one_round (env : Env W) (n : Nat) (p : Hook W) (w : W) (stdlib : List (Str × Implies))
    (builtin : Bool) (id : Str) :
    ppStarted id (runClient env n p (initState w stdlib builtin)).2.log ≤ 1 := by
  have := (client_queue env n p w stdlib builtin).1.1.pp id
  split at this <;> omega

/-- C04, each single hook.  Missing for the full claim: hooks that register further
post-processing hooks while they run (see `C04_hook_called_twice`).  Then the hooks called for a
node are, in order, a contiguous part of the registered ones: each registration leads to at most
one call per node. -/
theorem C04_hooks_once_partial (env : Env W) (hP : ∀ k n, (env.userPost k n).Only ApiOp.NoReg)
    (hH : ∀ k i n, (env.userMissing k i n).Only ApiOp.NoReg) (n : Nat) (p : Hook W) (w : W)
    (stdlib : List (Str × Implies)) (builtin : Bool) (id : Str) :
    let s := (runClient env n p (initState w stdlib builtin)).2
    calledFor id s.log <:+: s.postHooks ∧
      ∀ h, (calledFor id s.log).count h ≤ s.postHooks.count h := by
  intro s
  have h := (client_rounds env hP hH n p _ (init_rounds w stdlib builtin)).2.1.past id (by simp)
  exact ⟨h, fun k => h.sublist.count_le k⟩

/-- The full claim fails: a hook that registers another hook while it runs is called again for
the same node, because the list of hooks is extended at the front while it is iterated over. -/
theorem C04_hook_called_twice :
    let t : Demo.Table := { mods := [(c!"a", Demo.src c!"a", [])]
                            post := fun k _ => if k = 0
                              then .look fun s => if s.postHooks.contains (.user 1) then .ret none
                                else .call (.addPostHook (.user 1)) fun _ => .ret none
                              else .ret none }
    calledFor c!"a" (Demo.run t [.addPostHook (.user 0), .addModule c!"a"]).2.log =
      [.user 0, .user 0, .mypyc] := by decide +kernel

example : calledFor c!"a" (Demo.run Demo.small [.addPostHook (.user 0), .addModule c!"a",
    .addModule c!"a", .processImportList (Demo.src c!"a") [], .runStack]).2.log =
      [.user 0, .mypyc] := by decide +kernel

/-! ## C05 -/

/-- C05: a node for which processing was scheduled has its post-processing call, or that is
queued, never both. -/
theorem C05_called_or_queued (env : Env W) (n : Nat) (p : Hook W) (w : W)
    (stdlib : List (Str × Implies)) (builtin : Bool) (id : Str) :
    let s := (runClient env n p (initState w stdlib builtin)).2
    Scanned id s.log → ppPending id s.stack + ppStarted id s.log = 1 := by
  intro s hs
  have q := (client_queue env n p w stdlib builtin).1.1
  have h := q.pp id
  rw [if_pos ((q.seen id).mpr hs)] at h
  have hh : s.hidden = [] := by
    show (runClient env n p (initState w stdlib builtin)).2.hidden = []
    rw [client_hidden]; exact (initState_fields w stdlib builtin).1
  have h' : ppPending id (pending s) + ppStarted id s.log = 1 := h
  simpa [pending, hh] using h'

/-- C05: nothing else is post-processed. -/
theorem C05_only_scheduled (env : Env W) (n : Nat) (p : Hook W) (w : W)
    (stdlib : List (Str × Implies)) (builtin : Bool) (id : Str) :
    let s := (runClient env n p (initState w stdlib builtin)).2
    ppStarted id s.log ≠ 0 → Scanned id s.log := by
  intro s hs
  have q := (client_queue env n p w stdlib builtin).1.1
  have h : ppPending id (pending s) + ppStarted id s.log = if id ∈ s.seen then 1 else 0 := q.pp id
  apply (q.seen id).mp
  apply Classical.byContradiction
  intro hn
  rw [if_neg hn] at h
  omega

/-- C05: when the queue is empty there was exactly one call for each such node; if no call
failed and hooks do not register hooks, this means that all hooks registered at that time ran
(the ones registered by the client later are at the front of the list). -/
theorem C05_exactly_once (env : Env W) (hP : ∀ k n, (env.userPost k n).Only ApiOp.NoReg)
    (hH : ∀ k i n, (env.userMissing k i n).Only ApiOp.NoReg) (n : Nat) (p : Hook W) (w : W)
    (stdlib : List (Str × Implies)) (builtin : Bool) (id : Str) :
    let s := (runClient env n p (initState w stdlib builtin)).2
    s.stack = [] → Scanned id s.log →
      ppStarted id s.log = 1 ∧ (Event.failed ∉ s.log → calledFor id s.log <:+ s.postHooks) := by
  intro s hst hs
  have h1 : ppPending id s.stack + ppStarted id s.log = 1 :=
    C05_called_or_queued env n p w stdlib builtin id hs
  rw [hst] at h1
  have h2 : ppStarted id s.log = 1 := by simpa [ppPending] using h1
  exact ⟨h2, fun hf => (client_rounds env hP hH n p _ (init_rounds w stdlib builtin)).2.2 hf id
    (by simp) (by show ppStarted id s.log ≠ 0; omega)⟩

example : Scanned c!"p.q" (Demo.run Demo.small [.addModule c!"a"]).2.log :=
  ⟨[Demo.imp c!"a"], by decide +kernel⟩
example : (Demo.run Demo.small [.addModule c!"a"]).2.stack = [] := by decide +kernel

/-! ## C06 -/

/-- C06: when a post-processing hook is called for a node (and nothing failed before), each
import statement found in that node before its post-processing started has been completed; whoever
looks at the graph from then on sees the edge, with the information of the statement.

Missing hooks may use `import_module`, `import_package` is excluded like the `add_*` calls because
it also processes the queue. -/
theorem C06_imports_first (env : Env W)
    (hH : ∀ k i n, (env.userMissing k i n).Only ApiOp.NoRun) (n : Nat) (p : Hook W) (w : W)
    (stdlib : List (Str × Implies)) (builtin : Bool)
    (before after : List Event) (h : PostHook) (id : Str)
    (hlog : (runClient env n p (initState w stdlib builtin)).2.log =
      before ++ .called h id :: after) (hf : Event.failed ∉ before) :
    ∃ pre node post, before = pre ++ .started (.pp node) :: post ∧ node.ident = id ∧
      ∀ infos i, Event.scheduled id infos ∈ pre → i ∈ infos →
        impDone id i pre = impFound id i pre ∧
        ∀ g ∈ seenViews after, ∃ target as, (id, target, fromImportInfo i false as) ∈ g.edges ∧
          (as = i.importModule.asname ∨ (i.importLevel ≠ 0 ∧ as = none)) := by
  obtain ⟨⟨q, d, o⟩, c⟩ := client_queue_order env hH n p w stdlib builtin
  obtain ⟨node, hid, hm⟩ := c.calls _ _ _ _ hlog
  obtain ⟨pre, post, hpre⟩ := List.append_of_mem hm
  refine ⟨pre, node, post, hpre, hid, ?_⟩
  intro infos i hs hi
  have hlog' := hlog
  rw [hpre] at hlog'
  have hd := (o rfl).done pre node (post ++ .called h id :: after) (by rw [hlog']; simp)
    (fun hc => hf (by rw [hpre]; simp [hc])) i
  rw [hid] at hd
  refine ⟨hd.symm, ?_⟩
  have hpos : 0 < impDone id i pre := by
    rw [← hd]
    clear hd hpre hlog' hlog hm
    induction pre with
    | nil => simp at hs
    | cons e l ih =>
      rcases List.mem_cons.mp hs with rfl | hs
      · simp only [impFound]
        have := List.count_pos_iff.mpr hi
        simp only [↓reduceIte]
        omega
      · have := ih hs
        cases e <;> simp only [impFound] <;> omega
  obtain ⟨e, he, hei⟩ := List.countP_pos_iff.mp hpos
  cases e with
  | imported id' j t =>
    simp only [isImported, Bool.and_eq_true, beq_iff_eq] at hei
    obtain ⟨rfl, rfl⟩ := hei
    intro g hg
    obtain ⟨ev, hev, hge⟩ := List.mem_filterMap.mp hg
    cases ev with
    | looked gn ge gr =>
      simp only [Option.some.injEq] at hge
      subst hge
      obtain ⟨a1, a2, ha⟩ := List.append_of_mem hev
      obtain ⟨as, h1, h2⟩ := q.edgeSeen (before ++ .called h id' :: a1) gn ge gr a2
        (by rw [hlog, ha]; simp) id' j t (by rw [hpre]; simp [he])
      exact ⟨t, as, h1, h2⟩
    | _ => simp at hge
  | _ => simp [isImported] at hei

/-- A hook that looks at the graph, in a run without failures; `a` imports `b` and `m`. -/
example :
    let t : Demo.Table := { Demo.small with post := fun _ _ => .look fun _ => .ret none }
    let log := (Demo.run t [.addPostHook (.user 0), .addModule c!"a"]).2.log
    Event.failed ∉ log ∧ calledFor c!"a" log ≠ [] ∧ (seenViews log).length = 6 ∧
      impDone c!"a" (Demo.imp c!"m") log = 1 := by decide +kernel

/-! ## C07 -/

/-- Every import statement found was completed, if no call failed and the queue is empty. -/
theorem C07_completed (env : Env W) (n : Nat) (p : Hook W) (w : W)
    (stdlib : List (Str × Implies)) (builtin : Bool) :
    let s := (runClient env n p (initState w stdlib builtin)).2
    Event.failed ∉ s.log → s.stack = [] →
    ∀ id infos i, Event.scheduled id infos ∈ s.log → i ∈ infos →
      ∃ target, Event.imported id i target ∈ s.log := by
  intro s hf hst id infos i hs hi
  obtain ⟨⟨q, d, _⟩, _⟩ := client_queue env n p w stdlib builtin
  have hh : s.hidden = [] := by
    show (runClient env n p (initState w stdlib builtin)).2.hidden = []
    rw [client_hidden]; exact (initState_fields w stdlib builtin).1
  have h1 : impPending id i (pending s) + impStarted id i s.log = impFound id i s.log := q.imp id i
  have h2 : impStarted id i s.log = impDone id i s.log + impPending id i [] := d hf id i
  have hp : impPending id i (pending s) = 0 := by simp [pending, hh, hst, impPending]
  have h0 : impPending id i [] = 0 := by simp [impPending]
  have hpos : 0 < impFound id i s.log := by
    clear h1 h2 hf
    generalize s.log = log at hs
    induction log with
    | nil => simp at hs
    | cons e l ih =>
      rcases List.mem_cons.mp hs with rfl | hs
      · simp only [impFound, ↓reduceIte]
        have := List.count_pos_iff.mpr hi
        omega
      · have := ih hs
        cases e <;> simp only [impFound] <;> omega
  have hd : 0 < impDone id i s.log := by omega
  obtain ⟨e, he, hei⟩ := List.countP_pos_iff.mp hd
  cases e with
  | imported id' j t =>
    simp only [isImported, Bool.and_eq_true, beq_iff_eq] at hei
    obtain ⟨rfl, rfl⟩ := hei
    exact ⟨t, he⟩
  | _ => simp [isImported] at hei

/-- C07: if no call failed and the queue is empty, then every import statement found in a scan of
a module or script has an edge from that node with the statement's information.  (For a relative
import to outside of the top-level package the edge carries no `as` name.) -/
theorem C07_every_import_has_edge (env : Env W) (n : Nat) (p : Hook W) (w : W)
    (stdlib : List (Str × Implies)) (builtin : Bool) :
    let s := (runClient env n p (initState w stdlib builtin)).2
    Event.failed ∉ s.log → s.stack = [] →
    ∀ id infos i, Event.scheduled id infos ∈ s.log → i ∈ infos →
      ∃ target as, (id, target, fromImportInfo i false as) ∈ s.edges ∧
        (as = i.importModule.asname ∨ (i.importLevel ≠ 0 ∧ as = none)) := by
  intro s hf hst id infos i hs hi
  obtain ⟨⟨q, _, _⟩, _⟩ := client_queue env n p w stdlib builtin
  obtain ⟨t, he⟩ := C07_completed env n p w stdlib builtin hf hst id infos i hs hi
  obtain ⟨as, h1, h2⟩ := q.edge id i t he
  exact ⟨t, as, h1, h2⟩

example :
    let s := (Demo.run Demo.small [.addScript c!"/s.py"]).2
    Event.failed ∉ s.log ∧ s.stack = [] ∧
      Event.scheduled c!"a" [Demo.imp c!"b", Demo.imp c!"m"] ∈ s.log := by decide +kernel

/-! ## C11 -/

/-- C11: once a name was excluded, it stays excluded until there is a node for it: any program of
the client (with any hooks, any failures) can follow. -/
theorem C11_excluded_stays (env : Env W) (n : Nat) (p : Hook W) (s : St W) (names : List Str)
    (name : Str) (hn : name ∈ names) :
    let s1 := ((calls env (n + 1)).op (.addExcludes names) s).2
    let s2 := (runClient env (n + 1) p s1).2
    s2.has name = true ∨ s2.lazy name = some .excluded := by
  intro s1 s2
  refine (excludedClosed (W := W) name).client (env := env) (n + 1) p s1 (.inr ?_)
  show (names.foldl addExclude s).lazy name = some .excluded
  clear s1 s2
  induction names generalizing s with
  | nil => simp at hn
  | cons x l ih =>
    rw [List.foldl_cons]
    by_cases hx : name ∈ l
    · exact ih _ hx
    · have : name = x := by
        rcases List.mem_cons.mp hn with h | h
        · exact h
        · exact absurd h hx
      subst this
      clear ih
      have : ∀ (l : List Str) (s : St W), s.lazy name = some .excluded →
          (l.foldl addExclude s).lazy name = some .excluded := by
        intro l
        induction l with
        | nil => intro s h; exact h
        | cons y l ih =>
          intro s h
          rw [List.foldl_cons]
          apply ih
          simp [addExclude, h]
      exact this l _ (by simp [addExclude])

/-- C11, in observable terms: after any such program, the next import of the (top-level) name finds
the node that is already there, or makes an `ExcludedModule` without asking the import system. -/
theorem C11_excluded_observable (env : Env W) (n : Nat) (p : Hook W) (s : St W) (names : List Str)
    (name : Str) (hn : name ∈ names) (hd : splitPackage name = .ok (none, name)) :
    let s2 := (runClient env (n + 3) p ((calls env (n + 3)).op (.addExcludes names) s).2).2
    s2.has name = false →
    ∃ s3, (calls env (n + 2)).findOrLoad none name true s2 = (.ok (excludedNode name), s3) ∧
      s3.world = s2.world ∧ s3.nodes = s2.nodes ++ [excludedNode name] ∧ s3.edges = s2.edges := by
  intro s2 hh
  have hl : s2.lazy name = some .excluded := by
    rcases C11_excluded_stays env (n + 2) p s names name hn with h | h
    · exact absurd (h : s2.has name = true) (by rw [hh]; simp)
    · exact h
  have hfind : s2.find name = none := by
    unfold St.has at hh
    unfold St.find
    simpa using hh
  have hsch : ∀ (s : St W) m i, (s.schedule m i).world = s.world ∧
      (s.schedule m i).nodes = s.nodes ∧ (s.schedule m i).edges = s.edges := by
    intro s m i
    unfold St.schedule; simp only []; split <;> exact ⟨rfl, rfl, rfl⟩
  refine ⟨((s2.popLazy name).addNode (excludedNode name)).schedule (excludedNode name) [], ?_, ?_⟩
  · have hi : impliedBody (calls env n) none name s2 = (.ok (some (excludedNode name)),
        ((s2.popLazy name).addNode (excludedNode name)).schedule (excludedNode name) []) := by
      unfold impliedBody
      rw [M.bind_of_ok (M.findNode_apply s2 name), hfind]
      simp only []
      rw [M.bind_of_ok (M.get_apply s2), hl]
      simp only []
      rw [M.bind_of_ok (M.modify_apply s2 _)]
      have ha : M.addNode (excludedNode name) (s2.popLazy name) =
          (.ok (), (s2.popLazy name).addNode (excludedNode name)) := by
        unfold M.addNode
        rw [if_neg]
        show ¬ (s2.has name = true)
        rw [hh]; simp
      rw [show (fun k => if k = name then none else s2.lazy k) = (s2.popLazy name).lazy from rfl]
      rw [show ({ s2 with lazy := (s2.popLazy name).lazy } : St W) = s2.popLazy name from rfl]
      rw [M.bind_of_ok ha]
      rfl
    show findOrLoadBody (calls env (n + 1)) none name true s2 = _
    unfold findOrLoadBody
    rw [M.bind_of_ok (a := none) (s' := s2) (by unfold M.findModule; rw [hfind])]
    simp only []
    rw [M.bind_of_ok (a := (none, name)) (s' := s2) (by rw [hd]; rfl)]
    simp only []
    rw [M.bind_of_ok (m := M.pure (none, none)) (a := (none, none)) (s' := s2) rfl]
    simp only []
    rw [M.bind_of_ok (a := excludedNode name)
      (s' := ((s2.popLazy name).addNode (excludedNode name)).schedule (excludedNode name) [])]
    · rfl
    · rw [M.bind_of_ok (show (calls env (n + 1)).implied none name s2 = _ from hi)]
      rfl
  · obtain ⟨h1, h2, h3⟩ := hsch ((s2.popLazy name).addNode (excludedNode name)) (excludedNode name) []
    exact ⟨h1, h2, h3⟩

example : splitPackage c!"numpy" = .ok (none, c!"numpy") := by decide +kernel
example :
    let s := (Demo.run Demo.small [.addExcludes [c!"b"], .addImplies [(c!"b", .alias c!"a")],
      .addImplies [(c!"b", .refs [c!"q"])]]).2
    s.has c!"b" = false ∧ s.lazy c!"b" = some .excluded := by decide +kernel
example :
    (Demo.run Demo.small [.addExcludes [c!"b"], .addImplies [(c!"b", .alias c!"a")],
      .addModule c!"a"]).2.find c!"b" = some (excludedNode c!"b") := by decide +kernel

/-! ## C44 -/

/-- C44: `add_module`, `add_script`, and leaving a hook context, only return with an
empty queue. -/
theorem C44_drained (env : Env W) (n : Nat) (o : ApiOp) (s s' : St W) (r : Option Node)
    (ho : (∃ m, o = .addModule m) ∨ (∃ f, o = .addScript f) ∨ o = .runStack)
    (h : (calls env n).op o s = (.ok r, s')) : s'.stack = [] := by
  cases n with
  | zero => simp [calls, callsZero, M.throw] at h
  | succ n =>
    have h' : opBody env (calls env n) o s = (.ok r, s') := h
    have ha : apiBody env (calls env n) o s = (.ok r, s') := by
      unfold opBody at h'
      split at h' <;> simp_all
    rcases ho with ⟨m, rfl⟩ | ⟨f, rfl⟩ | rfl
    · obtain ⟨_, _, h1, h2⟩ := M.bind_ok ha
      obtain ⟨_, rfl⟩ := M.pure_ok h2
      exact addModule_drains env n h1
    · obtain ⟨_, _, h1, h2⟩ := M.bind_ok ha
      obtain ⟨_, rfl⟩ := M.pure_ok h2
      obtain ⟨r, s2, _, h1⟩ := M.bind_ok h1
      cases r with
      | some _ => simp [M.throw] at h1
      | none =>
        obtain ⟨_, _, _, h1⟩ := M.bind_ok h1
        obtain ⟨_, _, _, h1⟩ := M.bind_ok h1
        obtain ⟨_, _, _, h1⟩ := M.bind_ok h1
        obtain ⟨_, _, _, h1⟩ := M.bind_ok h1
        obtain ⟨_, _, h3, h1⟩ := M.bind_ok h1
        obtain ⟨_, rfl⟩ := M.pure_ok h1
        exact runStack_drains env n h3
    · obtain ⟨_, _, h1, h2⟩ := M.bind_ok ha
      obtain ⟨_, rfl⟩ := M.pure_ok h2
      exact runStack_drains env n h1

/-- C44 for `add_distribution`.  Missing for the full claim: a distribution that is already in
the graph, while work is queued (see `C44_distribution_not_drained`). -/
theorem C44_distribution_drained_partial (env : Env W) (n : Nat) (d : Dist) (s s' : St W)
    (r : Option Node) (hd : s.find d.identifier = none ∨ s.stack = [])
    (h : (calls env n).op (.addDistribution d) s = (.ok r, s')) : s'.stack = [] := by
  cases n with
  | zero => simp [calls, callsZero, M.throw] at h
  | succ n =>
    have h' : opBody env (calls env n) (.addDistribution d) s = (.ok r, s') := h
    have ha : apiBody env (calls env n) (.addDistribution d) s = (.ok r, s') := by
      unfold opBody at h'
      split at h' <;> simp_all
    obtain ⟨_, _, h1, h2⟩ := M.bind_ok ha
    obtain ⟨_, rfl⟩ := M.pure_ok h2
    obtain ⟨f, s1, hf, h1⟩ := M.bind_ok h1
    rw [M.findNode_apply] at hf
    simp only [Prod.mk.injEq, Except.ok.injEq] at hf
    obtain ⟨hf, rfl⟩ := hf
    cases f with
    | some nd =>
      rcases hd with hd | hd
      · rw [hd] at hf; simp at hf
      · obtain ⟨_, s2, h3, h4⟩ := M.bind_ok h1
        obtain ⟨_, rfl⟩ := M.pure_ok h4
        unfold M.assert at h3
        split at h3
        · obtain ⟨_, rfl⟩ := M.pure_ok h3
          exact hd
        · simp [M.throw] at h3
    | none =>
      obtain ⟨_, _, _, h1⟩ := M.bind_ok h1
      obtain ⟨_, _, _, h1⟩ := M.bind_ok h1
      obtain ⟨_, _, _, h1⟩ := M.bind_ok h1
      obtain ⟨_, _, h3, h1⟩ := M.bind_ok h1
      obtain ⟨_, rfl⟩ := M.pure_ok h1
      exact runStack_drains env n h3

/-- The full claim fails for `add_distribution`: work that was left over by an earlier failure is
not processed if the distribution is already in the graph, although the call returns normally. -/
theorem C44_distribution_not_drained :
    let d : Dist := { identifier := c!"/d", name := c!"d", importNames := [] }
    let t : Demo.Table := { Demo.small with post := fun _ _ => .raise .runtimeError }
    let s := (Demo.run t [.addDistribution d, .addPostHook (.user 0), .addModule c!"a"]).2
    let r := (calls (Demo.env t) 30).op (.addDistribution d) s
    r.1 = .ok (some (distNode d)) ∧ r.2.stack ≠ [] := by decide +kernel

/-- C44: no operation loses queued work, however it ends: each kind of item is at least as often
queued or started as before. -/
theorem C44_not_lost (env : Env W) (n : Nat) (o : ApiOp) (s : St W) (it : Item) :
    let s' := ((calls env n).op o s).2
    (pending s).count it + s.log.count (.started it) ≤
      (pending s').count it + s'.log.count (.started it) := by
  intro s'
  have h := (notLostClosed s).op (env := env) n o s (fun _ => Nat.le_refl _) (· == it)
  have e : ∀ l : List Event, l.countP (isStart (· == it)) = l.count (.started it) := by
    intro l
    unfold List.count
    congr 1
    funext e
    cases e <;> simp [isStart, BEq.beq]
  rw [e, e] at h
  exact h

example : ((calls (Demo.env Demo.small) 30).op (.addModule c!"a") (initState () [] true)).1 =
    .ok (some (Demo.src c!"a")) := by decide +kernel

/-! ## C48 -/

/-- C48: whatever failed before, the first `add_module`, `add_script` or hook context that returns
normally has started everything that was left in the queue.  (That the structural guarantees hold
after failures is part of `C01_unique_ids`, `C02_no_dangling`, `C04_one_round`,
`C05_called_or_queued`, which speak about all programs including failing calls.) -/
theorem C48_rest_processed (env : Env W) (n : Nat) (o : ApiOp) (s s' : St W) (r : Option Node)
    (hh : s.hidden = [])
    (ho : (∃ m, o = .addModule m) ∨ (∃ f, o = .addScript f) ∨ o = .runStack)
    (h : (calls env n).op o s = (.ok r, s')) (it : Item) :
    s.log.count (.started it) + s.stack.count it ≤ s'.log.count (.started it) := by
  have h1 := C44_not_lost env n o s it
  have h2 := C44_drained env n o s s' r ho h
  have h3 := op_hidden env n o s
  rw [h] at h1 h3
  simp only [pending] at h1
  rw [hh, show s'.hidden = [] from h3.trans hh, h2] at h1
  simpa [Nat.add_comm] using h1

/-- C48: the guarantees in one place, for any client program (with failing calls at any point). -/
theorem C48_after_failures (env : Env W) (n : Nat) (p : Hook W) (w : W)
    (stdlib : List (Str × Implies)) (builtin : Bool) :
    let s := (runClient env n p (initState w stdlib builtin)).2
    UniqueIds (view s) ∧ NoDangling (view s) ∧ s.hidden = [] ∧ (∀ id, ppStarted id s.log ≤ 1) ∧
    (∀ id, Scanned id s.log → ppPending id s.stack + ppStarted id s.log = 1) ∧
    ∀ id i, impPending id i s.stack + impStarted id i s.log = impFound id i s.log := by
  intro s
  have hh : s.hidden = [] := by
    show (runClient env n p (initState w stdlib builtin)).2.hidden = []
    rw [client_hidden]; exact (initState_fields w stdlib builtin).1
  refine ⟨(C01_unique_ids env n p w stdlib builtin).1, (C02_no_dangling env n p w stdlib builtin).1, hh,
    C04_one_round env n p w stdlib builtin,
    C05_called_or_queued env n p w stdlib builtin, fun id i => ?_⟩
  have h : impPending id i (pending s) + impStarted id i s.log = impFound id i s.log :=
    (client_queue env n p w stdlib builtin).1.1.imp id i
  rwa [show pending s = s.stack by simp [pending, hh]] at h

/-- C48: after any client program, also one with failed calls, the next such call that returns normally has
started everything that was left in the queue. -/
theorem C48_next_call (env : Env W) (n : Nat) (p : Hook W) (w : W) (stdlib : List (Str × Implies)) (builtin : Bool)
    (m : Nat) (o : ApiOp) (s' : St W) (r : Option Node)
    (ho : (∃ m, o = .addModule m) ∨ (∃ f, o = .addScript f) ∨ o = .runStack)
    (h : (calls env m).op o (runClient env n p (initState w stdlib builtin)).2 = (.ok r, s')) :
    ∀ it ∈ (runClient env n p (initState w stdlib builtin)).2.stack, Event.started it ∈ s'.log := by
  intro it hi
  have h1 := C48_rest_processed env m o _ s' r (C48_after_failures env n p w stdlib builtin).2.2.1 ho h it
  have h2 := List.count_pos_iff.mpr hi
  exact List.count_pos_iff.mp (by omega)

/-- A run with a failure that leaves work in the queue, which a later call completes. -/
example :
    let t : Demo.Table := { Demo.small with
      post := fun _ n => if n.ident = c!"m" then .raise .runtimeError else .ret none }
    let s := (Demo.run t [.addPostHook (.user 0), .addModule c!"a"]).2
    s.stack ≠ [] ∧ Event.failed ∈ s.log ∧ s.hidden = [] ∧
    ((calls (Demo.env t) 30).op .runStack s).1 = .ok none ∧
    ((calls (Demo.env t) 30).op .runStack s).2.stack = [] := by decide +kernel

end Verif.Props
