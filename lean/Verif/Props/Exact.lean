import Verif.Proofs.DistLinks
import Verif.Proofs.ExactDone
import Verif.Props.Roots
/-!
# C61: the graph is determined by what was asked for
-/
namespace Verif.Props
open Verif M Spec
variable {W : Type}

/-! ## Configuration -/

theorem imply_lazy (l : List (Str × Implies)) (s : St W) (x : Str) :
    (l.foldl addImply s).lazy x =
      if s.lazy x = some .excluded ∨ (x, .excluded) ∈ l then some .excluded
      else ((l.reverse.find? fun p => p.1 = x).map Prod.snd).or (s.lazy x) := by
  induction l generalizing s with
  | nil => simp
  | cons a l ih =>
    obtain ⟨k, v⟩ := a
    rw [List.foldl_cons, ih]
    simp only [List.reverse_cons, List.find?_append, List.mem_cons, Prod.mk.injEq]
    unfold addImply
    by_cases hk : x = k
    · subst hk
      by_cases hs : s.lazy x = some .excluded
      · simp [hs]
      · by_cases hv : v = .excluded
        · subst hv
          simp [hs]
        · simp only [hs, if_false, false_or, ite_true]
          have : ¬ (Implies.excluded = v) := fun h => hv h.symm
          simp only [this, and_false, false_or, hv, Option.some.injEq]
          split
          · rfl
          · cases hfind : List.find? (fun p => decide (p.1 = x)) l.reverse <;> simp
    · have : (if s.lazy k = some .excluded then s
          else { s with lazy := fun j => if j = k then some v else s.lazy j }).lazy x = s.lazy x := by
        split
        · rfl
        · simp [hk]
      rw [this]
      have hk' : ¬ k = x := fun h => hk h.symm
      simp [hk, hk']

theorem exclude_lazy (l : List Str) (s : St W) (x : Str) :
    (l.foldl addExclude s).lazy x = if x ∈ l then some .excluded else s.lazy x := by
  induction l generalizing s with
  | nil => simp
  | cons a l ih =>
    rw [List.foldl_cons, ih]
    by_cases h : x = a
    · simp [addExclude, h]
    · simp [addExclude, h]

/-- The state after configuring. -/
def confState (w : W) (stdlib : List (Str × Implies)) (builtin : Bool) (excludes : List Str)
    (implies : List (Str × Implies)) : St W :=
  implies.foldl addImply (excludes.foldl addExclude (initState w stdlib builtin))

theorem conf_lazy (w : W) (stdlib builtin excludes implies) (x : Str) :
    (confState w stdlib builtin excludes implies).lazy x = configured excludes (stdlib ++ implies) x := by
  unfold confState
  rw [imply_lazy, exclude_lazy]
  have h0 : (initState w stdlib builtin).lazy x =
      (stdlib.foldl addImply ({ world := w, lazy := fun k => if k = c!"__main__" then some .excluded else none } : St W)).lazy x := by
    unfold initState
    simp only []
    split <;> rfl
  rw [h0, imply_lazy]
  unfold configured
  simp only [List.reverse_append, List.find?_append, List.mem_append]
  by_cases h1 : x = c!"__main__"
  · simp [h1]
  by_cases h2 : x ∈ excludes
  · simp [h1, h2]
  by_cases h3 : (x, Implies.excluded) ∈ stdlib
  · simp [h1, h2, h3]
  by_cases h4 : (x, Implies.excluded) ∈ implies
  · simp [h1, h2, h3, h4]
  simp only [h1, h2, h3, h4, if_false, or_self, Option.or_none, or_false]
  have hne : (List.find? (fun p => decide (p.1 = x)) stdlib.reverse).map Prod.snd ≠ some .excluded := by
    intro h
    obtain ⟨p, hp, hs⟩ := Option.map_eq_some_iff.mp h
    have hm := List.mem_of_find?_eq_some hp
    have hx := List.find?_some hp
    simp only [decide_eq_true_eq] at hx
    obtain ⟨a, b⟩ := p
    simp only at hx hs
    subst hx hs
    exact h3 (List.mem_reverse.mp hm)
  simp [hne]
  cases List.find? (fun p => decide (p.1 = x)) implies.reverse <;> simp

theorem conf_run (env : Env W) (n : Nat) (p : Hook W) (w : W) (stdlib builtin excludes implies) :
    runClient env (n + 1) (configureThen excludes implies p) (initState w stdlib builtin) =
      runClient env (n + 1) p (confState w stdlib builtin excludes implies) := rfl

theorem conf_rest (w : W) (stdlib builtin excludes implies) :
    let s := confState w stdlib builtin excludes implies
    s.nodes = [] ∧ s.edges = [] ∧ s.roots = [] ∧ (∀ k, s.gw k = []) ∧ pending s = [] ∧ s.log = [] := by
  have key : ∀ s : St W, (s.nodes = [] ∧ s.edges = [] ∧ s.roots = [] ∧ (∀ k, s.gw k = []) ∧
      pending s = [] ∧ s.log = []) → ∀ p, (addImply s p).nodes = [] ∧ (addImply s p).edges = [] ∧
      (addImply s p).roots = [] ∧ (∀ k, (addImply s p).gw k = []) ∧ pending (addImply s p) = [] ∧
      (addImply s p).log = [] := by
    intro s h p
    unfold addImply
    split <;> exact h
  refine foldl_pres (P := fun s : St W => s.nodes = [] ∧ s.edges = [] ∧ s.roots = [] ∧ (∀ k, s.gw k = []) ∧
    pending s = [] ∧ s.log = []) (fun s a h => key s h a) implies _ ?_
  refine foldl_pres (P := fun s : St W => s.nodes = [] ∧ s.edges = [] ∧ s.roots = [] ∧ (∀ k, s.gw k = []) ∧
    pending s = [] ∧ s.log = []) (f := addExclude) (fun s a h => h) excludes _ ?_
  unfold initState
  simp only []
  have := foldl_pres (P := fun s : St W => s.nodes = [] ∧ s.edges = [] ∧ s.roots = [] ∧ (∀ k, s.gw k = []) ∧
    pending s = [] ∧ s.log = []) (fun s a h => key s h a) stdlib
    ({ world := w, lazy := fun k => if k = c!"__main__" then some .excluded else none } : St W)
    ⟨rfl, rfl, rfl, fun _ => rfl, rfl, rfl⟩
  split
  · exact this
  · exact this

theorem conf_hooks (w : W) (stdlib : List (Str × Implies)) (builtin : Bool) (excludes : List Str)
    (implies : List (Str × Implies)) :
    (∀ h ∈ (confState w stdlib builtin excludes implies).postHooks, h = .mypyc) ∧
    ∀ h ∈ (confState w stdlib builtin excludes implies).missHooks, h = .swig := by
  have key : ∀ (s : St W) p, (addImply s p).postHooks = s.postHooks ∧ (addImply s p).missHooks = s.missHooks := by
    intro s p
    unfold addImply
    split <;> exact ⟨rfl, rfl⟩
  refine foldl_pres (P := fun s : St W => (∀ h ∈ s.postHooks, h = .mypyc) ∧ ∀ h ∈ s.missHooks, h = .swig)
    (fun s a h => by rw [(key s a).1, (key s a).2]; exact h) implies _ ?_
  refine foldl_pres (P := fun s : St W => (∀ h ∈ s.postHooks, h = .mypyc) ∧ ∀ h ∈ s.missHooks, h = .swig)
    (f := addExclude) (fun s a h => h) excludes _ ?_
  unfold initState
  simp only []
  have := foldl_pres (P := fun s : St W => s.postHooks = [] ∧ s.missHooks = [])
    (fun s a h => by rw [(key s a).1, (key s a).2]; exact h) stdlib
    ({ world := w, lazy := fun k => if k = c!"__main__" then some .excluded else none } : St W) ⟨rfl, rfl⟩
  split
  · simp
  · simp [this]

theorem ppStarted_mem {id : Str} {log : List Event} (h : ppStarted id log ≠ 0) :
    ∃ m, Event.started (.pp m) ∈ log ∧ m.ident = id := by
  obtain ⟨e, h1, h2⟩ := List.countP_pos_iff.mp (Nat.pos_of_ne_zero h)
  cases e with
  | started it =>
    cases it with
    | pp m => exact ⟨m, h1, by simpa [isStart, isPp] using h2⟩
    | _ => simp [isStart, isPp] at h2
  | _ => simp [isStart] at h2

/-! ## Nothing else -/

section
variable (S : Setup) (hT : S.Tame) (env : Env W) (hD : S.Describes env) (hO : env.OrderExact)
  (hP : ∀ k n, (env.userPost k n).Only S.Asks) (hM : ∀ k i n, (env.userMissing k i n).Passive)
  (n : Nat) (p : Hook W) (hp : p.Only S.Asks) (w : W) (stdlib : List (Str × Implies)) (builtin : Bool)
  (excludes : List Str) (implies : List (Str × Implies))
  (hc : S.conf = configured excludes (stdlib ++ implies))
include hT hD hO hP hM hp hc

omit hT hD hO hP hM hp in
theorem conf_core : XCore S (confState w stdlib builtin excludes implies) := by
  have hl := conf_lazy w stdlib builtin excludes implies
  obtain ⟨h1, h2, h3, h4, h5, h6⟩ := conf_rest w stdlib builtin excludes implies
  revert hl h1 h2 h3 h4 h5 h6
  generalize confState w stdlib builtin excludes implies = s
  intro hl h1 h2 h3 h4 h5 h6
  refine ⟨by simp [h1], by simp [h2], by simp [h3], by simp [h4], by simp [h1], ?_, by simp [h5, h6]⟩
  intro x
  rw [hl, hc]
  exact .inl rfl

omit hT hD hO hP hM hp in
theorem conf_between : Between S env (confState w stdlib builtin excludes implies) := by
  obtain ⟨h1, h2, h3, h4, h5, h6⟩ := conf_rest w stdlib builtin excludes implies
  simp only [pending, List.append_eq_nil_iff] at h5
  exact .inr ⟨⟨conf_core S w stdlib builtin excludes implies hc, by simp [h1], by simp [h5], by simp [h6],
    (conf_hooks w stdlib builtin excludes implies).1⟩, h5.2⟩

theorem exact_core :
    XCore S (runClient env (n + 1) (configureThen excludes implies p) (initState w stdlib builtin)).2 := by
  rw [conf_run]
  exact (client_rctx (exactCtx env hO hT hD) (fun k n => S.may (hP k n)) hM (n + 1) (S.may hp) _
    ⟨conf_core S w stdlib builtin excludes implies hc, by simp⟩).1

/-- C61, one direction: whatever the client program asks for in whatever order, and whatever
fails, the graph only has nodes, edges and roots that are needed. -/
theorem C61_nothing_else :
    let s := (runClient env (n + 1) (configureThen excludes implies p) (initState w stdlib builtin)).2
    (∀ m ∈ s.nodes, S.HasNode m) ∧ (∀ a b d, (a, b, d) ∈ s.edges → S.HasEdge a b d) ∧
      ∀ r ∈ s.roots, S.HasRoot r := by
  have h := exact_core S hT env hD hO hP hM n p hp w stdlib builtin excludes implies hc
  exact ⟨h.nodes, h.edges, h.roots⟩

/-- C61: the graph is exactly what is needed by what the client asked for, if no call failed and the
queue is empty.  If there are modules compiled with mypyc the built-in hooks have to be on. -/
theorem C61_exact (hL : env.MakesModules)
    (hb : builtin = true ∨ ∀ n, S.HasNode n → S.compiled n = none) :
    let s := (runClient env (n + 1) (configureThen excludes implies p) (initState w stdlib builtin)).2
    Event.failed ∉ s.log → s.stack = [] → (∀ x, S.AsksRoot x → x ∈ s.roots) →
      (∀ m, m ∈ s.nodes ↔ S.HasNode m) ∧ (∀ a b d, (a, b, d) ∈ s.edges ↔ S.HasEdge a b d) ∧
        ∀ r, r ∈ s.roots ↔ S.HasRoot r := by
  intro s hf hst hr
  have hcore : XCore S s := exact_core S hT env hD hO hP hM n p hp w stdlib builtin excludes implies hc
  have hN : ∀ {q : Hook W}, q.Only S.Asks → q.Only ApiOp.NoAddNode := fun h => h.mono fun o ho => by
    cases o <;> first | trivial | exact ho.elim
  have hB : ∀ {q : Hook W}, q.Only S.Asks → q.Only (Building implies) := fun h => h.mono fun o ho => by
    cases o <;> first | exact ho.elim | exact ⟨trivial, by simp⟩
  have hI : ∀ {q : Hook W} x, q.Only S.Asks → q.Only (ApiOp.Ignores x) := fun x h => h.mono fun o ho => by
    cases o <;> first | exact ho.elim | trivial
  have hpN : (configureThen excludes implies p).Only ApiOp.NoAddNode :=
    .call trivial fun _ => .call trivial fun _ => hN hp
  have hpB : (configureThen excludes implies p).Only (Building implies) :=
    .call ⟨trivial, by simp⟩ fun _ => .call ⟨trivial, by simp⟩ fun _ => hB hp
  have hPN := fun k n => hN (hP k n)
  have hPB := fun k n => hB (hP k n)
  have hord : env.OrderOk := fun w l x h => (hO w l x).mp h
  have hscan := client_scans env hPN hM (n + 1) hpN w stdlib builtin hf
  have hdl := client_distLinks env hL hPN hM (n + 1) hpN w stdlib builtin hf
  have hcomp := C07_completed env (n + 1) (configureThen excludes implies p) w stdlib builtin hf hst
  have hcomp' : ∀ id infos, Event.scheduled id infos ∈ s.log → ∀ i ∈ infos, ∃ t, Event.imported id i t ∈ s.log :=
    fun id infos h i hi => hcomp id infos i h hi
  have hdone : XDone S s := by
    refine ⟨hcore, (C01_unique_ids env (n + 1) _ w stdlib builtin).1,
      (C02_no_dangling env (n + 1) _ w stdlib builtin).1, hr, ?_,
      C10_linked_to_package env hL hPN hM (n + 1) _ hpN w stdlib builtin hf,
      C14_target_linked env hL hPN hM (n + 1) _ hpN w stdlib builtin hf, ?_, fun hd => (hdl _ hd).2, ?_, ?_, ?_, hcomp', ?_, ?_,
      C40_run_package env hM hO (n + 1) _ w stdlib builtin hf hst⟩
    · intro m hm h infos hm'
      have hN := hcore.nodes m hm
      have hne : S.compiled m ≠ none := by simp [hm']
      obtain rfl := hb.resolve_right fun hb => hne (hb m hN)
      have hk : m.isExtension = true ∨ m.isPackage = true := by
        cases hD.compiled m hN with
        | no _ h => exact absurd h hne
        | noSource _ _ h => exact absurd h hne
        | source h1 => exact mypycFile_kind (mypycModule_iff.mp h1).1
      have hsw : ¬ SwigNode m := by
        obtain ⟨x, tr, h1, h2⟩ := hN.needed hk
        exact (hT.compiledNode x m ⟨tr, h1⟩ h2 hne).2
      have hpp : Event.started (.pp m) ∈ s.log := by
        have hsc : Scanned m.ident s.log := by
          rcases hscan m hm with h1 | h1 | ⟨name, imports, h1, ⟨h2, _⟩ | h2⟩ | ⟨_, _, h1, _⟩
          · unfold Node.isStandIn Node.isLoaded Node.isModule Node.isPackage Node.isNamespacePkg at h1
            unfold Node.isExtension Node.isPackage at hk
            cases hkd : m.kind <;> simp_all
          · exact absurd h1 hsw
          · exact ⟨_, h2⟩
          · cases h2
          · unfold Node.isScript at h1
            unfold Node.isExtension Node.isPackage at hk
            cases hkd : m.kind <;> simp_all
        have h1 := C05_called_or_queued env (n + 1) (configureThen excludes implies p) w stdlib true m.ident hsc
        rw [show (runClient env (n + 1) (configureThen excludes implies p) (initState w stdlib true)).2.stack = []
          from hst] at h1
        obtain ⟨m', h2, h3⟩ := ppStarted_mem (show ppStarted m.ident s.log ≠ 0 by
          simp [ppPending] at h1; show ppStarted m.ident _ ≠ 0; rw [h1]; simp)
        have h4 : m' ∈ s.nodes := hcore.items _ (.inr h2)
        cases UniqueIds.eq (C01_unique_ids env (n + 1) _ w stdlib true).1 h4 hm h3
        exact h2
      cases hD.compiled m hN with
      | no _ h => exact absurd h hne
      | noSource _ _ h => exact absurd h hne
      | source h1 h2 h3 h4 h5 h6 =>
        rw [hm'] at h3
        cases h3
        exact client_mypyc env hM (n + 1) _ w stdlib hf m hpp h1 h2 h4 h5 h6
    · intro x l hx
      refine C15_implied_partial env x ?_ l (fun k n => hI x (hP k n)) hM (n + 1) p (hI x hp)
        (confState w stdlib builtin excludes implies) ?_ ?_ hf
      · intro name spec w w' m infos h1 h2 h3
        refine Classical.byContradiction fun hne => ?_
        have := (hT.otherName name m infos (hD.found name spec w w' _ h1 h2) (fun h => hne (h.symm.trans h3))).1
        rw [h3, hx] at this
        cases this
      · rw [conf_lazy, ← hc]
        exact hx
      · rw [(conf_rest w stdlib builtin excludes implies).1]
        simp
    · intro m hm fr init sp hd ns hk
      rcases C50_namespace_partial env hPN hM (n + 1) _ hpN w stdlib builtin hf m hm fr init sp hd ns hk with
        ⟨_, h1⟩ | ⟨name, imports, h1, h2⟩
      · cases ns <;> exact h1
      · exact absurd hk ((hT.otherName name m imports (h2.mods hD) (fun h => h1 h.symm)).2.2.2 fr init sp hd ns)
    · intro m hm infos hmod
      rcases hscan m hm with h1 | h1 | ⟨name, imports, h1, ⟨h2, _⟩ | h2⟩ | ⟨_, _, h1, _⟩
      · rw [Node.isStandIn, hT.loaded _ _ _ hmod] at h1
        simp at h1
      · exact .inr (hT.extension _ _ _ hmod h1.1)
      · have hsame : imports = infos := by
          have h3 := h1.mods hD
          by_cases hne : m.ident = name
          · rw [← hne, hmod] at h3
            cases h3; rfl
          · have h4 := (hT.otherName name m imports h3 hne).2.1
            rw [hmod] at h4
            cases h4; rfl
        subst hsame
        exact .inl h2
      · cases h2
      · have := hT.loaded _ _ _ hmod
        unfold Node.isScript at h1
        unfold Node.isLoaded Node.isModule Node.isPackage Node.isNamespacePkg at this
        cases hk : m.kind <;> simp_all
    · intro path infos file hm hs
      rcases hscan _ hm with h1 | h1 | ⟨name, imports, h1, _⟩ | ⟨infos', file', _, ⟨w', h1⟩, _, h2⟩
      · simp [Node.isStandIn, Node.isScript, Setup.scriptNode] at h1
      · simp [SwigNode, Node.isExtension, Setup.scriptNode] at h1
      · have := hT.loaded _ _ _ (h1.mods hD)
        simp [Node.isLoaded, Node.isModule, Node.isPackage, Node.isNamespacePkg, Setup.scriptNode] at this
      · have h3 := hD.script _ w' _ h1
        have h4 : S.scripts path = some (infos', file') := h3
        rw [hs] at h4
        cases h4
        exact h2
    · intro hno
      have hB := client_passing hO hT hD hP hM hno (n + 1) hp
        (conf_between S env w stdlib builtin excludes implies hc)
      rcases hB with hB | ⟨hB, hnil⟩
      · exact absurd hB hf
      · intro id infos hi j hj
        rcases hB.settled id infos hi j hj with (⟨Y, _, h1⟩ | ⟨Y, b, _, h1, _⟩) | h1
        · rw [hnil] at h1; cases h1
        · rw [hnil] at h1; cases h1
        · exact h1
    · intro a i t hi
      obtain ⟨m, h1, h2, _, h3⟩ := (client_edges env hord implies hPB hM (n + 1) hpB w stdlib builtin).imported a i t hi
      exact ⟨m, h1, h2, h3⟩
  exact ⟨fun m => ⟨hcore.nodes m, hdone.hasNode hT⟩, fun a b d => ⟨hcore.edges a b d, hdone.hasEdge hT⟩,
    fun r => ⟨hcore.roots r, fun h => h.elim (hr r) fun ⟨m, infos, h1, h2⟩ =>
      (hdone.helper m (hdone.hasNode hT h1) r infos h2).root⟩⟩
end

/-! ## The order does not matter -/

theorem failedClosed : SimplyClosed (fun s : St W => Event.failed ∈ s.log) := by
  constructor
  case schedule => intro s n i h; rw [log_schedule]; exact List.mem_append_left _ h
  case popExcluded =>
    intro s name h _ _
    rw [log_schedule]
    exact List.mem_append_left _ h
  case addEdge => intro s a b d h _ _; unfold St.addEdge; split <;> exact h
  case addRoot => intro s a h _; unfold St.addRoot; split <;> exact h
  case imply => intro s p h; unfold addImply; split <;> exact h
  case looked => intro s h; exact List.mem_append_left _ h
  case called => intro s _ _ h; exact List.mem_append_left _ h
  case asked => intro s _ _ _ h; exact List.mem_append_left _ h
  case failed => intro s h; exact List.mem_append_left _ h
  case pop => intro s st it h _; exact List.mem_append_left _ h
  case finishInvalid => intro s n i t h _ _; exact List.mem_append_left _ h
  case finishImp => intro s n i t name o h _ _; exact List.mem_append_left _ h
  all_goals (intros; assumption)

/-- What is there after an operation that did not fail. -/
def OpDone (S : Setup) (s : St W) : ApiOp → Prop
  | .addModule x | .addScript x => x ∈ s.roots
  | .addDistribution d => Has s d.identifier
  | .addDistributionNamed name => ∀ d, S.dists name = some d → Has s d.identifier
  | .addDependenciesForSource src => ∀ infos, S.sources src = some infos → ∀ x, InSource infos x → x ∈ s.roots
  | _ => True

theorem OpDone.later {S : Setup} {s s' : St W} (hn : ∀ n ∈ s.nodes, n ∈ s'.nodes) (hr : ∀ r ∈ s.roots, r ∈ s'.roots)
    {o : ApiOp} (h : OpDone S s o) : OpDone S s' o := by
  have hh : ∀ {x}, Has s x → Has s' x := fun ⟨n, h1, h2⟩ => ⟨n, hn n h1, h2⟩
  cases o with
  | addModule x => exact hr _ h
  | addScript x => exact hr _ h
  | addDistribution d => exact hh h
  | addDistributionNamed nm => exact fun d hd => hh (h d hd)
  | addDependenciesForSource src => exact fun i hi x hx => hr _ (h i hi x hx)
  | _ => trivial

theorem op_of_addModule {env : Env W} {n : Nat} {x : Str} {s s' : St W} {m : Node}
    (h : addModule (calls env n) x s = (.ok m, s')) : (calls env (n + 1)).op (.addModule x) s = (.ok (some m), s') := by
  show opBody env (calls env n) (.addModule x) s = _
  have : apiBody env (calls env n) (.addModule x) s = (.ok (some m), s') := by
    show M.bind (addModule (calls env n) x) _ s = _
    rw [M.bind_of_ok h]
    rfl
  unfold opBody
  rw [this]

theorem addModule_roots {env : Env W} (hM : ∀ k i n, (env.userMissing k i n).Passive) {n : Nat} {x : Str} {s s' : St W}
    {m : Node} (h : addModule (calls env n) x s = (.ok m, s')) : x ∈ s'.roots ∧ ∀ r ∈ s.roots, r ∈ s'.roots := by
  have hop := op_of_addModule h
  have hg := (C03_grows_op env (n + 1) (.addModule x) s).1.roots
  rw [hop] at hg
  obtain ⟨_, _, _, _, h1, _⟩ := C16_result env hM (n + 1) x s s' _ hop
  exact ⟨h1, hg⟩

theorem forEach_collect {α : Type} {f : α → M W Unit} {P : α → St W → Prop} : ∀ (l : List α) {s s' : St W},
    (∀ a ∈ l, ∀ t t', f a t = (.ok (), t') → P a t' ∧ ∀ r ∈ t.roots, r ∈ t'.roots) →
    (∀ a t t', P a t → (∀ r ∈ t.roots, r ∈ t'.roots) → P a t') →
    M.forEach l f s = (.ok (), s') → (∀ a ∈ l, P a s') ∧ ∀ r ∈ s.roots, r ∈ s'.roots := by
  intro l
  induction l with
  | nil =>
    intro s s' _ _ hr
    cases hr
    exact ⟨by simp, fun _ h => h⟩
  | cons a l ih =>
    intro s s' hf hm hr
    obtain ⟨_, s1, h1, h2⟩ := M.bind_ok hr
    obtain ⟨h3, h4⟩ := hf a (List.mem_cons_self ..) _ _ h1
    obtain ⟨h5, h6⟩ := ih (fun b hb => hf b (List.mem_cons_of_mem _ hb)) hm h2
    refine ⟨fun b hb => ?_, fun r hr => h6 r (h4 r hr)⟩
    rcases List.mem_cons.mp hb with rfl | hb
    · exact hm _ _ _ h3 h6
    · exact h5 b hb

theorem op_done {S : Setup} {env : Env W} (hD : S.Describes env) (hM : ∀ k i n, (env.userMissing k i n).Passive) {n : Nat}
    {o : ApiOp} {s s' : St W} {r : Option Node} (hop : (calls env (n + 1)).op o s = (.ok r, s')) : OpDone S s' o := by
  have dist : ∀ {d : Dist} {s : St W} {m : Node}, addDistribution (calls env n) d s = (.ok m, s') → Has s' d.identifier := by
    intro d s m h
    have hop' : (calls env (n + 1)).op (.addDistribution d) s = (.ok (some m), s') := by
      show opBody env (calls env n) (.addDistribution d) s = _
      have : apiBody env (calls env n) (.addDistribution d) s = (.ok (some m), s') := by
        show M.bind (addDistribution (calls env n) d) _ s = _
        rw [M.bind_of_ok h]
        rfl
      unfold opBody
      rw [this]
    cases hf : s.find d.identifier with
    | some x =>
      have := (C03_grows_op env (n + 1) (.addDistribution d) s).2 _ _ hf
      rw [hop'] at this
      exact ⟨x, find_some this⟩
    | none =>
      have hnew : ∀ x ∈ s.nodes, x.ident ≠ d.identifier := fun x hx he => by
        have := find_none hf
        rw [has_of_Has ⟨x, hx, he⟩] at this
        cases this
      exact ⟨_, (C19_linked env hM (n + 1) d s s' _ hnew hop').2.1, rfl⟩
  cases o with
  | addModule x => exact (C16_result env hM (n + 1) x s s' r hop).choose_spec.2.2.2.1
  | addScript x =>
    obtain ⟨_, _, _, _, _, _, h4⟩ := C17_added env (n + 1) x s s' r hop
    exact h4
  | addDistribution d =>
    obtain ⟨m, s1, h1, h2⟩ := M.bind_ok (op_ok hop)
    obtain ⟨_, rfl⟩ := M.pure_ok h2
    exact dist h1
  | addDistributionNamed name =>
    intro d hd
    obtain ⟨m, s1, h1, h2⟩ := M.bind_ok (op_ok hop)
    obtain ⟨_, rfl⟩ := M.pure_ok h2
    unfold addDistributionNamed at h1
    obtain ⟨f, s2, h3, h4⟩ := M.bind_ok h1
    obtain ⟨hp, rfl⟩ := M.ext_ok h3
    cases f with
    | none => cases h4
    | some d' =>
      have := hD.distribution _ _ _ hp
      rw [hd] at this
      cases this
      exact dist h4
  | addDependenciesForSource src =>
    intro infos hi x hx
    obtain ⟨m, s1, h1, h2⟩ := M.bind_ok (op_ok hop)
    obtain ⟨_, rfl⟩ := M.pure_ok h2
    unfold addDependenciesForSource at h1
    obtain ⟨f, s2, h3, h4⟩ := M.bind_ok h1
    obtain ⟨hp, rfl⟩ := M.ext_ok h3
    have := hD.source _ _ _ hp
    rw [hi] at this
    cases this
    have key := forEach_collect (P := fun (i : ImportInfo) (t : St W) => i.importModule.name ∈ t.roots ∧
        ∀ nm ∈ i.importNames, i.importModule.name ++ '.' :: nm.name ∈ t.roots) infos ?_ ?_ h4
    · obtain ⟨i, hi, rfl | ⟨nm, hn, rfl⟩⟩ := hx
      · exact (key.1 i hi).1
      · exact (key.1 i hi).2 nm hn
    · intro i _ t t' ht
      obtain ⟨_, t1, h5, h6⟩ := M.bind_ok ht
      obtain ⟨h7, h8⟩ := addModule_roots hM h5
      have k2 := forEach_collect (P := fun (nm : ImpName) (t : St W) => i.importModule.name ++ '.' :: nm.name ∈ t.roots)
        i.importNames (fun nm _ u u' hu => by
          obtain ⟨_, u1, h9, h10⟩ := M.bind_ok hu
          obtain ⟨_, rfl⟩ := M.pure_ok h10
          exact addModule_roots hM h9) (fun _ _ _ h h' => h' _ h) h6
      exact ⟨⟨k2.2 _ h7, k2.1⟩, fun r hr => k2.2 r (h8 r hr)⟩
    · exact fun _ _ _ h h' => ⟨h' _ h.1, fun nm hn => h' _ (h.2 nm hn)⟩
  | _ => trivial

theorem forEach_stack {α : Type} {f : α → M W Unit} (hf : ∀ a t t', f a t = (.ok (), t') → t'.stack = []) :
    ∀ (l : List α) {s s' : St W}, s.stack = [] → M.forEach l f s = (.ok (), s') → s'.stack = [] := by
  intro l
  induction l with
  | nil => intro s s' h hr; cases hr; exact h
  | cons a l ih =>
    intro s s' _ hr
    obtain ⟨_, s1, h1, h2⟩ := M.bind_ok hr
    exact ih (hf a _ _ h1) h2

theorem op_drained {S : Setup} {env : Env W} {n : Nat} {o : ApiOp} (ho : S.Adds o) {s s' : St W} {r : Option Node}
    (hst : s.stack = []) (hop : (calls env (n + 1)).op o s = (.ok r, s')) : s'.stack = [] := by
  have dist : ∀ {d : Dist} {s : St W} {m : Node}, s.stack = [] →
      addDistribution (calls env n) d s = (.ok m, s') → s'.stack = [] := by
    intro d s m hst h
    refine C44_distribution_drained_partial env (n + 1) d s s' (some m) (.inr hst) ?_
    show opBody env (calls env n) (.addDistribution d) s = _
    have : apiBody env (calls env n) (.addDistribution d) s = (.ok (some m), s') := by
      show M.bind (addDistribution (calls env n) d) _ s = _
      rw [M.bind_of_ok h]
      rfl
    unfold opBody
    rw [this]
  have mods : ∀ {x : Str} {s t : St W} {m : Node}, addModule (calls env n) x s = (.ok m, t) → t.stack = [] :=
    fun h => C44_drained env (n + 1) (.addModule _) _ _ _ (.inl ⟨_, rfl⟩) (op_of_addModule h)
  cases o with
  | addModule x => exact C44_drained env (n + 1) _ s s' r (.inl ⟨_, rfl⟩) hop
  | addScript x => exact C44_drained env (n + 1) _ s s' r (.inr (.inl ⟨_, rfl⟩)) hop
  | addDistribution d =>
    obtain ⟨m, s1, h1, h2⟩ := M.bind_ok (op_ok hop)
    obtain ⟨_, rfl⟩ := M.pure_ok h2
    exact dist hst h1
  | addDistributionNamed name =>
    obtain ⟨m, s1, h1, h2⟩ := M.bind_ok (op_ok hop)
    obtain ⟨_, rfl⟩ := M.pure_ok h2
    unfold addDistributionNamed at h1
    obtain ⟨f, s2, h3, h4⟩ := M.bind_ok h1
    obtain ⟨hp, rfl⟩ := M.ext_ok h3
    cases f with
    | none => cases h4
    | some d' => exact dist (by exact hst) h4
  | addDependenciesForSource src =>
    obtain ⟨m, s1, h1, h2⟩ := M.bind_ok (op_ok hop)
    obtain ⟨_, rfl⟩ := M.pure_ok h2
    unfold addDependenciesForSource at h1
    obtain ⟨f, s2, h3, h4⟩ := M.bind_ok h1
    obtain ⟨hp, rfl⟩ := M.ext_ok h3
    refine forEach_stack (fun i t t' ht => ?_) f (by exact hst) h4
    obtain ⟨_, t1, h5, h6⟩ := M.bind_ok ht
    refine forEach_stack (fun nm u u' hu => ?_) i.importNames (mods h5) h6
    obtain ⟨_, u1, h9, h10⟩ := M.bind_ok hu
    obtain ⟨_, rfl⟩ := M.pure_ok h10
    exact mods h9
  | _ => exact ho.elim

theorem doAll_done (S : Setup) (env : Env W) (hD : S.Describes env) (hM : ∀ k i n, (env.userMissing k i n).Passive) (n : Nat)
    (ops : List ApiOp) (hops : ∀ o ∈ ops, S.Adds o) (s : St W) (hst : s.stack = []) :
    let s' := (runClient env (n + 1) (doAll ops) s).2
    Event.failed ∉ s'.log → (∀ m ∈ s.nodes, m ∈ s'.nodes) ∧ (∀ r ∈ s.roots, r ∈ s'.roots) ∧
      (∀ o ∈ ops, OpDone S s' o) ∧ s'.stack = [] := by
  induction ops generalizing s with
  | nil =>
    intro s' _
    exact ⟨fun _ h => h, fun _ h => h, by simp, hst⟩
  | cons o ops ih =>
    intro s' hf
    have hrun : s' = (M.bind (M.attempt ((calls env (n + 1)).op o))
      (fun _ => interp (calls env (n + 1)) (doAll ops)) s).2 := rfl
    clear_value s'
    subst hrun
    unfold M.bind M.attempt at hf ⊢
    have hg := (C03_grows_op env (n + 1) o s).1
    cases hop : (calls env (n + 1)).op o s with
    | mk r s1 => ?_
    rw [hop] at hf hg
    cases r with
    | error e =>
      exfalso
      have hfail : Event.failed ∈ s1.log := by
        have hop' : opBody env (calls env n) o s = (.error e, s1) := hop
        unfold opBody at hop'
        split at hop'
        · cases hop'
        · cases hop'
          simp [St.event]
      apply hf
      have hrest := failedClosed.client (env := env) (n + 1) (doAll ops) s1 hfail
      cases e <;> first | exact hfail | exact hrest
    | ok r =>
      replace hf : Event.failed ∉ (runClient env (n + 1) (doAll ops) s1).2.log := hf
      obtain ⟨h1, h2, h3, h4⟩ := ih (fun o ho => hops o (List.mem_cons_of_mem _ ho)) s1
        (op_drained (hops o (List.mem_cons_self ..)) hst hop) hf
      refine ⟨fun m hm => h1 m (hg.nodes m hm), fun r hr => h2 r (hg.roots r hr), ?_, h4⟩
      intro o' ho'
      rcases List.mem_cons.mp ho' with rfl | ho'
      · exact (op_done hD hM hop).later h1 h2
      · exact h3 o' ho'

theorem asks_of_asked {S : Setup} {ops : List ApiOp} (h : S.AskedBy ops) {o : ApiOp} (hm : o ∈ ops) : S.Asks o := by
  have ho := h.only o hm
  cases o with
  | addModule x => exact (h.module x).mpr (.inl hm)
  | addScript x => exact (h.script x).mpr hm
  | addDistribution d => exact (h.dist d).mpr (.inl hm)
  | addDistributionNamed name => exact fun d hd => (h.dist d).mpr (.inr ⟨name, hm, hd⟩)
  | addDependenciesForSource src => exact fun infos hi x hx => (h.module x).mpr (.inr ⟨src, infos, hm, hi, hx⟩)
  | _ => exact ho.elim

theorem doAll_only {S : Setup} {ops : List ApiOp} (h : S.AskedBy ops) : (doAll ops : Hook W).Only S.Asks := by
  have key : ∀ l : List ApiOp, (∀ o ∈ l, o ∈ ops) → (doAll l : Hook W).Only S.Asks := by
    intro l
    induction l with
    | nil => intro _; exact .ret _
    | cons o l ih =>
      intro hl
      refine .call ?_ fun _ => ih fun o hm => hl o (List.mem_cons_of_mem _ hm)
      have hm := hl o (List.mem_cons_self ..)
      exact asks_of_asked h hm
  exact key ops fun _ h => h

/-- C61, for a client that first configures the graph and then adds modules, scripts, distributions and
pieces of source code: if no call failed, the graph is exactly what is needed by these.  If there are
modules compiled with mypyc the built-in hooks have to be on. -/
theorem C61_built (S : Setup) (hT : S.Tame) (env : Env W) (hD : S.Describes env) (hO : env.OrderExact)
    (hL : env.MakesModules) (hP : ∀ k n, (env.userPost k n).Only S.Asks)
    (hM : ∀ k i n, (env.userMissing k i n).Passive) (n : Nat) (ops : List ApiOp) (ha : S.AskedBy ops)
    (w : W) (stdlib : List (Str × Implies)) (builtin : Bool)
    (excludes : List Str) (implies : List (Str × Implies))
    (hc : S.conf = configured excludes (stdlib ++ implies))
    (hb : builtin = true ∨ ∀ n, S.HasNode n → S.compiled n = none) :
    let s := (runClient env (n + 1) (configureThen excludes implies (doAll ops)) (initState w stdlib builtin)).2
    Event.failed ∉ s.log →
      (∀ m, m ∈ s.nodes ↔ S.HasNode m) ∧ (∀ a b d, (a, b, d) ∈ s.edges ↔ S.HasEdge a b d) ∧
        ∀ r, r ∈ s.roots ↔ S.HasRoot r := by
  intro s hf
  have hcore : XCore S s :=
    exact_core S hT env hD hO hP hM n (doAll ops) (doAll_only ha) w stdlib builtin excludes implies hc
  obtain ⟨_, _, hd, hst⟩ := doAll_done S env hD hM n ops ha.only _
    (List.append_eq_nil_iff.mp (conf_rest w stdlib builtin excludes implies).2.2.2.2.1).2 hf
  refine C61_exact S hT env hD hO hP hM n (doAll ops) (doAll_only ha) w stdlib builtin excludes implies hc hL hb hf hst ?_
  rintro x (hx | hx | ⟨d, hx, rfl⟩)
  · rcases (ha.module x).mp hx with h1 | ⟨src, infos, h1, h2, h3⟩
    · exact hd _ h1
    · exact hd _ h1 infos h2 x h3
  · exact hd _ ((ha.script x).mp hx)
  · have hh : Has s d.identifier := by
      rcases (ha.dist d).mp hx with h1 | ⟨nm, h1, h2⟩
      · exact hd _ h1
      · exact hd _ h1 d h2
    obtain ⟨m, hm, he⟩ := hh
    have := (hcore.nodes m hm).unique hT (.distribution hx) he
    subst this
    have hN : ∀ {q : Hook W}, q.Only S.Asks → q.Only ApiOp.NoAddNode := fun h => h.mono fun o ho => by
      cases o <;> first | trivial | exact ho.elim
    exact (client_distLinks env hL (fun k n => hN (hP k n)) hM (n + 1)
      (p := configureThen excludes implies (doAll ops))
      (.call trivial fun _ => .call trivial fun _ => hN (doAll_only ha)) w stdlib builtin hf d hm).1

/-- C62: the order in which modules and scripts are added, and all other differences between two
environments with the same modules (for example the order in which they iterate over edges), do not
matter: the graphs have the same nodes, edges and roots.

Missing for the full claim: modules that are not `Tame`; for them the claim is false, see
`C62_reexport_order`, `C62_link_order` and `C62_global_order`. -/
theorem C62_order_partial (S : Setup) (hT : S.Tame) (env env' : Env W) (hD : S.Describes env) (hD' : S.Describes env')
    (hO : env.OrderExact) (hO' : env'.OrderExact) (hL : env.MakesModules) (hL' : env'.MakesModules)
    (hP : ∀ k n, (env.userPost k n).Only S.Asks) (hP' : ∀ k n, (env'.userPost k n).Only S.Asks)
    (hM : ∀ k i n, (env.userMissing k i n).Passive) (hM' : ∀ k i n, (env'.userMissing k i n).Passive)
    (n n' : Nat) (ops ops' : List ApiOp) (ha : S.AskedBy ops) (ha' : ∀ o, o ∈ ops' ↔ o ∈ ops)
    (w w' : W) (stdlib : List (Str × Implies)) (builtin builtin' : Bool)
    (excludes : List Str) (implies : List (Str × Implies))
    (hc : S.conf = configured excludes (stdlib ++ implies))
    (hb : (builtin = true ∧ builtin' = true) ∨ ∀ n, S.HasNode n → S.compiled n = none) :
    let s := (runClient env (n + 1) (configureThen excludes implies (doAll ops)) (initState w stdlib builtin)).2
    let s' := (runClient env' (n' + 1) (configureThen excludes implies (doAll ops')) (initState w' stdlib builtin')).2
    Event.failed ∉ s.log → Event.failed ∉ s'.log →
      (∀ m, m ∈ s.nodes ↔ m ∈ s'.nodes) ∧ (∀ e, e ∈ s.edges ↔ e ∈ s'.edges) ∧
        ∀ r, r ∈ s.roots ↔ r ∈ s'.roots := by
  intro s s' hf hf'
  have hops : S.AskedBy ops' := by
    refine ⟨fun x => ?_, fun x => (ha.script x).trans (ha' _).symm, fun d => ?_,
      fun o ho => ha.only o ((ha' o).mp ho)⟩
    · simp only [ha.module, ha']
    · simp only [ha.dist, ha']
  obtain ⟨h1, h2, h3⟩ := C61_built S hT env hD hO hL hP hM n ops ha w stdlib builtin excludes implies hc
    (hb.imp And.left id) hf
  obtain ⟨h1', h2', h3'⟩ :=
    C61_built S hT env' hD' hO' hL' hP' hM' n' ops' hops w' stdlib builtin' excludes implies hc
      (hb.imp And.right id) hf'
  exact ⟨fun m => (h1 m).trans (h1' m).symm, fun ⟨a, b, d⟩ => (h2 a b d).trans (h2' a b d).symm,
    fun r => (h3 r).trans (h3' r).symm⟩

end Verif.Props
