import Verif.Proofs.EdgeFacts
import Verif.Spec.Demo
import Verif.Props.Queue
import Verif.Props.Structure
/-!
# C05, C07, C10, C14, C39: what is known about every node and every edge

Runs of arbitrary client programs against a new graph, in an arbitrary outside world in which
`node_for_spec` makes modules, packages and missing modules (`Env.MakesModules`, true of the modelled
`node_for_spec` by `C36_makes_modules`).  The missing hooks of the user
are passive (they may look, change the outside world and raise, but supply no nodes); the
post-processing hooks are arbitrary except that nobody puts nodes in the graph by hand.
-/
namespace Verif.Props
open Verif Spec

variable {W : Type}

theorem client_facts (env : Env W) (hN : env.MakesModules)
    (hP : ∀ k n, (env.userPost k n).Only ApiOp.NoAddNode)
    (hM : ∀ k i n, (env.userMissing k i n).Passive) (n : Nat) {p : Hook W}
    (hp : p.Only ApiOp.NoAddNode) (w : W) (stdlib : List (Str × Implies)) (builtin : Bool) :
    Event.failed ∈ (runClient env n p (initState w stdlib builtin)).2.log ∨
      Facts [] (runClient env n p (initState w stdlib builtin)).2 := by
  refine client_ctx (factsCtx env hN) hP hM n hp (initState w stdlib builtin) (.inr ?_)
  have h := (initState_fields w stdlib builtin)
  have hn : (initState w stdlib builtin).nodes = [] := initState_nodes w stdlib builtin
  exact ⟨by simp [hn], by simp, by simp [hn], by simp [hn], by simp [hn]⟩

/-- C05: when no call failed and the queue is empty, each node of the graph that is not a
distribution had exactly one post-processing call.  Missing for the full claim: nodes that the
SWIG hook supplied (an extension module called `_name`), see `C05_swig_not_processed`. -/
theorem C05_every_node_partial (env : Env W) (hN : env.MakesModules)
    (hP : ∀ k n, (env.userPost k n).Only ApiOp.NoAddNode)
    (hM : ∀ k i n, (env.userMissing k i n).Passive) (n : Nat) (p : Hook W)
    (hp : p.Only ApiOp.NoAddNode) (w : W) (stdlib : List (Str × Implies)) (builtin : Bool) :
    let s := (runClient env n p (initState w stdlib builtin)).2
    Event.failed ∉ s.log → s.stack = [] →
    ∀ m ∈ s.nodes, m.isBaseNode = true → ¬ SwigNode m → ppStarted m.ident s.log = 1 := by
  intro s hf hst m hm hb hsw
  rcases client_facts env hN hP hM n hp w stdlib builtin with h | h
  · exact absurd h hf
  rcases h.sched m hm hb with h1 | ⟨i, h1⟩ | h1
  · have := C05_called_or_queued env n p w stdlib builtin m.ident h1
    simp only [ppPending] at this
    rw [show (runClient env n p (initState w stdlib builtin)).2.stack = [] from hst] at this
    simpa using this
  · simp at h1
  · exact absurd h1 hsw

/-- The module `pkg.mod` defines `swig_import_helper` and imports `_mod`, which exists as extension
module in `pkg`. -/
def swigTable : Demo.Table where
  mods := [(c!"pkg", Demo.pkg c!"pkg", []),
    (c!"pkg.mod", Demo.src c!"pkg.mod" [c!"swig_import_helper"], [Demo.imp c!"_mod"]),
    (c!"pkg._mod", { ident := c!"pkg._mod", kind := .module .extension }, [])]

/-- The full claim fails: the extension module that the SWIG hook supplies is never
post-processed, although no call failed and nothing is queued. -/
theorem C05_swig_not_processed :
    let s := (Demo.run swigTable [.addModule c!"pkg.mod"]).2
    Event.failed ∉ s.log ∧ s.stack = [] ∧ s.has c!"_mod" = true ∧
      ppStarted c!"pkg.mod" s.log = 1 ∧ ppStarted c!"_mod" s.log = 0 := by decide +kernel

/-! The hypotheses hold for the demo world: -/

theorem demo_loads (t : Demo.Table) (h : ∀ x ∈ t.mods, x.2.1.isLoaded = true) :
    (Demo.env t).LoadsModules := by
  intro spec w n imports he
  simp only [Demo.env] at he
  cases hl : Demo.lookup t.mods spec.name with
  | none => rw [hl] at he; simp at he
  | some q =>
    rw [hl] at he
    simp only [Except.ok.injEq] at he
    subst he
    unfold Demo.lookup at hl
    cases hf : t.mods.find? fun p => p.1 == spec.name with
    | none => rw [hf] at hl; simp at hl
    | some x =>
      rw [hf] at hl
      simp at hl
      have := h x (List.mem_of_find?_eq_some hf)
      rw [hl] at this
      exact this

theorem demo_client_only (A : ApiOp → Prop) (l : List ApiOp) (h : ∀ o ∈ l, A o) :
    (Demo.client l).Only A := by
  induction l with
  | nil => exact .look fun _ => .ret none
  | cons o l ih =>
    exact .call (h o (List.mem_cons_self ..)) fun _ => ih fun x hx => h x (List.mem_cons_of_mem _ hx)

/-- A run with a script, a package, a `from` import and a missing module. -/
example : (Demo.env Demo.small).MakesModules ∧
    (∀ k n, ((Demo.env Demo.small).userPost k n).Only ApiOp.NoAddNode) ∧
    (∀ k i n, ((Demo.env Demo.small).userMissing k i n).Passive) ∧
    (Demo.client [.addScript c!"/s.py", .addModule c!"p.x"]).Only ApiOp.NoAddNode ∧
    (let s := (Demo.run Demo.small [.addScript c!"/s.py", .addModule c!"p.x"]).2
     Event.failed ∉ s.log ∧ s.stack = [] ∧ s.nodes.length = 7) :=
  ⟨(demo_loads _ (by decide +kernel)).makes, fun _ _ => .ret none, fun _ _ _ => .ret,
    demo_client_only _ _ (by simp [ApiOp.NoAddNode]), by decide +kernel⟩

/-! ## C10 -/

theorem split_of_text {name p b x : Str} {q : Option Str} (h : splitPackage name = .ok (q, x))
    (hn : name = p ++ '.' :: b) (hb : '.' ∉ b) (hp : ∃ c ∈ p, c ≠ '.') : q = some p := by
  have hs : ∃ d pre last, IsSplit name d pre last := by
    refine Classical.byContradiction fun hn => ?_
    rw [splitPackage_error_iff.mpr hn] at h; cases h
  obtain ⟨d, pre, last, hs⟩ := hs
  rw [splitPackage_of_isSplit hs] at h
  obtain ⟨e, -, hl, -⟩ := hs
  simp only [Except.ok.injEq, Prod.mk.injEq] at h
  have huniq : ∀ a, name = a ++ '.' :: last → a = p := by
    intro a ha
    have h1 := rfindSplit_some.mpr ⟨ha, hl⟩
    have h2 := rfindSplit_some.mpr ⟨hn, hb⟩
    rw [h1] at h2
    simp at h2
    exact h2.1
  by_cases hpre : pre = []
  · subst hpre
    cases d with
    | zero =>
      simp [dotted] at e
      rw [e] at hn
      exact absurd (hn ▸ by simp : '.' ∈ last) hl
    | succ d =>
      have := huniq (List.replicate d '.') (by rw [e, List.replicate_succ']; simp [dotted])
      obtain ⟨c, hc, hne⟩ := hp
      rw [← this] at hc
      exact absurd (List.eq_of_mem_replicate hc) hne
  · rw [dotted_snoc _ hpre] at e
    have := huniq (List.replicate d '.' ++ dotted pre) (by rw [e]; simp)
    rw [if_neg (by simp [hpre])] at h
    rw [← h.1, this]

/-- C10: when no call failed, each node for a dotted module name `pkg.name` has an edge to
(the node called) `pkg`; except missing modules whose name was tried as a name of a `from` import. -/
theorem C10_linked_to_package (env : Env W) (hN : env.MakesModules)
    (hP : ∀ k n, (env.userPost k n).Only ApiOp.NoAddNode)
    (hM : ∀ k i n, (env.userMissing k i n).Passive) (n : Nat) (p : Hook W)
    (hp : p.Only ApiOp.NoAddNode) (w : W) (stdlib : List (Str × Implies)) (builtin : Bool) :
    let s := (runClient env n p (initState w stdlib builtin)).2
    Event.failed ∉ s.log →
    ∀ m ∈ s.nodes, m.namesModule = true →
    ∀ pkg last, m.ident = pkg ++ '.' :: last → '.' ∉ last → (∃ c ∈ pkg, c ≠ '.') →
      ((m.ident, pkg, defaultDep) ∈ s.edges ∧ ∃ q ∈ s.nodes, q.ident = pkg) ∨
      (m.isMissing = true ∧ Tried s.nodes s.log m.ident) := by
  intro s hf m hm hb pkg last hid hl hd
  rcases client_facts env hN hP hM n hp w stdlib builtin with h | h
  · exact absurd h hf
  rcases h.link m hm hb with ⟨⟨q, x⟩, h1, h2⟩ | ⟨h1, h2, _⟩ | ⟨_, _, h1⟩ | h1
  · left
    have := split_of_text h1 hid hl hd
    have he := h2 pkg this
    exact ⟨he, ((C02_no_dangling env n p w stdlib builtin).1.1 _ _ _ he).2⟩
  · exact .inr ⟨h1, h2⟩
  · simp at h1
  · simp at h1

/-- C10, and no other name gets into the graph: each node that stands for a module has a
well-formed name. -/
theorem C10_well_formed_names (env : Env W) (hN : env.MakesModules)
    (hP : ∀ k n, (env.userPost k n).Only ApiOp.NoAddNode)
    (hM : ∀ k i n, (env.userMissing k i n).Passive) (n : Nat) (p : Hook W)
    (hp : p.Only ApiOp.NoAddNode) (w : W) (stdlib : List (Str × Implies)) (builtin : Bool) :
    let s := (runClient env n p (initState w stdlib builtin)).2
    Event.failed ∉ s.log →
    ∀ m ∈ s.nodes, m.namesModule = true → ∃ d pre last, IsSplit m.ident d pre last := by
  intro s hf m hm hb
  rcases client_facts env hN hP hM n hp w stdlib builtin with h | h
  · exact absurd h hf
  have : ∃ r, splitPackage m.ident = .ok r := by
    rcases h.link m hm hb with ⟨q, h1, h2⟩ | ⟨_, _, h1⟩ | ⟨_, _, h1⟩ | h1
    · exact ⟨q, h1⟩
    · exact h1
    · simp at h1
    · simp at h1
  obtain ⟨r, hr⟩ := this
  refine Classical.byContradiction fun hn => ?_
  rw [splitPackage_error_iff.mpr hn] at hr; cases hr

/-- Both cases occur: `p.q` is linked to `p`; the missing `p.y` in `from p import y` is linked as
well, because it is no attribute of `p` either; `p.z` in `from p import z`, where `p` defines `z`
is a missing node without a link. -/
example :
    let t : Demo.Table := { mods := [(c!"p", Demo.pkg c!"p" [] [c!"z"], []),
      (c!"p.q", Demo.src c!"p.q", []), (c!"a", Demo.src c!"a", [Demo.fromImp 0 c!"p" [c!"q", c!"y", c!"z"]])] }
    let s := (Demo.run t [.addModule c!"a"]).2
    Event.failed ∉ s.log ∧ (c!"p.q", c!"p", defaultDep) ∈ s.edges ∧
      (c!"p.y", c!"p", defaultDep) ∈ s.edges ∧ s.has c!"p.z" = true ∧
      (c!"p.z", c!"p", defaultDep) ∉ s.edges := by decide +kernel

/-! ## C14 -/

/-- C14: when no call failed, each alias and each virtual module in the graph has an edge to the
node of its target, which is in the graph. -/
theorem C14_target_linked (env : Env W) (hN : env.MakesModules)
    (hP : ∀ k n, (env.userPost k n).Only ApiOp.NoAddNode)
    (hM : ∀ k i n, (env.userMissing k i n).Passive) (n : Nat) (p : Hook W)
    (hp : p.Only ApiOp.NoAddNode) (w : W) (stdlib : List (Str × Implies)) (builtin : Bool) :
    let s := (runClient env n p (initState w stdlib builtin)).2
    Event.failed ∉ s.log →
    ∀ m ∈ s.nodes, ∀ t, (m.kind = .alias t ∨ m.kind = .virtual t) →
      (m.ident, t, defaultDep) ∈ s.edges ∧ ∃ q ∈ s.nodes, q.ident = t := by
  intro s hf m hm t ht
  rcases client_facts env hN hP hM n hp w stdlib builtin with h | h
  · exact absurd h hf
  rcases h.alias m hm t ht with h1 | h1
  · exact ⟨h1, ((C02_no_dangling env n p w stdlib builtin).1.1 _ _ _ h1).2⟩
  · simp at h1

/-- A cycle of aliases, a virtual module and a chain. -/
example :
    let s := (Demo.run Demo.small [.addImplies [(c!"x", .alias c!"y"), (c!"y", .alias c!"x"),
      (c!"v", .virtual c!"x")], .addModule c!"v"]).2
    Event.failed ∉ s.log ∧ s.find c!"v" = some (virtualNode c!"v" c!"x") ∧
    (c!"v", c!"x", defaultDep) ∈ s.edges ∧ (c!"x", c!"y", defaultDep) ∈ s.edges ∧
    (c!"y", c!"x", defaultDep) ∈ s.edges := by decide +kernel

/-! ## C39 and C07 -/

/-- Operations of C39: nothing is built by hand, and the implied references come from `impl`. -/
def Building (impl : List (Str × Implies)) (o : ApiOp) : Prop :=
  o.Declares ∧ ∀ l, o = .addImplies l → ∀ x ∈ l, x ∈ impl

theorem client_edges (env : Env W) (hO : env.OrderOk) (impl : List (Str × Implies))
    (hP : ∀ k n, (env.userPost k n).Only (Building impl))
    (hM : ∀ k i n, (env.userMissing k i n).Passive) (n : Nat) {p : Hook W}
    (hp : p.Only (Building impl)) (w : W) (stdlib : List (Str × Implies)) (builtin : Bool) :
    EdgeCore (Building impl) stdlib (runClient env n p (initState w stdlib builtin)).2 := by
  refine (client_ctx (edgeCtx env hO (Building impl) stdlib (fun _ h => h.1)
    (fun _ => ⟨trivial, by simp⟩)) hP hM n hp (initState w stdlib builtin) ?_).1
  refine ⟨?_, by simp⟩
  have hn := initState_nodes w stdlib builtin
  have he := initState_edges w stdlib builtin
  have hl := initState_log w stdlib builtin
  have hs := initState_stack w stdlib builtin
  have hh := (initState_fields w stdlib builtin).1
  refine ⟨by simp [he], ?_, by simp [pending, hh, hs, hl], by simp [hl]⟩
  intro k names hk r hr
  have := initState_lazy w stdlib builtin k _ hk
  rcases this with h | h
  · simp at h
  · exact ⟨names, hr, .inl h⟩

/-- C39: every edge of a graph that is built from client calls that say what to add, to exclude
and what is implied (`Building`, the same for post-processing hooks), in whatever world, and
whatever fails, is explained by an import statement found in a scan of its source, a package, an
alias, a configured implied dependency, an explicit namespace package, a distribution or mypyc. -/
theorem C39_explained (env : Env W) (hO : env.OrderOk) (impl : List (Str × Implies))
    (hP : ∀ k n, (env.userPost k n).Only (Building impl))
    (hM : ∀ k i n, (env.userMissing k i n).Passive) (n : Nat) (p : Hook W)
    (hp : p.Only (Building impl)) (w : W) (stdlib : List (Str × Implies)) (builtin : Bool) :
    let s := (runClient env n p (initState w stdlib builtin)).2
    ∀ a b d, (a, b, d) ∈ s.edges →
      Explained (fun a b => ∃ names, (a, .refs names) ∈ stdlib ++ impl ∧ b ∈ names)
        s.nodes s.edges s.log a b d := by
  intro s a b d h
  have h1 := (client_edges env hO impl hP hM n hp w stdlib builtin).edges a b d h
  unfold Expl at h1
  refine h1.mono ?_
  rintro a b ⟨names, hb, h | ⟨l, hl, h⟩⟩
  · exact ⟨names, by simp [h], hb⟩
  · exact ⟨names, by simp [hl.2 l rfl _ h], hb⟩

/-- C07, the target: the statement that was completed leads to the node of the module it refers to
(or, pointing outside of the package, to an `InvalidRelativeImport`), with an edge carrying the
statement's information. -/
theorem C07_target (env : Env W) (hO : env.OrderOk) (impl : List (Str × Implies))
    (hP : ∀ k n, (env.userPost k n).Only (Building impl))
    (hM : ∀ k i n, (env.userMissing k i n).Passive) (n : Nat) (p : Hook W)
    (hp : p.Only (Building impl)) (w : W) (stdlib : List (Str × Implies)) (builtin : Bool) :
    let s := (runClient env n p (initState w stdlib builtin)).2
    Event.failed ∉ s.log → s.stack = [] →
    ∀ id infos i, Event.scheduled id infos ∈ s.log → i ∈ infos →
      ∃ m ∈ s.nodes, m.ident = id ∧
        ((∃ t ∈ s.nodes, Refers m i t.ident ∧
          (id, t.ident, fromImportInfo i false i.importModule.asname) ∈ s.edges) ∨
         (PointsOutside m i ∧ ∃ t ∈ s.nodes, t.isInvalidRel = true ∧
          t.ident = List.replicate i.importLevel '.' ++ i.importModule.name ∧
          (id, t.ident, fromImportInfo i false none) ∈ s.edges)) := by
  intro s hf hst id infos i hs hi
  obtain ⟨t, he⟩ := C07_completed env n p w stdlib builtin hf hst id infos i hs hi
  obtain ⟨m, h1, h2, _, h4⟩ := (client_edges env hO impl hP hM n hp w stdlib builtin).imported _ _ _ he
  refine ⟨m, h1, h2, h4.imp ?_ ?_⟩
  · rintro ⟨h5, h6⟩
    obtain ⟨q, hq, rfl⟩ := ((C02_no_dangling env n p w stdlib builtin).1.1 _ _ _ h6).2
    exact ⟨q, hq, h5, h6⟩
  · rintro ⟨h5, h6, ⟨q, hq, rfl, hr⟩, h7⟩
    exact ⟨h5, q, hq, hr, h6, h7⟩

/-- The hypotheses hold for a run with excludes, implied references, a script and an invalid
relative import. -/
example :
    let t : Demo.Table := { Demo.small with
      scripts := [(c!"/s", [Demo.imp c!"a", Demo.fromImp 3 c!"up" [c!"x"]])] }
    let impl := [(c!"b", Implies.refs [c!"p.q", c!"zz"])]
    let ops := [ApiOp.addExcludes [c!"m"], .addImplies impl, .addScript c!"/s"]
    let s := (Demo.run t ops).2
    (Demo.env t).OrderOk ∧ (Demo.client ops).Only (Building impl) ∧
    Event.failed ∉ s.log ∧ s.stack = [] ∧ (c!"b", c!"zz", defaultDep) ∈ s.edges ∧
    Event.scheduled c!"/s" [Demo.imp c!"a", Demo.fromImp 3 c!"up" [c!"x"]] ∈ s.log ∧
    s.has c!"...up" = true := by
  refine ⟨fun _ _ _ h => h, demo_client_only _ _ ?_, ?_⟩
  · intro o ho
    simp only [List.mem_cons, List.not_mem_nil, or_false] at ho
    rcases ho with rfl | rfl | rfl <;> simp [Building, ApiOp.Declares]
  · decide +kernel

end Verif.Props
