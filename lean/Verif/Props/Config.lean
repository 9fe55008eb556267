import Verif.Proofs.SchedFacts
import Verif.Props.Nodes
/-!
# C12, C14, C15: names that are excluded, aliases, virtual, or imply other modules

A client program `p1` runs against a new graph, then the name `x`, for which there is no node, is
configured, then the program `p2` runs.  Missing hooks of the user are passive, nobody puts nodes
or import lists in the graph by hand, and the module called `x` is not found under another name
(`Env.OnlyAs`); without the last condition C12 and C15 fail.
-/
namespace Verif.Props
open Verif Spec

variable {W : Type}

theorem client_sched (env : Env W) (hP : ∀ k n, (env.userPost k n).Only ApiOp.NoRaw)
    (hM : ∀ k i n, (env.userMissing k i n).Passive) (n : Nat) {p : Hook W}
    (hp : p.Only ApiOp.NoRaw) (w : W) (stdlib : List (Str × Implies)) (builtin : Bool) :
    SchedCore (runClient env n p (initState w stdlib builtin)).2 := by
  refine client_ctx (schedCtx env) hP hM n hp (initState w stdlib builtin) ⟨?_, ?_⟩
  · simp [pending, (initState_fields w stdlib builtin).1, initState_stack, initState_log]
  · simp [initState_log]

theorem fixCore_start {s : St W} {x i} (h : SchedCore s) (hx : s.has x = false)
    {s' : St W} (hm : More s s') (hp : pending s' = pending s) (hl : s'.log = s.log)
    (hc : s'.lazy x = some i) : FixCore x i s' := by
  have hno : ∀ m ∈ s.nodes, m.ident ≠ x := by
    intro m hm e
    rw [has_of_Has ⟨m, hm, e⟩] at hx; cases hx
  refine ⟨?_, .inr hc, ?_, ?_⟩
  · rw [hp, hl, hm.nodes]; exact h.pp
  · rw [hm.nodes]; exact fun m h1 h2 => absurd h2 (hno m h1)
  · rw [hl]
    intro infos hs
    obtain ⟨m, h1, h2⟩ := h.scan x infos hs
    exact absurd h2 (hno m h1)

theorem excludes_frame (s : St W) (names : List Str) : pending (names.foldl addExclude s) = pending s ∧
    (names.foldl addExclude s).log = s.log :=
  foldl_pres (P := fun s' => pending s' = pending s ∧ s'.log = s.log) (f := addExclude)
    (fun _ _ h => h) names s ⟨rfl, rfl⟩

theorem implies_frame (s : St W) (l : List (Str × Implies)) : pending (l.foldl addImply s) = pending s ∧
    (l.foldl addImply s).log = s.log :=
  foldl_pres (P := fun s' => pending s' = pending s ∧ s'.log = s.log) (f := addImply)
    (fun s a h => by unfold addImply; split <;> exact h) l s ⟨rfl, rfl⟩

theorem excludes_lazy (s : St W) (names : List Str) (x : Str) (hx : x ∈ names) :
    (names.foldl addExclude s).lazy x = some .excluded := by
  induction names generalizing s with
  | nil => simp at hx
  | cons y l ih =>
    rw [List.foldl_cons]
    by_cases hl : x ∈ l
    · exact ih _ hl
    · have : x = y := by
        rcases List.mem_cons.mp hx with h | h
        · exact h
        · exact absurd h hl
      subst this
      exact foldl_pres (P := fun s' : St W => s'.lazy x = some .excluded) (f := addExclude)
        (fun s a h => by simp only [addExclude]; split <;> simp [h]) l _ (by simp [addExclude])

theorem implies_lazy (s : St W) (l1 l2 : List (Str × Implies)) (x : Str) (i : Implies)
    (h : s.lazy x ≠ some .excluded) (h1 : ∀ j, (x, j) ∉ l1) (h2 : ∀ j, (x, j) ∉ l2) :
    ((l1 ++ (x, i) :: l2).foldl addImply s).lazy x = some i := by
  have key : ∀ (l : List (Str × Implies)) (s : St W), (∀ j, (x, j) ∉ l) →
      (l.foldl addImply s).lazy x = s.lazy x := by
    intro l
    induction l with
    | nil => exact fun s _ => rfl
    | cons y l ih =>
      intro s hy
      rw [List.foldl_cons, ih _ (fun j hj => hy j (List.mem_cons_of_mem _ hj))]
      unfold addImply
      split
      · rfl
      · refine if_neg ?_
        intro e
        exact hy y.2 (by rw [e]; exact List.mem_cons_self ..)
  rw [List.foldl_append, List.foldl_cons, key l2 _ h2]
  have := key l1 s h1
  generalize l1.foldl addImply s = s1 at this
  unfold addImply
  rw [if_neg (by show ¬ s1.lazy x = _; rw [this]; exact h)]
  simp

/-! ## C12 -/

/-- C12: a node for an excluded module name is an `ExcludedModule`, or a `MissingModule` in a
missing package; its imports are never scanned (unless a script of that name is added).
Missing for the full claim: modules that are also found under another name (`Env.OnlyAs` is not
met), see `C12_excluded_but_loaded`. -/
theorem C12_excluded_partial (env : Env W)
    (hP : ∀ k n, (env.userPost k n).Only ApiOp.NoRaw)
    (hM : ∀ k i n, (env.userMissing k i n).Passive) (n : Nat) (p1 p2 : Hook W)
    (hp1 : p1.Only ApiOp.NoRaw) (hp2 : p2.Only ApiOp.NoRaw) (w : W)
    (stdlib : List (Str × Implies)) (builtin : Bool) (names : List Str) (x : Str) (hx : x ∈ names)
    (hK : env.OnlyAs x) :
    let s1 := (runClient env n p1 (initState w stdlib builtin)).2
    let s2 := ((calls env (n + 1)).op (.addExcludes names) s1).2
    let s3 := (runClient env n p2 s2).2
    s1.has x = false →
    (∀ m ∈ s3.nodes, m.ident = x → m.namesModule = true → m.isExcluded = true ∨
      (m.isMissing = true ∧ ∃ q ∈ s3.nodes, q.isMissing = true ∧ InPackage x q.ident)) ∧
    ∀ infos, Event.scheduled x infos ∈ s3.log → infos = [] ∨
      ∃ m ∈ s3.nodes, m.ident = x ∧ m.isScript = true := by
  intro s1 s2 s3 hh
  have h1 : SchedCore s1 := client_sched env hP hM n hp1 w stdlib builtin
  have h2 : FixCore x .excluded s2 :=
    fixCore_start h1 hh (more_excludes s1 names) (excludes_frame s1 names).1 (excludes_frame s1 names).2
      (excludes_lazy s1 names x hx)
  have hA : ∀ o : ApiOp, o.NoRaw → FixA x .excluded o := by
    intro o ho
    refine ⟨ho, ?_⟩
    cases o <;> simp [ApiOp.KeepsConf]
  have h3 : FixCore x .excluded s3 := (client_ctx (fixCtx env hK (by simp [kindFor]))
    (fun k n => (hP k n).mono hA) hM n (hp2.mono hA) s2 ⟨h2, by simp⟩).1
  refine ⟨?_, h3.scan⟩
  intro m hm hid hb
  rcases h3.node m hm hid hb with h | h | h
  · left
    simp only [kindFor, Option.some.injEq] at h
    simp [Node.isExcluded, ← h]
  · exact .inr h
  · exact .inl h.1

/-- The full claim fails: `posixpath` is excluded, but it is loaded and scanned when it is found as
`os.path`. -/
theorem C12_excluded_but_loaded :
    let t : Demo.Table := { mods := [(c!"os", Demo.pkg c!"os", []),
      (c!"os.path", Demo.src c!"posixpath", [Demo.imp c!"os"])] }
    let s := (Demo.run t [.addExcludes [c!"posixpath"], .addModule c!"os.path"]).2
    s.find c!"posixpath" = some (Demo.src c!"posixpath") ∧
    Event.scheduled c!"posixpath" [Demo.imp c!"os"] ∈ s.log := by decide +kernel

theorem demo_keeps (t : Demo.Table) (h : ∀ x ∈ t.mods, x.2.1.ident = x.1) :
    (Demo.env t).KeepsNames := by
  intro name spec w w' n imports h1 h2
  have hlk : ∀ k q, Demo.lookup t.mods k = some q → q.1.ident = k := by
    intro k q hq
    unfold Demo.lookup at hq
    cases hf : t.mods.find? fun p => p.1 == k with
    | none => rw [hf] at hq; simp at hq
    | some y =>
      rw [hf] at hq
      simp at hq
      have := List.find?_some hf
      simp at this
      rw [← hq, h y (List.mem_of_find?_eq_some hf), this]
  have hn : spec.name = name := by
    replace h1 := locates_iff.mp h1
    simp only [resolveSpec, Demo.env] at h1
    cases hl : Demo.lookup t.mods name with
    | none => rw [hl] at h1; simp at h1
    | some q => rw [hl] at h1; simp [Demo.specOf] at h1; rw [← h1]
  simp only [Demo.env] at h2
  cases hl : Demo.lookup t.mods spec.name with
  | none => rw [hl] at h2; simp at h2
  | some q =>
    rw [hl] at h2
    simp at h2
    have := hlk _ _ hl
    rw [h2, hn] at this
    exact this

/-- `b` is excluded, then imported by `a`; `p` is missing in the second world, so that the excluded
`p.q` becomes missing. -/
example :
    (Demo.env Demo.small).KeepsNames ∧
    (Demo.client [.addModule c!"a", .addModule c!"zz.q"]).Only ApiOp.NoRaw ∧
    (Demo.client [ApiOp.addModule c!"m"]).Only ApiOp.NoRaw ∧
    (let s1 := (runClient (Demo.env Demo.small) 30 (Demo.client [.addModule c!"m"])
        (initState () [] true)).2
     let s2 := ((calls (Demo.env Demo.small) 31).op (.addExcludes [c!"b", c!"zz.q"]) s1).2
     let s3 := (runClient (Demo.env Demo.small) 30 (Demo.client [.addModule c!"a", .addModule c!"zz.q"]) s2).2
     s1.has c!"b" = false ∧ s1.has c!"zz.q" = false ∧ s3.find c!"b" = some (excludedNode c!"b") ∧
     s3.find c!"zz.q" = some (missingNode c!"zz.q")) :=
  ⟨demo_keeps _ (by decide +kernel), demo_client_only _ _ (by simp [ApiOp.NoRaw]),
    demo_client_only _ _ (by simp [ApiOp.NoRaw]), by decide +kernel⟩

/-! ## C14 -/

/-- C14: a name configured as alias or virtual module, and not configured otherwise afterwards,
becomes an `AliasNode` or `VirtualNode` with its target; unless its package is missing or excluded
(`PkgBlocked`).  With `C14_target_linked` this node then has an edge to its target. -/
theorem C14_configured (env : Env W) (x t : Str) (hK : env.OnlyAs x) (i : Implies)
    (hi : i = .alias t ∨ i = .virtual t)
    (hP : ∀ k n, (env.userPost k n).Only fun o => o.NoRaw ∧ o.KeepsConf x i)
    (hM : ∀ k i n, (env.userMissing k i n).Passive) (n : Nat) (p1 p2 : Hook W)
    (hp1 : p1.Only ApiOp.NoRaw) (hp2 : p2.Only fun o => o.NoRaw ∧ o.KeepsConf x i) (w : W)
    (stdlib : List (Str × Implies)) (builtin : Bool) (l1 l2 : List (Str × Implies))
    (h1 : ∀ j, (x, j) ∉ l1) (h2 : ∀ j, (x, j) ∉ l2) :
    let s1 := (runClient env n p1 (initState w stdlib builtin)).2
    let s2 := ((calls env (n + 1)).op (.addImplies (l1 ++ (x, i) :: l2)) s1).2
    let s3 := (runClient env n p2 s2).2
    s1.has x = false → s1.lazy x ≠ some .excluded →
    ∀ m ∈ s3.nodes, m.ident = x → m.namesModule = true →
      (i = .alias t ∧ m.kind = .alias t) ∨ (i = .virtual t ∧ m.kind = .virtual t) ∨
      PkgBlocked s3.nodes x m := by
  intro s1 s2 s3 hh hne m hm hid hb
  have hc1 : SchedCore s1 := client_sched env (fun k n => (hP k n).mono fun _ h => h.1) hM n hp1 w stdlib builtin
  have hc2 : FixCore x i s2 :=
    fixCore_start hc1 hh (more_implies s1 _) (implies_frame s1 _).1 (implies_frame s1 _).2
      (implies_lazy s1 l1 l2 x i hne h1 h2)
  have hk : kindFor i ≠ none := by rcases hi with rfl | rfl <;> simp [kindFor]
  have hc3 : FixCore x i s3 := (client_ctx (fixCtx env hK hk) hP hM n hp2 s2 ⟨hc2, by simp⟩).1
  rcases hc3.node m hm hid hb with h | h
  · rcases hi with rfl | rfl
    · simp only [kindFor, Option.some.injEq] at h
      exact .inl ⟨rfl, h.symm⟩
    · simp only [kindFor, Option.some.injEq] at h
      exact .inr (.inl ⟨rfl, h.symm⟩)
  · exact .inr (.inr h)

example :
    (Demo.client [ApiOp.addModule c!"a"]).Only (fun o => o.NoRaw ∧ o.KeepsConf c!"b" (.alias c!"p.q")) ∧
    (let s1 := (runClient (Demo.env Demo.small) 30 (Demo.client [.addModule c!"m"])
        (initState () [] true)).2
     let s2 := ((calls (Demo.env Demo.small) 31).op (.addImplies [(c!"b", .alias c!"p.q")]) s1).2
     let s3 := (runClient (Demo.env Demo.small) 30 (Demo.client [.addModule c!"a"]) s2).2
     s1.has c!"b" = false ∧ s1.lazy c!"b" ≠ some .excluded ∧
     s3.find c!"b" = some (aliasNode c!"b" c!"p.q") ∧
     (c!"b", c!"p.q", defaultDep) ∈ s3.edges) :=
  ⟨demo_client_only _ _ (by simp [ApiOp.NoRaw, ApiOp.KeepsConf]), by decide +kernel⟩

/-! ## C15 -/

/-- C15: in every state in which `x` has an implied dependency list and there is no module node
for `x` (after `add_implies`, or in a new graph), whatever client program follows: if nothing
failed, a module node `x` has edges to all listed modules, unless its package is missing or
excluded.  Missing for the full claim: modules that are also found under another name, see
`C15_not_implied`. -/
theorem C15_implied_partial (env : Env W) (x : Str) (hK : env.OnlyAs x) (names : List Str)
    (hP : ∀ k n, (env.userPost k n).Only (ApiOp.Ignores x))
    (hM : ∀ k i n, (env.userMissing k i n).Passive) (n : Nat) (p : Hook W)
    (hp : p.Only (ApiOp.Ignores x)) (s : St W) (hl : s.lazy x = some (.refs names))
    (hno : ∀ m ∈ s.nodes, m.ident = x → m.namesModule = false) :
    let s' := (runClient env n p s).2
    Event.failed ∉ s'.log →
    ∀ m ∈ s'.nodes, m.ident = x → m.namesModule = true →
      (∀ r ∈ names, (x, r, defaultDep) ∈ s'.edges) ∨ PkgBlocked s'.nodes x m := by
  intro s' hf m hm hid hb
  have h : RefsJ x names [] s' := client_ctx (refsCtx env hK) hP hM n hp s
    (.inr ⟨by simp, .inl ⟨hl, fun m h1 h2 h3 => by rw [hno m h1 h2] at h3; cases h3⟩⟩)
  rcases h with h | h
  · exact absurd h hf
  rcases h.phase with ⟨_, h1⟩ | ⟨_, ⟨rest, h1, _⟩ | h1⟩
  · exact .inr (h1 m hm hid hb)
  · simp at h1
  · exact .inl h1

/-- Mutually recursive entries, one of the listed modules missing. -/
example :
    (let s := (Demo.run Demo.small [.addImplies [(c!"b", .refs [c!"a", c!"zz"]), (c!"a", .refs [c!"b"])]]).2
     s.lazy c!"b" = some (.refs [c!"a", c!"zz"]) ∧ s.has c!"b" = false) ∧
    (Demo.client [ApiOp.addModule c!"a"]).Only (ApiOp.Ignores c!"b") ∧
    (let s := (Demo.run Demo.small [.addImplies [(c!"b", .refs [c!"a", c!"zz"]), (c!"a", .refs [c!"b"])],
        .addModule c!"a"]).2
     Event.failed ∉ s.log ∧ (c!"b", c!"a", defaultDep) ∈ s.edges ∧
     (c!"b", c!"zz", defaultDep) ∈ s.edges) :=
  ⟨by decide +kernel, demo_client_only _ _ (by simp [ApiOp.Ignores]), by decide +kernel⟩

/-- The full claim fails: `posixpath` has an implied dependency, but is first found as `os.path`. -/
theorem C15_not_implied :
    let t : Demo.Table := { mods := [(c!"os", Demo.pkg c!"os", []),
      (c!"os.path", Demo.src c!"posixpath", []), (c!"posixpath", Demo.src c!"posixpath", [])] }
    let s := (Demo.run t [.addImplies [(c!"posixpath", .refs [c!"zz"])], .addModule c!"os.path",
      .addModule c!"posixpath"]).2
    Event.failed ∉ s.log ∧ s.find c!"posixpath" = some (Demo.src c!"posixpath") ∧
      s.has c!"zz" = false := by decide +kernel

end Verif.Props
