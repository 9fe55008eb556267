import Verif.Proofs.Scans
import Verif.Proofs.Load
import Verif.Props.Api
import Verif.Props.Config
import Verif.Props.Queue
/-!
# C07, C49, C50, C52: what is loaded is scanned

C07 is stated for the import lists that were scheduled; here it is shown that these are the lists
that the loaders reported.  Missing hooks of the user are passive and nobody puts nodes in the graph
by hand.
-/
namespace Verif.Props
open Verif Spec

variable {W : Type}

/-! ## C07 -/

/-- There is an edge for the import statement `i` in `m`. -/
def ImportEdge (s : St W) (m : Node) (i : ImportInfo) : Prop :=
  ∃ target as, (m.ident, target, fromImportInfo i false as) ∈ s.edges ∧
    (as = i.importModule.asname ∨ (i.importLevel ≠ 0 ∧ as = none))

/-- C07, modules: if no call failed and the queue is empty, every module, package and namespace
package in the graph was made by the loader of a spec that was found for some name, and there is an
edge for each of the import statements that the loader found in it (the node that the SWIG hook
makes is not scanned). -/
theorem C07_scanned_module (env : Env W) (hP : ∀ k n, (env.userPost k n).Only ApiOp.NoAddNode)
    (hM : ∀ k i n, (env.userMissing k i n).Passive) (n : Nat) (p : Hook W)
    (hp : p.Only ApiOp.NoAddNode) (w : W) (stdlib : List (Str × Implies)) (builtin : Bool) :
    let s := (runClient env n p (initState w stdlib builtin)).2
    Event.failed ∉ s.log → s.stack = [] →
    ∀ m ∈ s.nodes, m.isLoaded = true → ¬ SwigNode m →
      ∃ name imports, FromSpec env name m imports ∧ ∀ i ∈ imports, ImportEdge s m i := by
  intro s hf hst m hm hl hsw
  have hs : m.isScript = false := by
    unfold Node.isLoaded Node.isModule Node.isPackage Node.isNamespacePkg at hl
    unfold Node.isScript
    cases hk : m.kind <;> simp_all
  rcases client_scans env hP hM n hp w stdlib builtin hf m hm with h | h | h | h
  · simp [Node.isStandIn, hl] at h
  · exact absurd h hsw
  · obtain ⟨name, imports, h1, ⟨h2, _⟩ | h2⟩ := h
    · exact ⟨name, imports, h1, fun i hi =>
        C07_every_import_has_edge env n p w stdlib builtin hf hst _ _ i h2 hi⟩
    · cases h2
  · obtain ⟨_, _, h1, _⟩ := h
    rw [hs] at h1; cases h1

/-- C07, scripts: the same for each script, with the import statements found in its file. -/
theorem C07_scanned_script (env : Env W) (hP : ∀ k n, (env.userPost k n).Only ApiOp.NoAddNode)
    (hM : ∀ k i n, (env.userMissing k i n).Passive) (n : Nat) (p : Hook W)
    (hp : p.Only ApiOp.NoAddNode) (w : W) (stdlib : List (Str × Implies)) (builtin : Bool)
    (hN : env.MakesModules) :
    let s := (runClient env n p (initState w stdlib builtin)).2
    Event.failed ∉ s.log → s.stack = [] →
    ∀ m ∈ s.nodes, m.isScript = true →
      ∃ infos file, (∃ w, (env.loadScript m.ident w).1 = .ok (infos, file)) ∧
        m.filename = some file ∧ ∀ i ∈ infos, ImportEdge s m i := by
  intro s hf hst m hm hl
  rcases client_scans env hP hM n hp w stdlib builtin hf m hm with h | h | h | h
  · simp [Node.isStandIn, hl] at h
  · unfold Node.isScript at hl
    unfold SwigNode Node.isExtension at h
    cases hk : m.kind <;> simp_all
  · obtain ⟨name, imports, ⟨_, _, _, _, h1⟩, _⟩ := h
    have := hN _ _ _ _ h1
    unfold Node.isScript at hl
    unfold Node.isLoaded Node.isMissing Node.isModule Node.isPackage Node.isNamespacePkg at this
    cases hk : m.kind <;> simp_all
  · obtain ⟨infos, file, _, h2, h3, h4⟩ := h
    exact ⟨infos, file, h2, h3, fun i hi =>
      C07_every_import_has_edge env n p w stdlib builtin hf hst _ _ i h4 hi⟩

/-- `a`, `b`, `p`, `p.q` and the script `/s.py` were loaded. -/
example :
    let s := (Demo.run Demo.small [.addScript c!"/s.py"]).2
    Event.failed ∉ s.log ∧ s.stack = [] ∧
      (s.nodes.filter Node.isLoaded).map Node.ident = [c!"a", c!"b", c!"p", c!"p.q"] ∧
      (s.nodes.filter Node.isScript).map Node.ident = [c!"/s.py"] ∧
      (c!"a", c!"b", fromImportInfo (Demo.imp c!"b") false none) ∈ s.edges := by decide +kernel

/-! ## C49 -/

/-- C49: when `import_module(importing, name)` returns, it returns the node called `name`, and there
is an edge from the importing node to it.  Nothing becomes a root and everything that was waiting
in the queue is still waiting. -/
theorem C49_import_module (env : Env W) (hM : ∀ k i n, (env.userMissing k i n).Passive) (n : Nat)
    (importing : Node) (name : Str) (s s' : St W) (r : Option Node)
    (h : (calls env n).op (.importModule importing name) s = (.ok r, s')) :
    ∃ m, r = some m ∧ m.ident = name ∧ m ∈ s'.nodes ∧
      (importing.ident, name, defaultDep) ∈ s'.edges ∧ s'.roots = s.roots ∧ s.stack <+: s'.stack := by
  cases n with
  | zero => simp [calls, callsZero, M.throw] at h
  | succ n =>
    obtain ⟨m, s1, h1, h2⟩ := M.bind_ok (op_ok h)
    obtain ⟨hm, rfl⟩ := M.pure_ok h2
    subst hm
    obtain ⟨f, s2, h0, h1⟩ := M.bind_ok h1
    obtain ⟨nd, s3, h3, h1⟩ := M.bind_ok h1
    obtain ⟨_, s4, h4, h1⟩ := M.bind_ok h1
    obtain ⟨rfl, rfl⟩ := M.pure_ok h1
    obtain ⟨_, _, rfl⟩ := M.addEdge_ok h4
    obtain ⟨rfl, rfl, _⟩ := M.findModule_ok h0
    have key : nd.ident = name ∧ nd ∈ s3.nodes ∧ s3.roots = s2.roots ∧ s2.stack <+: s3.stack := by
      cases hf : s2.find name with
      | some x =>
        rw [hf] at h3
        obtain ⟨rfl, rfl⟩ := M.pure_ok h3
        exact ⟨(find_some hf).2, (find_some hf).1, rfl, List.prefix_rfl⟩
      | none =>
        rw [hf] at h3
        simp only [] at h3
        have h5 := (calls_triv env hM n).findOrLoad (some importing) name true [] s2 trivial (.inl rfl)
        have h6 := findOrLoad_loads env hM n h3
        rw [h3] at h5
        exact ⟨h5.2.2.1, h5.2.2.2, h6.roots, h6.stack⟩
    obtain ⟨h5, h6, h7, h8⟩ := key
    refine ⟨nd, rfl, h5, ?_, ?_, ?_, ?_⟩
    · rw [addEdge_nodes]; exact h6
    · rw [← h5]; exact addEdge_mem ..
    · rw [addEdge_roots]; exact h7
    · unfold St.addEdge; split <;> exact h8

/-- A hook for `b` imports `zz`, which does not exist. -/
example :
    let s := (Demo.run Demo.small [.addModule c!"b"]).2
    ((calls (Demo.env Demo.small) 30).op (.importModule (Demo.src c!"b") c!"zz") s).1.toOption =
      some (some (missingNode c!"zz")) ∧ s.has c!"zz" = false := by decide +kernel

/-! ## C50 -/

/-- The module that implements the kind of namespace package. -/
def implementedBy : NsType → Str
  | .pkgutil => c!"pkgutil"
  | .pkgResources => c!"pkg_resources"

/-- C50: if no call failed, an explicit namespace package has an edge to the module that implements
it.  Missing for the full claim: packages that are found under another name, see
`C50_other_name`. -/
theorem C50_namespace_partial (env : Env W) (hP : ∀ k n, (env.userPost k n).Only ApiOp.NoAddNode)
    (hM : ∀ k i n, (env.userMissing k i n).Passive) (n : Nat) (p : Hook W)
    (hp : p.Only ApiOp.NoAddNode) (w : W) (stdlib : List (Str × Implies)) (builtin : Bool) :
    let s := (runClient env n p (initState w stdlib builtin)).2
    Event.failed ∉ s.log →
    ∀ m ∈ s.nodes, ∀ fr init sp hd ns, m.kind = .package fr init sp hd (some ns) →
      ((∃ h ∈ s.nodes, h.ident = implementedBy ns) ∧
        (m.ident, implementedBy ns, defaultDep) ∈ s.edges) ∨
      ∃ name imports, name ≠ m.ident ∧ FromSpec env name m imports := by
  intro s hf m hm fr init sp hd ns hk
  rcases client_scans env hP hM n hp w stdlib builtin hf m hm with h | h | h | h
  · simp [Node.isStandIn, Node.isLoaded, Node.isPackage, hk] at h
  · simp [SwigNode, Node.isExtension, hk] at h
  · obtain ⟨name, imports, h1, ⟨h2, h3⟩ | h2⟩ := h
    · by_cases hne : m.ident = name
      · have he := h3 hne fr init sp hd ns hk
        have he' : (m.ident, implementedBy ns, defaultDep) ∈ s.edges := by
          cases ns <;> exact he
        exact .inl ⟨((C02_no_dangling env n p w stdlib builtin).1.1 _ _ _ he').2, he'⟩
      · exact .inr ⟨name, imports, fun h => hne h.symm, h1⟩
    · cases h2
  · obtain ⟨_, _, h1, _⟩ := h
    simp [Node.isScript, hk] at h1

/-- A namespace package for `pkg_resources`. -/
def nsPkg (name : Str) (ns : NsType) : Node :=
  { ident := name, kind := .package false { name := c!"__init__", kind := .source } [] false (some ns) }

/-- Two namespace packages. -/
example :
    let t : Demo.Table := { mods := [(c!"n", nsPkg c!"n" .pkgResources, []),
      (c!"n.k", nsPkg c!"n.k" .pkgutil, []), (c!"pkgutil", Demo.src c!"pkgutil", [])] }
    let s := (Demo.run t [.addModule c!"n.k"]).2
    Event.failed ∉ s.log ∧ s.nodes.contains (nsPkg c!"n" .pkgResources) ∧
      (c!"n.k", c!"pkgutil", defaultDep) ∈ s.edges ∧
      (c!"n", c!"pkg_resources", defaultDep) ∈ s.edges := by decide +kernel

/-- The full claim fails: a package that was found under another name has no edge. -/
theorem C50_other_name :
    let t : Demo.Table := { mods := [(c!"x", nsPkg c!"n" .pkgutil, []),
      (c!"pkgutil", Demo.src c!"pkgutil", [])] }
    let s := (Demo.run t [.addModule c!"x", .addModule c!"pkgutil"]).2
    Event.failed ∉ s.log ∧ nsPkg c!"n" .pkgutil ∈ s.nodes ∧
      ∀ e ∈ s.edges, e.1 ≠ c!"n" := by decide +kernel

/-! ## C52 -/

theorem addImply_excluded (s : St W) (l : List (Str × Implies)) (x : Str)
    (h : s.lazy x = some .excluded) : (l.foldl addImply s).lazy x = some .excluded :=
  foldl_pres (P := fun s' : St W => s'.lazy x = some .excluded) (f := addImply)
    (fun s a h => by
      unfold addImply
      split
      · exact h
      · show (if x = a.1 then some a.2 else s.lazy x) = _
        by_cases he : x = a.1
        · subst he; contradiction
        · rw [if_neg he]; exact h) l s h

theorem main_excluded (w : W) (stdlib : List (Str × Implies)) (builtin : Bool) :
    (initState w stdlib builtin).lazy c!"__main__" = some .excluded := by
  unfold initState
  simp only []
  have := addImply_excluded (W := W)
    { world := w, lazy := fun k => if k = c!"__main__" then some .excluded else none } stdlib
    c!"__main__" (by simp)
  split <;> exact this

/-- C52: whatever is configured, a node for the module name `__main__` is an `ExcludedModule`; its
imports are never scanned (unless a script of that name is added).
Missing for the full claim: a module called `__main__` that is found under another name. -/
theorem C52_main_partial (env : Env W) (hK : env.OnlyAs c!"__main__")
    (hP : ∀ k n, (env.userPost k n).Only ApiOp.NoRaw)
    (hM : ∀ k i n, (env.userMissing k i n).Passive) (n : Nat) (p : Hook W)
    (hp : p.Only ApiOp.NoRaw) (w : W) (stdlib : List (Str × Implies)) (builtin : Bool) :
    let s := (runClient env n p (initState w stdlib builtin)).2
    (∀ m ∈ s.nodes, m.ident = c!"__main__" → m.namesModule = true → m.isExcluded = true) ∧
    ∀ infos, Event.scheduled c!"__main__" infos ∈ s.log → infos = [] ∨
      ∃ m ∈ s.nodes, m.ident = c!"__main__" ∧ m.isScript = true := by
  intro s
  have h2 : FixCore c!"__main__" .excluded (initState w stdlib builtin) := by
    refine ⟨?_, .inr (main_excluded ..), ?_, ?_⟩
    · intro a ha; simp [pending, initState_fields, initState_log] at ha
    · simp [initState_nodes]
    · simp [initState_log]
  have hA : ∀ o : ApiOp, o.NoRaw → FixA c!"__main__" .excluded o := by
    intro o ho
    refine ⟨ho, ?_⟩
    cases o <;> simp [ApiOp.KeepsConf]
  have h3 : FixCore c!"__main__" .excluded s := (client_ctx (fixCtx env hK (by simp [kindFor]))
    (fun k n => (hP k n).mono hA) hM n (hp.mono hA) _ ⟨h2, by simp⟩).1
  refine ⟨?_, h3.scan⟩
  intro m hm hid hb
  rcases h3.node m hm hid hb with h | h | h
  · simp only [kindFor, Option.some.injEq] at h
    simp [Node.isExcluded, ← h]
  · obtain ⟨_, q, _, _, hq⟩ := h
    obtain ⟨x, hx, h | ⟨hne, hdots, h⟩⟩ := hq
    · have : '.' ∈ c!"__main__" := by rw [h]; simp
      exact absurd this (by decide)
    · cases hb : q.ident with
      | nil => exact absurd hb hne
      | cons c b =>
        rw [hb] at h hdots
        have h1 := hdots c (List.mem_cons_self ..)
        rw [List.cons_append, h1] at h
        simp at h
  · exact h.1

/-- A module imports `__main__`, which could be found. -/
example :
    let t : Demo.Table := { mods := [(c!"a", Demo.src c!"a", [Demo.imp c!"__main__"]),
      (c!"__main__", Demo.src c!"__main__", [Demo.imp c!"b"])] }
    (Demo.env t).OnlyAs c!"__main__" ∧
    (Demo.client [ApiOp.addImplies [(c!"__main__", .refs [])], .addModule c!"a"]).Only ApiOp.NoRaw ∧
    (let s := (Demo.run t [.addImplies [(c!"__main__", .refs [])], .addModule c!"a"]).2
     s.nodes = [Demo.src c!"a", excludedNode c!"__main__"]) :=
  ⟨(demo_keeps _ (by decide +kernel)).only _, demo_client_only _ _ (by simp [ApiOp.NoRaw]),
    by decide +kernel⟩

/-- The full claim fails: a module called `__main__` that is found under another name is scanned. -/
theorem C52_other_name :
    let t : Demo.Table := { mods := [(c!"x", Demo.src c!"__main__", [Demo.imp c!"b"])] }
    let s := (Demo.run t [.addModule c!"x"]).2
    s.find c!"__main__" = some (Demo.src c!"__main__") ∧
    Event.scheduled c!"__main__" [Demo.imp c!"b"] ∈ s.log := by decide +kernel

end Verif.Props
