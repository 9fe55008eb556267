import Verif.Proofs.PackageWalk
import Verif.Props.FromImportRun
/-!
# C43: `import_package`

The English claim is false of the code for namespace packages inside of the package and for modules
that are not `.py` files (`C43_namespace`, `C43_extension`).
-/
namespace Verif.Props
open Verif Spec
variable {W : Type}

/-- C43, one call: when `import_package(a, name)` returns, there is an edge from `a` to the node
`name`, and if that is a package, an edge from it to each `.py` module directly inside. -/
theorem C43_call_partial (env : Env W) (hM : ∀ k i n, (env.userMissing k i n).Passive) {T : PkgTree}
    (hT : ShowsTree env T) (n : Nat) (a nd : Node) (name : Str) (s s' : St W)
    (h : (calls env n).importPackage a name s = (.ok nd, s')) :
    nd.ident = name ∧ nd ∈ s'.nodes ∧ (a.ident, name, defaultDep) ∈ s'.edges ∧
    (nd.isPackage = true → ∀ c, T.File env.isIdentifier name c →
      (name, name ++ '.' :: c, defaultDep) ∈ s'.edges) := by
  have hd := importPackage_done hM hT h
  exact ⟨hd.ident, hd.node, hd.edge, fun hp c hc => (hd.file hp c hc).1⟩

theorem op_importPackage {env : Env W} {n : Nat} {a : Node} {name : Str} {r} {s s' : St W}
    (h : (calls env n).op (.importPackage a name) s = (.ok r, s')) :
    ∃ k nd, (calls env k).importPackage a name s = (.ok nd, s') := by
  cases n with
  | zero => simp [calls, callsZero, M.throw] at h
  | succ n =>
    change opBody env (calls env n) (.importPackage a name) s = _ at h
    unfold opBody at h
    cases hb : apiBody env (calls env n) (.importPackage a name) s with
    | mk r1 s1 =>
      rw [hb] at h
      cases r1 with
      | error e => simp at h
      | ok r1 =>
        simp only [Prod.mk.injEq, Except.ok.injEq] at h
        obtain ⟨-, rfl⟩ := h
        change M.bind _ _ s = _ at hb
        obtain ⟨nd, s2, h1, h2⟩ := M.bind_ok hb
        obtain ⟨_, rfl⟩ := M.pure_ok h2
        exact ⟨n, nd, h1⟩

/-- A tree that `import_package` started with is there when nothing is queued. -/
theorem tree_reached {env : Env W} (hM : ∀ k i n, (env.userMissing k i n).Passive) {T : PkgTree} (hT : ShowsTree env T)
    {a nd0 : Node} {name : Str} {s : St W} (hc2 : Comp NlKnown (RanG env) [] s) (hf : Event.failed ∉ s.log)
    (hst : s.stack = []) (hh : s.hidden = []) (hd0 : PkgDone env T a name nd0 s) :
    ∀ b x, Reaches T env.isIdentifier s.nodes a.ident name b x →
      (∃ m ∈ s.nodes, m.ident = x) ∧ (b, x, defaultDep) ∈ s.edges := by
  have started : ∀ {it}, Seen it s → Event.started it ∈ s.log := by
    intro it hs
    rcases hs with hs | hs
    · simp [pending, hh, hst] at hs
    · exact hs
  -- every item of the queue was completed
  have items : ∀ b y, Event.started (.pkg b y) ∈ s.log → ∃ nd, PkgDone env T b y nd s := by
    intro b y hs
    rcases (hc2.2.resolve_left hf) _ rfl hs with ⟨k, hb⟩ | ⟨s1, s2, _, ⟨⟨⟨k, hr⟩, _⟩, _⟩, _, hk2⟩
    · cases hb
    · change M.bind _ _ s1 = _ at hr
      obtain ⟨nd, s3, h3, h4⟩ := M.bind_ok hr
      obtain ⟨_, rfl⟩ := M.pure_ok h4
      exact ⟨nd, (importPackage_done hM hT h3).kept hk2⟩
  have main : ∀ b x, Reaches T env.isIdentifier s.nodes a.ident name b x →
      ∃ an nd, an.ident = b ∧ PkgDone env T an x nd s := by
    intro b x hr
    induction hr with
    | start => exact ⟨a, nd0, rfl, hd0⟩
    | @inside b y c _ hp hc ih =>
      obtain ⟨an, nd, _, hd⟩ := ih
      obtain ⟨m, hm, hmi, hmp⟩ := hp
      have : m = nd := UniqueIds.eq hc2.1.uniq hm hd.node (hmi.trans hd.ident.symm)
      subst this
      have hs : Event.started (.pkg m (y ++ '.' :: c)) ∈ s.log := by
        rcases hc with hc | hc
        · exact started (hd.file hmp c hc).2
        · exact started (hd.dir hmp c hc)
      obtain ⟨nd', hd'⟩ := items _ _ hs
      exact ⟨m, nd', hmi, hd'⟩
  intro b x hr
  obtain ⟨an, nd, rfl, hd⟩ := main b x hr
  exact ⟨⟨nd, hd.node, hd.ident⟩, hd.edge⟩

/-- C43, the whole tree: a client (that did anything before, `p`) calls `import_package(a, name)`,
and goes on (`q`, for example leaving the `hook_context`).  If in the end no call has failed and the
queue is empty, there are edges all the way down the package tree: from `a` to `name`, and from every
package that is reached to each `.py` module and each directory directly inside. -/
theorem C43_tree_partial (env : Env W) (hM : ∀ k i n, (env.userMissing k i n).Passive) {T : PkgTree}
    (hT : ShowsTree env T) (n n1 n2 : Nat) (p q : Hook W) (w : W) (stdlib : List (Str × Implies))
    (builtin : Bool) (a : Node) (name : Str) (r) (s' : St W)
    (h : (calls env n1).op (.importPackage a name) (runClient env n p (initState w stdlib builtin)).2 =
      (.ok r, s')) :
    let s := (runClient env n2 q s').2
    Event.failed ∉ s.log → s.stack = [] →
    ∀ b x, Reaches T env.isIdentifier s.nodes a.ident name b x →
      (∃ m ∈ s.nodes, m.ident = x) ∧ (b, x, defaultDep) ∈ s.edges := by
  intro s hf hst
  -- the state before the call
  generalize h0 : (runClient env n p (initState w stdlib builtin)).2 = s0 at h
  have hc0 : Comp NlKnown (RanG env) [] s0 := by
    obtain ⟨h1, h2⟩ := client_completed env n p w stdlib builtin
    rw [h0] at h1 h2
    exact ⟨h1, h2.imp id fun h2 it hi hs => .inr (h2 it hi hs)⟩
  have hh0 : s0.hidden = [] := by
    rw [← h0]
    rw [client_hidden]
    exact (initState_fields w stdlib builtin).1
  have hcl := compClosed (R := RanG env) (nlKnownClosed (W := W))
  have hgood := fun n => calls_good hcl (env := env) (fun _ _ => Hook.only_true _)
    (fun _ => .inl ⟨trivial, fun _ _ _ => Hook.only_true _⟩) n
    (fun it _ _ h => ⟨h, fun hi => runItem_grew env _ hi h.1.choose_spec⟩)
  have h1 := (hgood n1).op (.importPackage a name) [] trivial (.inl trivial) s0 hc0
  rw [h] at h1
  obtain ⟨hh1, hc1⟩ := h1
  have h2 := interp_run hcl (hgood n2) (β := []) trivial (Hook.only_true q) s' hc1
  obtain ⟨hh2, hc2⟩ := h2
  change s.hidden = s'.hidden at hh2
  change Comp NlKnown (RanG env) [] s at hc2
  have hh : s.hidden = [] := by rw [hh2, hh1, hh0]
  have hk : Kept s' s := (keptClosed s').client n2 q s' (.refl s')
  obtain ⟨k, nd0, hcall⟩ := op_importPackage h
  have hd0 := (importPackage_done hM hT hcall).kept hk
  exact tree_reached hM hT hc2 hf hst hh hd0

/-! ## Examples and counterexamples -/

/-- The package tree of a table. -/
def tableTree (t : Demo.Table) : PkgTree where
  locations name := match Demo.lookup t.mods name with
    | some p => (Demo.specOf name p.1).searchLocations.getD []
    | none => []
  files path := (Demo.lookup t.pyFiles path).getD []
  dirs path := (Demo.lookup t.dirs path).getD []

theorem table_shows (t : Demo.Table) : ShowsTree (Demo.env t) (tableTree t) where
  locations name w spec h := by
    simp only [Demo.env, Except.ok.injEq] at h
    unfold tableTree
    cases hl : Demo.lookup t.mods name with
    | none => rw [hl] at h; cases h
    | some p => rw [hl] at h; cases h; simp only [hl]
  files path w l h := by cases h; rfl
  dirs path w l h := by cases h; rfl

/-- The package `p` contains `m.py`, an extension module `ext`, the package `sub` with `n.py`, and the
namespace package `ns` with `x.py`. -/
def pkgTable : Demo.Table where
  mods := [(c!"a", Demo.src c!"a", []),
    (c!"p", Demo.pkg c!"p" [c!"/p"], []),
    (c!"p.m", Demo.src c!"p.m", [Demo.imp c!"a"]),
    (c!"p.ext", { ident := c!"p.ext", kind := .module .extension }, []),
    (c!"p.sub", Demo.pkg c!"p.sub" [c!"/p/sub"], []),
    (c!"p.sub.n", Demo.src c!"p.sub.n", []),
    (c!"p.ns", { ident := c!"p.ns", kind := .namespacePkg [c!"/p/ns"] }, []),
    (c!"p.ns.x", Demo.src c!"p.ns.x", [])]
  pyFiles := [(c!"/p", [c!"m"]), (c!"/p/sub", [c!"n"]), (c!"/p/ns", [c!"x"])]
  dirs := [(c!"/p", [c!"sub", c!"ns"])]

/-- `add_module("a")`, then `import_package(a, "p")`. -/
def pkgRun : Except Exc (Option Node) × St Unit :=
  (calls (Demo.env pkgTable) 30).op (.importPackage (Demo.src c!"a") c!"p")
    (Demo.run pkgTable [.addModule c!"a"]).2

/-- The hypotheses of `C43_tree_partial` and `C43_call_partial` are met: after leaving the context no
call has failed and the queue is empty; `p.sub.n` must be reached, and is. -/
example :
    let s := (runClient (Demo.env pkgTable) 30 (Demo.client [.runStack]) pkgRun.2).2
    pkgRun.1 = .ok (some (Demo.pkg c!"p" [c!"/p"])) ∧ Event.failed ∉ s.log ∧ s.stack = [] ∧
      Reaches (tableTree pkgTable) (Demo.env pkgTable).isIdentifier s.nodes c!"a" c!"p"
        c!"p.sub" c!"p.sub.n" ∧
      (c!"a", c!"p", defaultDep) ∈ s.edges ∧ (c!"p", c!"p.sub", defaultDep) ∈ s.edges ∧
      (c!"p.sub", c!"p.sub.n", defaultDep) ∈ s.edges := by
  intro s
  refine ⟨by decide +kernel, by decide +kernel, by decide +kernel, ?_, by decide +kernel⟩
  refine Reaches.inside (q := c!"p.sub") (c := c!"n") (b := c!"p")
    (Reaches.inside (q := c!"p") (c := c!"sub") .start
      ⟨Demo.pkg c!"p" [c!"/p"], by decide +kernel, rfl, rfl⟩
      (.inr ⟨c!"/p", by decide +kernel, by decide +kernel, rfl⟩))
    ⟨Demo.pkg c!"p.sub" [c!"/p/sub"], by decide +kernel, rfl, rfl⟩
    (.inl ⟨c!"/p/sub", by decide +kernel, by decide +kernel, rfl⟩)

/-- The hooks of the example table are passive. -/
example : ∀ k i n, ((Demo.env pkgTable).userMissing k i n).Passive := fun _ _ _ => .ret

/-- C43 is false, namespace packages: `p.ns.x` is a module file in the sub-package `p.ns` of `p`, but
`import_package("p")` does not find it. -/
theorem C43_namespace :
    let s := (runClient (Demo.env pkgTable) 30 (Demo.client [.runStack]) pkgRun.2).2
    Event.failed ∉ s.log ∧ s.stack = [] ∧ (c!"a", c!"p", defaultDep) ∈ s.edges ∧
      (s.find c!"p.ns").map Node.kind = some (.namespacePkg [c!"/p/ns"]) ∧
      (tableTree pkgTable).files c!"/p/ns" = [c!"x"] ∧ s.find c!"p.ns.x" = none := by
  decide +kernel

/-- C43 is false, extension modules: `p.ext` can be imported from the package, but its file does not
match `*.py`. -/
theorem C43_extension :
    let s := (runClient (Demo.env pkgTable) 30 (Demo.client [.runStack]) pkgRun.2).2
    Event.failed ∉ s.log ∧ s.stack = [] ∧ (c!"a", c!"p", defaultDep) ∈ s.edges ∧
      ((Demo.env pkgTable).findSpec c!"p.ext" ()).1 =
        .ok (some (Demo.specOf c!"p.ext" { ident := c!"p.ext", kind := .module .extension })) ∧
      s.find c!"p.ext" = none := by
  decide +kernel

end Verif.Props
