import Verif.Proofs.Recipes
import Verif.Props.ImportPackage
import Verif.Props.Scanned
/-!
# C79: what post-processing hooks ask for is done for every node

Client programs that register hooks and then do anything (also register more hooks).  The hooks and the
client use the interface of the graph, but do not add nodes or lists of import statements by hand.
-/
namespace Verif.Props
open Verif Spec
variable {W : Type}

theorem noRaw_noAddNode {p : Hook W} (h : p.Only ApiOp.NoRaw) : p.Only ApiOp.NoAddNode :=
  h.mono fun o ho => by cases o <;> first | trivial | exact ho.elim

section
variable (env : Env W) (hN : env.MakesModules) (hP : ∀ k n, (env.userPost k n).Only ApiOp.NoRaw)
  (hM : ∀ k i n, (env.userMissing k i n).Passive) (n : Nat) (hs : List PostHook) (p : Hook W)
  (hp : p.Only ApiOp.NoRaw) (w : W) (stdlib : List (Str × Implies)) (builtin : Bool)
include hN hP hM hp

theorem asked_done :
    let s := (runClient env (n + 1) (register hs p) (initState w stdlib builtin)).2
    Event.failed ∉ s.log → s.stack = [] → ∀ m ∈ s.nodes, m.isBaseNode = true → ¬ SwigNode m →
    ∀ k, .user k ∈ hs → ∀ o, (env.userPost k m).Asks o →
      ∃ d t r t', (calls env d).op o t = (.ok r, t') ∧ Kept t' s := by
  intro s hf hst m hm hb hsw k hk o ho
  have hp' : (register hs p).Only ApiOp.NoRaw := register_only hp fun _ => trivial
  have h1 : ppStarted m.ident s.log = 1 := C05_every_node_partial env hN (fun k n => noRaw_noAddNode (hP k n)) hM
    (n + 1) _ (noRaw_noAddNode hp') w stdlib builtin hf hst m hm hb hsw
  obtain ⟨e, h2, h3⟩ := List.countP_pos_iff.mp (show 0 < ppStarted m.ident s.log by omega)
  have h4 : Event.started (.pp m) ∈ s.log := by
    cases e with
    | started it =>
      cases it with
      | pp m' =>
        have h5 : m' ∈ s.nodes := client_postIn env hP hM (n + 1) hp' w stdlib builtin m' (.inr h2)
        have : m' = m := UniqueIds.eq (C01_unique_ids env (n + 1) _ w stdlib builtin).1 h5 hm
          (by simpa [isStart, isPp] using h3)
        exact this ▸ h2
      | _ => simp [isStart, isPp] at h3
    | _ => simp [isStart] at h3
  exact client_asks env n p w stdlib builtin hs hf m h4 k hk o ho

/-- C79, `import_module`: a hook asks for `import_module(a, x)` when it gets the node `m` of the graph.  When
no call failed and nothing is queued there is an edge from `a` to the node `x`. -/
theorem C79_import_module :
    let s := (runClient env (n + 1) (register hs p) (initState w stdlib builtin)).2
    Event.failed ∉ s.log → s.stack = [] → ∀ m ∈ s.nodes, m.isBaseNode = true → ¬ SwigNode m →
    ∀ k, .user k ∈ hs → ∀ a x, (env.userPost k m).Asks (.importModule a x) →
      (∃ y ∈ s.nodes, y.ident = x) ∧ (a.ident, x, defaultDep) ∈ s.edges := by
  intro s hf hst m hm hb hsw k hk a x ho
  obtain ⟨d, t, r, t', h1, h2⟩ := asked_done env hN hP hM n hs p hp w stdlib builtin hf hst m hm hb hsw k hk _ ho
  obtain ⟨y, _, h3, h4, h5, _⟩ := C49_import_module env hM d a x t t' r h1
  exact ⟨⟨y, h2.nodes.subset h4, h3⟩, h2.edges _ h5⟩

/-- C79, `add_module`: what the hook asks for is a root. -/
theorem C79_add_module :
    let s := (runClient env (n + 1) (register hs p) (initState w stdlib builtin)).2
    Event.failed ∉ s.log → s.stack = [] → ∀ m ∈ s.nodes, m.isBaseNode = true → ¬ SwigNode m →
    ∀ k, .user k ∈ hs → ∀ x, (env.userPost k m).Asks (.addModule x) →
      (∃ y ∈ s.nodes, y.ident = x) ∧ x ∈ s.roots := by
  intro s hf hst m hm hb hsw k hk x ho
  obtain ⟨d, t, r, t', h1, h2⟩ := asked_done env hN hP hM n hs p hp w stdlib builtin hf hst m hm hb hsw k hk _ ho
  obtain ⟨y, _, h3, h4, h5, _⟩ := C16_result env hM d x t t' r h1
  exact ⟨⟨y, h2.nodes.subset h4, h3⟩, h2.roots _ h5⟩

/-- C79, `import_package`: a package and its modules and directories, all the way down the package tree
(`Reaches`, as in C43). -/
theorem C79_import_package {T : PkgTree} (hT : ShowsTree env T) :
    let s := (runClient env (n + 1) (register hs p) (initState w stdlib builtin)).2
    Event.failed ∉ s.log → s.stack = [] → ∀ m ∈ s.nodes, m.isBaseNode = true → ¬ SwigNode m →
    ∀ k, .user k ∈ hs → ∀ a name, (env.userPost k m).Asks (.importPackage a name) →
    ∀ b x, Reaches T env.isIdentifier s.nodes a.ident name b x →
      (∃ y ∈ s.nodes, y.ident = x) ∧ (b, x, defaultDep) ∈ s.edges := by
  intro s hf hst m hm hb hsw k hk a name ho
  obtain ⟨d, t, r, t', h1, h2⟩ := asked_done env hN hP hM n hs p hp w stdlib builtin hf hst m hm hb hsw k hk _ ho
  obtain ⟨k, nd, h3⟩ := op_importPackage h1
  have hc := client_completed env (n + 1) (register hs p) w stdlib builtin
  refine tree_reached hM hT ⟨hc.1, hc.2.imp id fun h it hi hs => .inr (h it hi hs)⟩ hf hst ?_
    ((importPackage_done hM hT h3).kept h2)
  exact (client_hidden env (n + 1) _ _).trans (initState_fields w stdlib builtin).1

end

/-! ## Example -/

/-- `a` imports `b`.  The first hook adds the hidden import of `c` to `b`, the second one makes `d` a root when it
gets `c`, the third one adds the package `p` to `d`. -/
def recipeTable : Demo.Table where
  mods := [(c!"a", Demo.src c!"a", [Demo.imp c!"b"]), (c!"b", Demo.src c!"b", []),
    (c!"c", Demo.src c!"c", []), (c!"d", Demo.src c!"d", []), (c!"p", Demo.pkg c!"p" [c!"/p"], []),
    (c!"p.m", Demo.src c!"p.m", [])]
  pyFiles := [(c!"/p", [c!"m"])]
  post k n :=
    if k = 0 ∧ n.ident = c!"b" then .call (.importModule n c!"c") fun _ => .ret none
    else if k = 1 ∧ n.ident = c!"c" then .look fun _ => .call (.addModule c!"d") fun _ => .ret none
    else if k = 2 ∧ n.ident = c!"d" then .call (.importPackage n c!"p") fun _ => .ret none
    else .ret none

def recipeRun : Except Exc (Option Node) × St Unit :=
  runClient (Demo.env recipeTable) (39 + 1) (register [.user 0, .user 1, .user 2] (Demo.client [.addModule c!"a", .runStack]))
    (initState () [] true)

theorem recipe_only (k : Nat) (n : Node) : ((Demo.env recipeTable).userPost k n).Only ApiOp.NoRaw := by
  show (recipeTable.post k n).Only _
  unfold recipeTable
  simp only []
  split
  · exact .call trivial fun _ => .ret _
  split
  · exact .look fun _ => .call trivial fun _ => .ret _
  split
  · exact .call trivial fun _ => .ret _
  · exact .ret _

/-- The hypotheses are met, and the hooks' wishes are in the graph. -/
example : Event.failed ∉ recipeRun.2.log ∧ recipeRun.2.stack = [] ∧
    recipeRun.2.nodes.map Node.ident = [c!"a", c!"b", c!"c", c!"d", c!"p", c!"p.m"] ∧ recipeRun.2.roots = [c!"a", c!"d"] ∧
    (c!"b", c!"c", defaultDep) ∈ recipeRun.2.edges ∧ (c!"d", c!"p", defaultDep) ∈ recipeRun.2.edges ∧
    (c!"p", c!"p.m", defaultDep) ∈ recipeRun.2.edges := by decide +kernel

theorem recipe_ok : Event.failed ∉ recipeRun.2.log ∧ recipeRun.2.stack = [] ∧ Demo.src c!"b" ∈ recipeRun.2.nodes := by
  decide +kernel

theorem recipe_asks :
    ((Demo.env recipeTable).userPost 0 (Demo.src c!"b")).Asks (.importModule (Demo.src c!"b") c!"c") := by
  show (recipeTable.post 0 (Demo.src c!"b")).Asks _
  unfold recipeTable
  simp only []
  rw [if_pos ⟨trivial, rfl⟩]
  exact .here

example : (c!"b", c!"c", defaultDep) ∈ recipeRun.2.edges := by
  have h := C79_import_module (Demo.env recipeTable) (demo_loads recipeTable (by decide)).makes recipe_only
    (fun _ _ _ => .ret) 39 [.user 0, .user 1, .user 2] (Demo.client [.addModule c!"a", .runStack])
    (.call trivial fun _ => .call trivial fun _ => .look fun _ => .ret _) () [] true
  have e : runClient (Demo.env recipeTable) (39 + 1) (register [.user 0, .user 1, .user 2]
    (Demo.client [.addModule c!"a", .runStack])) (initState () [] true) = recipeRun := by unfold recipeRun; rfl
  rw [e] at h
  obtain ⟨h1, h2, h3⟩ := recipe_ok
  generalize recipeRun = r at h h1 h2 h3 ⊢
  exact (h h1 h2 (Demo.src c!"b") h3 rfl (by rintro ⟨h, _⟩; cases h) 0 (by simp)
    (Demo.src c!"b") c!"c" recipe_asks).2

/-- The third hook's package: its module is reached in the package tree. -/
example : Demo.src c!"d" ∈ recipeRun.2.nodes ∧ ShowsTree (Demo.env recipeTable) (tableTree recipeTable) ∧
    Reaches (tableTree recipeTable) (Demo.env recipeTable).isIdentifier recipeRun.2.nodes c!"d" c!"p" c!"p" c!"p.m" := by
  refine ⟨by decide +kernel, table_shows _, ?_⟩
  exact Reaches.inside (q := c!"p") (c := c!"m") .start ⟨Demo.pkg c!"p" [c!"/p"], by decide +kernel, rfl, rfl⟩
    (.inl ⟨c!"/p", by decide +kernel, by decide +kernel, rfl⟩)

end Verif.Props
