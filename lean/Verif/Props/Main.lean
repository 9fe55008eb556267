import Verif.Spec.MainSpec
import Verif.Props.Config
import Verif.Props.Api
import Verif.Proofs.NodeKinds
/-!
# C34 and C47: `sys.path` and the command line
-/
namespace Verif.Props
open Verif Spec
variable {W : Type}

/-! ## C34 -/

/-- C34: however the block ends, `sys.path` has the contents it had before, in the list object that
the block left it bound to. -/
theorem C34_restored {α : Type} (sp : SysPath W) (h : SysPathOk sp) (body : W → Except Exc α × W)
    (w : W) :
    (savedSysPath sp body w).1 = (body w).1 ∧
    sp.path (savedSysPath sp body w).2 = sp.path w ∧
    sp.ref (savedSysPath sp body w).2 = sp.ref (body w).2 := by
  refine ⟨rfl, ?_, ?_⟩
  · simp only [savedSysPath, SysPath.path, h.contents_invalidate, h.ref_invalidate, h.ref_assign,
      h.contents_assign]
  · simp only [savedSysPath, h.ref_invalidate, h.ref_assign]

/-- C34: afterwards the caches of the import system have been invalidated: what invalidating them brings
about, after any change, holds. -/
theorem C34_caches {α : Type} (sp : SysPath W) (valid : W → Prop) (h : ∀ w, valid (sp.invalidate w))
    (body : W → Except Exc α × W) (w : W) : valid (savedSysPath sp body w).2 := h _

theorem path_assign {sp : SysPath W} (h : SysPathOk sp) (l : List Str) (w : W) :
    sp.path (sp.assign (sp.ref w) l w) = l := by
  simp only [SysPath.path, h.ref_assign, h.contents_assign]

theorem insertPaths_path {sp : SysPath W} (h : SysPathOk sp) (path : List Str) (w : W) :
    sp.path (insertPaths sp path w) = path ++ sp.path w ∧ sp.ref (insertPaths sp path w) = sp.ref w := by
  have : ∀ (l : List Str) (w : W),
      let w' := l.foldl (fun w p => sp.assign (sp.ref w) (p :: sp.path w) w) w
      sp.path w' = l.reverse ++ sp.path w ∧ sp.ref w' = sp.ref w := by
    intro l
    induction l with
    | nil => intro w; simp
    | cons p l ih =>
      intro w
      obtain ⟨h1, h2⟩ := ih (sp.assign (sp.ref w) (p :: sp.path w) w)
      refine ⟨?_, ?_⟩
      · rw [List.foldl_cons, h1, path_assign h]
        simp
      · rw [List.foldl_cons, h2, h.ref_assign]
  simpa [insertPaths] using this path.reverse w

/-- C34: the graph of the command line is built in a world in which the search path is the `-p`
options followed by the original path; afterwards the original path is back. -/
theorem C34_command_line (sp : SysPath W) (h : SysPathOk sp) (env : Env W) (n : Nat)
    (implies : List (Str × Implies)) (a : Args) (w : W) :
    (∃ w1, sp.path w1 = a.path ++ sp.path w ∧ sp.ref w1 = sp.ref w ∧
      (makeGraph sp env n implies a w).1 = (buildGraph env n implies a w1).1) ∧
    sp.path (makeGraph sp env n implies a w).2 = sp.path w := by
  obtain ⟨h1, h2⟩ := insertPaths_path h a.path w
  exact ⟨⟨_, h1, h2, rfl⟩, (C34_restored sp h _ w).2.1⟩

/-- A world that consists of list objects. -/
structure Lists where
  bound : Nat
  heap : Nat → List Str

def listsPath : SysPath Lists where
  ref w := w.bound
  contents w := w.heap
  assign r l w := { w with heap := fun k => if k = r then l else w.heap k }
  invalidate w := w

theorem listsPath_ok : SysPathOk listsPath where
  contents_assign _ _ _ := by simp [listsPath]
  ref_assign _ _ _ := rfl
  ref_invalidate _ := rfl
  contents_invalidate _ _ := rfl

/-- A block that changes the path and binds `sys.path` to another list, and then raises. -/
example : listsPath.path (savedSysPath (α := Unit) listsPath
      (fun _ => (.error .keyError, { bound := 1, heap := fun _ => [c!"x"] }))
      { bound := 0, heap := fun _ => [c!"a", c!"b"] }).2 = [c!"a", c!"b"] := by
  simp [savedSysPath, listsPath, SysPath.path]

example : listsPath.path (insertPaths listsPath [c!"p", c!"q"]
    { bound := 0, heap := fun _ => [c!"a", c!"b"] }) = [c!"p", c!"q", c!"a", c!"b"] := by
  decide +kernel

/-- The caches are marked as valid by invalidating them and as stale by any assignment. -/
def cachedPath : SysPath (Lists × Bool) where
  ref w := listsPath.ref w.1
  contents w := listsPath.contents w.1
  assign r l w := (listsPath.assign r l w.1, false)
  invalidate w := (w.1, true)

example : (savedSysPath (α := Unit) cachedPath (fun w => (.error .keyError, cachedPath.assign 0 [c!"x"] w))
    ({ bound := 0, heap := fun _ => [c!"a"] }, false)).2.2 = true :=
  C34_caches cachedPath (fun w => w.2 = true) (fun _ => rfl) _ _

/-! ## C47: the meaning of the options -/

theorem foldl_parse_none (stdlib : List Str) (l : List Arg) :
    l.foldl (fun r x => r.bind fun a => parseStep stdlib a x) none = none := by
  induction l with
  | nil => rfl
  | cons x l ih => rw [List.foldl_cons]; exact ih

/-- The state of the parser after some arguments. -/
structure Partial (stdlib : List Str) (argv : List Arg) (a : Args) : Prop where
  nodeType : a.nodeType = (nodeTypes argv).getLast?.getD .module
  path : a.path = paths argv
  excludes : ∀ x, x ∈ a.excludes ↔ ExcludedBy stdlib argv x
  output : a.outputFile = (outputs argv).getLast?
  format : a.format = if (formats argv).getLast? = some c!"dot" then .graphviz else .html
  known : ∀ f ∈ formats argv, f = c!"html" ∨ f = c!"dot"
  names : (groups argv = [] ∧ a.names = none) ∨ ∃ l, groups argv = [l] ∧ l ≠ [] ∧ a.names = some l

theorem known_append {argv : List Arg} {f : Str} (h : ∀ f ∈ formats argv, f = c!"html" ∨ f = c!"dot")
    (hf : f = c!"html" ∨ f = c!"dot") : ∀ g ∈ formats (argv ++ [.format f]), g = c!"html" ∨ g = c!"dot" := by
  intro g hg
  have : formats (argv ++ [.format f]) = formats argv ++ [f] := by simp [formats]
  rw [this, List.mem_append, List.mem_singleton] at hg
  rcases hg with hg | rfl
  · exact h g hg
  · exact hf

theorem parseStep_partial {stdlib : List Str} {argv : List Arg} {a b : Args} {x : Arg}
    (h : Partial stdlib argv a) (hs : parseStep stdlib a x = some b) : Partial stdlib (argv ++ [x]) b := by
  obtain ⟨h1, h2, h3, h4, h5, h7, h6⟩ := h
  cases x with
  | nodeType t =>
    simp only [parseStep, Option.some.injEq] at hs
    subst hs
    exact ⟨by simp [nodeTypes], by simpa [paths] using h2, by simpa [ExcludedBy] using h3,
      by simpa [outputs] using h4, by simpa [formats] using h5, by simpa [formats] using h7, by simpa [groups] using h6⟩
  | format f =>
    simp only [parseStep] at hs
    split at hs
    · rename_i hf
      simp only [Option.some.injEq] at hs
      subst hs
      exact ⟨by simpa [nodeTypes] using h1, by simpa [paths] using h2, by simpa [ExcludedBy] using h3,
        by simpa [outputs] using h4, by simp [formats, hf], known_append h7 (by simp [hf]), by simpa [groups] using h6⟩
    · split at hs
      · rename_i hf
        simp only [Option.some.injEq] at hs
        subst hs
        exact ⟨by simpa [nodeTypes] using h1, by simpa [paths] using h2, by simpa [ExcludedBy] using h3,
          by simpa [outputs] using h4, by simp [formats, hf], known_append h7 (by simp [hf]), by simpa [groups] using h6⟩
      · cases hs
  | exclude nm =>
    simp only [parseStep, Option.some.injEq] at hs
    subst hs
    refine ⟨by simpa [nodeTypes] using h1, by simpa [paths] using h2, ?_,
      by simpa [outputs] using h4, by simpa [formats] using h5, by simpa [formats] using h7, by simpa [groups] using h6⟩
    intro x
    simp only [List.mem_append, List.mem_singleton, h3, ExcludedBy, Arg.exclude.injEq, reduceCtorEq,
      or_false]
    grind
  | excludeStdlib =>
    simp only [parseStep, Option.some.injEq] at hs
    subst hs
    refine ⟨by simpa [nodeTypes] using h1, by simpa [paths] using h2, ?_,
      by simpa [outputs] using h4, by simpa [formats] using h5, by simpa [formats] using h7, by simpa [groups] using h6⟩
    intro x
    simp only [List.mem_append, List.mem_singleton, h3, ExcludedBy, reduceCtorEq, or_false, or_true,
      true_and]
    grind
  | path p =>
    simp only [parseStep, Option.some.injEq] at hs
    subst hs
    exact ⟨by simpa [nodeTypes] using h1, by simp [paths, h2], by simpa [ExcludedBy] using h3,
      by simpa [outputs] using h4, by simpa [formats] using h5, by simpa [formats] using h7, by simpa [groups] using h6⟩
  | output p =>
    simp only [parseStep, Option.some.injEq] at hs
    subst hs
    exact ⟨by simpa [nodeTypes] using h1, by simpa [paths] using h2, by simpa [ExcludedBy] using h3,
      by simp [outputs], by simpa [formats] using h5, by simpa [formats] using h7, by simpa [groups] using h6⟩
  | names l =>
    simp only [parseStep] at hs
    cases hn : a.names with
    | some _ => rw [hn] at hs; cases hs
    | none =>
      rw [hn] at hs
      simp only [] at hs
      split at hs
      · cases hs
      · rename_i hl
        simp only [Option.some.injEq] at hs
        subst hs
        refine ⟨by simpa [nodeTypes] using h1, by simpa [paths] using h2, by simpa [ExcludedBy] using h3,
          by simpa [outputs] using h4, by simpa [formats] using h5, by simpa [formats] using h7, .inr ⟨l, ?_, by simpa using hl, rfl⟩⟩
        rcases h6 with ⟨h6, _⟩ | ⟨l', _, _, h6⟩
        · simpa [groups] using h6
        · rw [hn] at h6; cases h6

theorem parse_partial {stdlib : List Str} (argv rest : List Arg) {a b : Args}
    (h : Partial stdlib argv a)
    (hs : rest.foldl (fun r x => r.bind fun a => parseStep stdlib a x) (some a) = some b) :
    Partial stdlib (argv ++ rest) b := by
  induction rest generalizing argv a with
  | nil => simp only [List.foldl_nil, Option.some.injEq] at hs; subst hs; simpa using h
  | cons x rest ih =>
    rw [List.foldl_cons] at hs
    cases hx : parseStep stdlib a x with
    | none => simp only [Option.bind_some, hx, foldl_parse_none] at hs; cases hs
    | some c =>
      simp only [Option.bind_some, hx] at hs
      have := ih (argv ++ [x]) (parseStep_partial h hx) hs
      simpa using this

theorem partial_nil (stdlib : List Str) : Partial stdlib [] {} :=
  ⟨rfl, rfl, by simp [ExcludedBy], rfl, rfl, by simp [formats], .inl ⟨rfl, rfl⟩⟩

/-- C47: the meaning of an accepted argument list. -/
theorem C47_meaning (stdlib : List Str) (argv : List Arg) (a : Args)
    (h : parseArguments stdlib argv = some a) : Means stdlib argv a := by
  unfold parseArguments at h
  cases hf : argv.foldl (fun r x => r.bind fun a => parseStep stdlib a x) (some {}) with
  | none => rw [hf] at h; cases h
  | some b =>
    rw [hf] at h
    simp only [] at h
    split at h
    · cases h
    · rename_i hn
      simp only [Option.some.injEq] at h
      subst h
      have := parse_partial [] argv (partial_nil stdlib) hf
      simp only [List.nil_append] at this
      obtain ⟨h1, h2, h3, h4, h5, h7, h6⟩ := this
      refine ⟨h1, h2, h3, h4, h5, h7, ?_⟩
      rcases h6 with ⟨_, h6⟩ | h6
      · rw [h6] at hn; simp at hn
      · exact h6

theorem parse_accepts (stdlib : List Str) (rest : List Arg) (a : Args)
    (hf : ∀ f ∈ formats rest, f = c!"html" ∨ f = c!"dot")
    (hg : (a.names = none ∧ ∃ l, l ≠ [] ∧ groups rest = [l]) ∨ (a.names.isSome = true ∧ groups rest = [])) :
    ∃ b, rest.foldl (fun r x => r.bind fun a => parseStep stdlib a x) (some a) = some b ∧
      b.names.isSome = true := by
  induction rest generalizing a with
  | nil =>
    rcases hg with ⟨_, l, _, hg⟩ | hg
    · simp [groups] at hg
    · exact ⟨a, rfl, hg.1⟩
  | cons x rest ih =>
    rw [List.foldl_cons]
    cases x with
    | names l =>
      rcases hg with ⟨h1, l', hl, hg⟩ | ⟨_, hg⟩
      · simp only [groups, List.filterMap_cons, List.cons.injEq] at hg
        obtain ⟨rfl, hg⟩ := hg
        have : (Option.some a).bind (fun a => parseStep stdlib a (.names l)) =
            some { a with names := some l } := by
          simp [parseStep, h1, hl]
        rw [this]
        exact ih _ (by simpa [formats] using hf) (.inr ⟨rfl, hg⟩)
      · simp [groups] at hg
    | format f =>
      have hf' : f = c!"html" ∨ f = c!"dot" := hf f (by simp [formats])
      have : ∃ b, (Option.some a).bind (fun a => parseStep stdlib a (.format f)) = some b ∧
          b.names = a.names := by
        rcases hf' with rfl | rfl
        · exact ⟨_, rfl, rfl⟩
        · exact ⟨_, rfl, rfl⟩
      obtain ⟨b, hb, hn⟩ := this
      rw [hb]
      refine ih b (fun f hm => hf f (by simp [formats] at hm ⊢; exact .inr hm)) ?_
      rw [hn]
      simpa [groups] using hg
    | nodeType t => exact ih _ (by simpa [formats] using hf) (by simpa [groups] using hg)
    | exclude t => exact ih _ (by simpa [formats] using hf) (by simpa [groups] using hg)
    | excludeStdlib => exact ih _ (by simpa [formats] using hf) (by simpa [groups] using hg)
    | path t => exact ih _ (by simpa [formats] using hf) (by simpa [groups] using hg)
    | output t => exact ih _ (by simpa [formats] using hf) (by simpa [groups] using hg)

/-- C47: an argument list with known formats and one non-empty group of names is accepted. -/
theorem C47_accepted (stdlib : List Str) (argv : List Arg)
    (hf : ∀ f ∈ formats argv, f = c!"html" ∨ f = c!"dot") (l : List Str) (hl : l ≠ [])
    (hg : groups argv = [l]) : ∃ a, parseArguments stdlib argv = some a := by
  obtain ⟨b, hb, hn⟩ := parse_accepts stdlib argv {} hf (.inl ⟨rfl, l, hl, hg⟩)
  refine ⟨b, ?_⟩
  unfold parseArguments
  rw [hb]
  cases hx : b.names with
  | none => rw [hx] at hn; cases hn
  | some _ => simp [hx]

/-! ## C47: the graph -/

theorem lazy_excludes (l : List Str) (s : St W) (k : Str) :
    (l.foldl addExclude s).lazy k = if k ∈ l then some .excluded else s.lazy k := by
  induction l generalizing s with
  | nil => simp
  | cons x l ih =>
    rw [List.foldl_cons, ih]
    by_cases h1 : k ∈ l
    · simp [h1]
    · by_cases h2 : k = x
      · subst h2; simp [h1, addExclude]
      · simp [h1, h2, addExclude]

theorem excludes_only_lazy (l : List Str) (s : St W) :
    l.foldl addExclude s = { s with lazy := (l.foldl addExclude s).lazy } := by
  induction l generalizing s with
  | nil => rfl
  | cons x l ih => rw [List.foldl_cons, ih]; rfl

theorem excludes_congr {l l' : List Str} (h : ∀ x, x ∈ l ↔ x ∈ l') (s : St W) :
    l.foldl addExclude s = l'.foldl addExclude s := by
  rw [excludes_only_lazy l, excludes_only_lazy l']
  congr 1
  funext k
  rw [lazy_excludes, lazy_excludes]
  simp only [h]

theorem op_excludes (env : Env W) (n : Nat) (names : List Str) (s : St W) :
    (calls env (n + 1)).op (.addExcludes names) s = (.ok none, names.foldl addExclude s) := rfl

/-- C47: the order of the options does not matter, apart from the order among the `-p` options and
from which of the `-m`, `-s`, `-d` options (and `-f`, `-o` options) is last. -/
theorem C47_order_partial (sp : SysPath W) (env : Env W) (n : Nat) (implies : List (Str × Implies))
    (stdlib : List Str) (argv argv' : List Arg) (hp : argv.Perm argv')
    (h1 : (nodeTypes argv).getLast? = (nodeTypes argv').getLast?) (h2 : paths argv = paths argv')
    (h3 : (formats argv).getLast? = (formats argv').getLast?)
    (h4 : (outputs argv).getLast? = (outputs argv').getLast?) (a : Args)
    (h : parseArguments stdlib argv = some a) :
    ∃ a', parseArguments stdlib argv' = some a' ∧ a'.format = a.format ∧
      a'.outputFile = a.outputFile ∧
      makeGraph sp env n implies a' = makeGraph sp env n implies a := by
  have hm := C47_meaning stdlib argv a h
  obtain ⟨l, hg, hl, hn⟩ := hm.names
  have hg' : groups argv' = [l] := by
    have : (groups argv).Perm (groups argv') := hp.filterMap _
    rw [hg] at this
    exact List.perm_singleton.mp this.symm
  have hf' : ∀ f ∈ formats argv', f = c!"html" ∨ f = c!"dot" := fun f hx =>
    hm.known f ((hp.filterMap _).mem_iff.mpr hx)
  obtain ⟨a', ha'⟩ := C47_accepted stdlib argv' hf' l hl hg'
  have hm' := C47_meaning stdlib argv' a' ha'
  have hn' : a'.names = a.names := by
    obtain ⟨l', hg2, _, hn'⟩ := hm'.names
    rw [hg'] at hg2
    simp only [List.cons.injEq, and_true] at hg2
    rw [hn', hn, hg2]
  have hx : ∀ x, x ∈ a'.excludes ↔ x ∈ a.excludes := by
    intro x
    rw [hm.excludes, hm'.excludes]
    unfold ExcludedBy
    rw [hp.mem_iff, hp.mem_iff]
  have ht : a'.nodeType = a.nodeType := by rw [hm.nodeType, hm'.nodeType, h1]
  refine ⟨a', ha', by rw [hm.format, hm'.format, h3], by rw [hm.output, hm'.output, h4], ?_⟩
  unfold makeGraph
  rw [hm.path, hm'.path, h2]
  congr 1
  funext w
  unfold buildGraph
  rw [hn', ht]
  cases n with
  | zero => rfl
  | succ n =>
    have hop : (calls env (n + 1)).op (.addExcludes a'.excludes) =
        (calls env (n + 1)).op (.addExcludes a.excludes) := by
      funext s
      rw [op_excludes, op_excludes, excludes_congr hx]
    rw [hop]

/-- The distributions in the graph are roots. -/
def DistsAreRoots (s : St W) : Prop := ∀ x ∈ s.nodes, x.isBaseNode = true ∨ x.ident ∈ s.roots

theorem RootFor.grows {env : Env W} {t name} {s s' : St W} (h : RootFor env t name s)
    (hg : Grows (view s) (view s')) : RootFor env t name s' := by
  cases t with
  | module =>
    obtain ⟨h1, m, h2, h3⟩ := h
    exact ⟨hg.roots _ h1, m, hg.nodes _ h2, h3⟩
  | script =>
    obtain ⟨h1, m, h2, h3⟩ := h
    exact ⟨hg.roots _ h1, m, hg.nodes _ h2, h3⟩
  | distribution =>
    obtain ⟨d, w, h0, h1, m, h2, h3⟩ := h
    exact ⟨d, w, h0, hg.roots _ h1, m, hg.nodes _ h2, h3⟩

theorem addDistributionNamed_root {env : Env W} (hN : env.MakesModules)
    (hP : ∀ k n, (env.userPost k n).Only ApiOp.NoDist)
    (hM : ∀ k i n, (env.userMissing k i n).Passive) {n : Nat} {name : Str} {s s' : St W} {r}
    (h : (calls env n).op (.addDistributionNamed name) s = (.ok r, s')) (hd : DistsAreRoots s) :
    DistsAreRoots s' ∧ RootFor env .distribution name s' := by
  have hgrow : Grows (view s) (view s') := by
    have := (C03_grows_op env n (.addDistributionNamed name) s).1
    rw [h] at this
    exact this
  cases n with
  | zero => simp [calls, callsZero, M.throw] at h
  | succ n =>
    obtain ⟨m, s1, h1, h2⟩ := M.bind_ok (op_ok h)
    obtain ⟨hm, rfl⟩ := M.pure_ok h2
    subst hm
    obtain ⟨o, s2, h2, h1⟩ := M.bind_ok h1
    obtain ⟨hd1, rfl⟩ := M.ext_ok h2
    cases o with
    | none => simp [M.throw] at h1
    | some d =>
      simp only [] at h1
      unfold addDistribution at h1
      rw [M.bind_findNode] at h1
      have hs0 : ∃ s0, s0 = s := ⟨s, rfl⟩
      obtain ⟨s0, rfl⟩ := hs0
      cases hf : St.find ({ s0 with world := (env.distributionNamed name s0.world).2 } : St W) d.identifier with
      | some x =>
        rw [hf] at h1
        simp only [] at h1
        obtain ⟨_, s3, h3, h1⟩ := M.bind_ok h1
        obtain ⟨rfl, rfl⟩ := M.pure_ok h1
        obtain ⟨hb, hs3⟩ := M.assert_ok h3
        obtain ⟨hx, hxi⟩ := find_some hf
        simp only [Bool.not_eq_true'] at hb
        subst hs3
        refine ⟨hd, d, s0.world, hd1, ?_, _, hx, hxi, hb⟩
        rcases hd _ hx with hc | hc
        · rw [hb] at hc; cases hc
        · rw [hxi] at hc; exact hc
      | none =>
        rw [hf] at h1
        simp only [] at h1
        obtain ⟨_, s3, h3, h1⟩ := M.bind_ok h1
        obtain ⟨_, rfl⟩ := M.addNode_ok h3
        obtain ⟨_, s4, h4, h1⟩ := M.bind_ok h1
        obtain ⟨_, rfl⟩ := M.addRoot_ok h4
        obtain ⟨_, s5, h5, h1⟩ := M.bind_ok h1
        obtain ⟨_, s6, h6, h1⟩ := M.bind_ok h1
        obtain ⟨rfl, rfl⟩ := M.pure_ok h1
        have hC := distsCtx env hN (s0.nodes ++ [distNode d])
        have hgood := calls_ctx hC hP hM n
        have loop : ∀ (l : List Str) (s s' : St W), M.forEach l (fun name =>
            M.bind ((calls env n).findOrLoad none name true) fun node =>
            M.addEdge d.identifier node.ident defaultDep) s = (.ok (), s') →
            DistsIn (s0.nodes ++ [distNode d]) s →
            Grows (view s) (view s') ∧ DistsIn (s0.nodes ++ [distNode d]) s' := by
          intro l
          induction l with
          | nil =>
            intro s s' h hx
            obtain ⟨_, rfl⟩ := M.pure_ok h
            exact ⟨⟨fun _ h => h, fun _ h => h, fun _ h => h⟩, hx⟩
          | cons a l ih =>
            intro s s' h hx
            obtain ⟨_, s1, h1, h⟩ := M.bind_ok h
            obtain ⟨nd, s2, h2, h1⟩ := M.bind_ok h1
            obtain ⟨_, hh, rfl⟩ := M.addEdge_ok h1
            have hg1 : Grows (view s) (view s2) := by
              have := ((growsClosed1 (view s)).good env n).findOrLoad none a true [] s
                ⟨fun _ h => h, fun _ h => h, fun _ h => h⟩
              rw [h2] at this
              exact this.2
            have hd2 : DistsIn (s0.nodes ++ [distNode d]) s2 := by
              have := hgood.findOrLoad none a true [] s hx (.inl rfl)
              rw [h2] at this
              exact this.1
            obtain ⟨hg2, hl⟩ := ih _ _ h (hd2.addEdge ..)
            refine ⟨⟨fun x hx => hg2.nodes x (by
                show x ∈ (s2.addEdge _ _ _).nodes; rw [addEdge_nodes]; exact hg1.nodes x hx),
              fun x hx => hg2.edges x ((mem_addEdge _ _ _ _ _).mpr (.inl (hg1.edges x hx))),
              fun x hx => hg2.roots x (by
                show x ∈ (s2.addEdge _ _ _).roots; rw [addEdge_roots]; exact hg1.roots x hx)⟩, hl⟩
        have hstart : DistsIn (s0.nodes ++ [distNode d])
            ((({ s0 with world := (env.distributionNamed name s0.world).2 } : St W).addNode
              (distNode d)).addRoot d.identifier) := by
          refine DistsIn.same (s := ({ s0 with world := (env.distributionNamed name s0.world).2 } : St W).addNode
            (distNode d)) ⟨fun x hx => ?_⟩ (by unfold St.addRoot; split <;> rfl)
          simp only [St.addNode] at hx
          exact .inr hx
        obtain ⟨hg5, hd5⟩ := loop _ _ _ h5 hstart
        have hg6 := runStack_grows env n s5
        rw [h6] at hg6
        have hd6 : DistsIn (s0.nodes ++ [distNode d]) s6 := by
          have := hgood.runStack s5 hd5
          rw [h6] at this
          exact this.1
        have hroot : d.identifier ∈ s6.roots :=
          hg6.roots _ (hg5.roots _ ((roots_addRoot _ _ _).mpr (.inr rfl)))
        refine ⟨fun x hx => ?_, d, s0.world, hd1, hroot, distNode d, ?_, rfl, rfl⟩
        · rcases hd6.mem x hx with hc | hc
          · exact .inl hc
          · rcases List.mem_append.mp hc with hc | hc
            · rcases hd x hc with hc | hc
              · exact .inl hc
              · exact .inr (hgrow.roots _ hc)
            · rw [List.mem_singleton] at hc
              subst hc
              exact .inr hroot
        · refine hg6.nodes _ (hg5.nodes _ ?_)
          show distNode d ∈ (St.addRoot _ _).nodes
          unfold St.addRoot; split <;> simp [St.addNode]

/-- The initial state has no nodes. -/
theorem initState_nodes (w : W) (implies : List (Str × Implies)) (b : Bool) :
    (initState w implies b).nodes = [] := by
  have := (initState_view w implies b).1
  exact congrArg View.nodes this

/-- C47: when the command line succeeds, each of the named modules, scripts or distributions is a
root of the graph. -/
theorem C47_roots (sp : SysPath W) (env : Env W) (hN : env.MakesModules)
    (hP : ∀ k n, (env.userPost k n).Only ApiOp.NoDist)
    (hM : ∀ k i n, (env.userMissing k i n).Passive) (n : Nat) (implies : List (Str × Implies))
    (a : Args) (w : W) (s : St W) (h : (makeGraph sp env n implies a w).1 = .ok s) :
    ∀ name ∈ a.names.getD [], RootFor env a.nodeType name s := by
  have loop : ∀ (l : List Str) (s s' : St W), M.forEach l (fun name =>
      M.bind ((calls env n).op (addNamed a.nodeType name)) fun _ => M.pure ()) s = (.ok (), s') →
      (a.nodeType = .distribution → DistsAreRoots s) →
      Grows (view s) (view s') ∧ ∀ name ∈ l, RootFor env a.nodeType name s' := by
    intro l
    induction l with
    | nil =>
      intro s s' h _
      obtain ⟨_, rfl⟩ := M.pure_ok h
      exact ⟨⟨fun _ h => h, fun _ h => h, fun _ h => h⟩, by simp⟩
    | cons x l ih =>
      intro s s' h hd
      obtain ⟨_, s1, h1, h⟩ := M.bind_ok h
      obtain ⟨r, s2, h2, h1⟩ := M.bind_ok h1
      obtain ⟨_, rfl⟩ := M.pure_ok h1
      have hg1 : Grows (view s) (view s2) := by
        have := (C03_grows_op env n (addNamed a.nodeType x) s).1
        rw [h2] at this
        exact this
      have hboth : (a.nodeType = .distribution → DistsAreRoots s2) ∧ RootFor env a.nodeType x s2 := by
        cases ht : a.nodeType with
        | module =>
          rw [ht] at h2
          obtain ⟨m, _, hi, hm, hr, _⟩ := C16_result env hM n x s s2 r h2
          exact ⟨by simp, hr, m, hm, hi⟩
        | script =>
          rw [ht] at h2
          obtain ⟨_, m, _, hi, hk, hm, hr⟩ := C17_added env n x s s2 r h2
          exact ⟨by simp, hr, m, hm, hi, hk⟩
        | distribution =>
          rw [ht] at h2
          obtain ⟨h3, h4⟩ := addDistributionNamed_root hN hP hM h2 (hd ht)
          exact ⟨fun _ => h3, h4⟩
      obtain ⟨hg2, hl⟩ := ih _ _ h hboth.1
      refine ⟨⟨fun x hx => hg2.nodes x (hg1.nodes x hx), fun x hx => hg2.edges x (hg1.edges x hx),
        fun x hx => hg2.roots x (hg1.roots x hx)⟩, fun name hname => ?_⟩
      rcases List.mem_cons.mp hname with rfl | hname
      · exact RootFor.grows hboth.2 hg2
      · exact hl name hname
  have h : (buildGraph env n implies a (insertPaths sp a.path w)).1 = .ok s := h
  unfold buildGraph at h
  simp only [] at h
  split at h
  · rename_i u s' hm
    simp only [Except.ok.injEq] at h
    subst h
    obtain ⟨_, s1, h1, hm⟩ := M.bind_ok hm
    refine (loop _ _ _ hm ?_).2
    intro _
    cases n with
    | zero => simp [calls, callsZero, M.throw] at h1
    | succ n =>
      rw [op_excludes] at h1
      simp only [Prod.mk.injEq] at h1
      obtain ⟨_, rfl⟩ := h1
      intro x hx
      rw [excludes_only_lazy] at hx
      have hx : x ∈ (initState (insertPaths sp a.path w) implies true).nodes := hx
      rw [initState_nodes] at hx
      simp at hx
  · cases h

/-- The calls of the command line as a client program. -/
def cmdClient (t : NodeType) : List Str → Hook W
  | [] => .ret none
  | x :: l => .call (addNamed t x) fun r => match r with | .ok _ => cmdClient t l | .error e => .raise e

theorem cmdClient_only (t : NodeType) (l : List Str) : (cmdClient (W := W) t l).Only ApiOp.NoRaw := by
  induction l with
  | nil => exact .ret _
  | cons x l ih =>
    refine .call (by cases t <;> trivial) fun r => ?_
    cases r with
    | ok _ => exact ih
    | error e => exact .raise e

theorem cmdClient_eq (env : Env W) (n : Nat) (t : NodeType) (l : List Str) (s : St W) :
    (runClient env n (cmdClient t l) s).2 =
      (M.forEach l (fun name => M.bind ((calls env n).op (addNamed t name)) fun _ => M.pure ()) s).2 := by
  induction l generalizing s with
  | nil => rfl
  | cons x l ih =>
    show (M.bind (M.attempt ((calls env n).op (addNamed t x))) _ s).2 = (M.bind (M.bind _ _) _ s).2
    cases hop : (calls env n).op (addNamed t x) s with
    | mk r s1 =>
      cases r with
      | ok r =>
        have h1 : M.attempt ((calls env n).op (addNamed t x)) s = (.ok (.ok r), s1) := by
          unfold M.attempt; rw [hop]
        rw [M.bind_of_ok h1, M.bind_assoc, M.bind_of_ok hop]
        exact ih s1
      | error e =>
        rw [M.bind_assoc, M.bind_of_error hop]
        rcases M.attempt_cases hop with ⟨_, ha⟩ | ha
        · rw [M.bind_of_error ha]
        · rw [M.bind_of_ok ha]
          rfl

/-- C47: the names of the `-x` options (and of the standard library, if requested) are excluded: no
such module is in the graph other than as excluded module, or as missing module of a missing
package. -/
theorem C47_excluded_partial (sp : SysPath W) (env : Env W)
    (hP : ∀ k n, (env.userPost k n).Only ApiOp.NoRaw)
    (hM : ∀ k i n, (env.userMissing k i n).Passive) (n : Nat) (implies : List (Str × Implies))
    (stdlib : List Str) (argv : List Arg) (a : Args) (ha : parseArguments stdlib argv = some a)
    (w : W) (s : St W) (h : (makeGraph sp env n implies a w).1 = .ok s) (x : Str)
    (hx : ExcludedBy stdlib argv x) (hK : env.OnlyAs x) :
    ∀ m ∈ s.nodes, m.ident = x → m.namesModule = true → m.isExcluded = true ∨
      (m.isMissing = true ∧ ∃ q ∈ s.nodes, q.isMissing = true ∧ InPackage x q.ident) := by
  have h : (buildGraph env n implies a (insertPaths sp a.path w)).1 = .ok s := h
  unfold buildGraph at h
  simp only [] at h
  split at h
  · rename_i u s' hm
    simp only [Except.ok.injEq] at h
    subst h
    obtain ⟨_, s1, h1, hm⟩ := M.bind_ok hm
    cases n with
    | zero => simp [calls, callsZero, M.throw] at h1
    | succ n =>
      rw [op_excludes] at h1
      simp only [Prod.mk.injEq] at h1
      obtain ⟨_, rfl⟩ := h1
      have hxa := ((C47_meaning stdlib argv a ha).excludes x).mpr hx
      have := C12_excluded_partial env hP hM (n + 1) (.ret none)
        (cmdClient a.nodeType (a.names.getD [])) (.ret _) (cmdClient_only _ _)
        (insertPaths sp a.path w) implies true a.excludes x hxa hK
      simp only [] at this
      have hhas : (runClient env (n + 1) (.ret none)
          (initState (insertPaths sp a.path w) implies true)).2.has x = false := by
        show (initState (insertPaths sp a.path w) implies true).has x = false
        simp [St.has, initState_nodes]
      have := (this hhas).1
      rw [cmdClient_eq] at this
      have heq : ((calls env (n + 1 + 1)).op (.addExcludes a.excludes)
          (runClient env (n + 1) (.ret none) (initState (insertPaths sp a.path w) implies true)).2).2 =
          a.excludes.foldl addExclude (initState (insertPaths sp a.path w) implies true) := rfl
      rw [heq, hm] at this
      exact this
  · cases h

/-- C47 is false without the restriction of `C47_order_partial`: of two conflicting node type options the
last one wins. -/
theorem C47_last_wins (stdlib : List Str) :
    (parseArguments stdlib [.nodeType .module, .nodeType .script, .names [c!"a"]]).map Args.nodeType =
      some .script ∧
    (parseArguments stdlib [.nodeType .script, .nodeType .module, .names [c!"a"]]).map Args.nodeType =
      some .module := ⟨rfl, rfl⟩

/-! A command line with everything. -/
def sampleArgv : List Arg :=
  [.exclude c!"m", .path c!"/p", .excludeStdlib, .names [c!"a", c!"p"], .path c!"/q", .format c!"dot"]

example : parseArguments [c!"os"] sampleArgv = some
    { nodeType := .module, format := .graphviz, excludes := [c!"m", c!"os"], path := [c!"/p", c!"/q"],
      outputFile := none, names := some [c!"a", c!"p"] } := by decide

def noPath : SysPath Unit := ⟨fun _ => 0, fun _ _ => [], fun _ _ w => w, fun w => w⟩

example : (match makeGraph noPath (Demo.env Demo.small) 30 []
      { excludes := [c!"m"], names := some [c!"a", c!"p"] } () with
    | (.ok s, _) => some (s.roots, s.nodes.map fun x => (x.ident, x.isExcluded))
    | _ => none) = some ([c!"a", c!"p"], [(c!"a", false), (c!"m", true), (c!"b", false), (c!"p", false),
      (c!"p.q", false)]) := by
  decide +kernel

/-! ## C51 -/

/-- C51: `stdlib_module_names()` is the set of names the interpreter knows, in ascending order (by
code points), each as often as the interpreter lists it, whatever the order of the set. -/
theorem C51_stdlib_names (names : List Str) :
    (∀ x, (stdlibModuleNames names).count x = names.count x) ∧
    ∀ (i j : Nat) x y, i < j → (stdlibModuleNames names)[i]? = some x →
      (stdlibModuleNames names)[j]? = some y → x ≤ y := by
  refine ⟨fun x => (List.mergeSort_perm names _).count_eq x, ?_⟩
  intro i j x y hij hi hj
  have hs : (stdlibModuleNames names).Pairwise fun a b => decide (a ≤ b) = true :=
    List.pairwise_mergeSort (fun a b c h1 h2 => by
        simp only [decide_eq_true_eq] at *
        exact List.le_trans h1 h2)
      (fun a b => by
        simp only [Bool.or_eq_true, decide_eq_true_eq]
        exact List.le_total a b) names
  obtain ⟨hi', rfl⟩ := List.getElem?_eq_some_iff.mp hi
  obtain ⟨hj', rfl⟩ := List.getElem?_eq_some_iff.mp hj
  simpa using List.pairwise_iff_getElem.mp hs i j hi' hj' hij

example : stdlibModuleNames [c!"sys", c!"_ast", c!"os", c!"abc"] =
    [c!"_ast", c!"abc", c!"os", c!"sys"] := by
  simp [stdlibModuleNames, List.mergeSort, List.MergeSort.Internal.splitInTwo, List.merge]
  rw [if_neg (by decide), if_neg (by decide)]
  simp only [List.merge, show decide (c!"_ast" ≤ c!"abc") = true by decide,
    show decide (c!"sys" ≤ c!"abc") = false by decide, show decide (c!"sys" ≤ c!"os") = false by decide,
    if_true, if_false, Bool.false_eq_true]

end Verif.Props
