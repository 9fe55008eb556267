import Verif.Proofs.CtxWalk
import Verif.Proofs.NodeKinds
import Verif.Spec.Demo
/-!
# C57: where the roots of the graph come from
-/
namespace Verif.Props
open Verif Spec

variable {W : Type}

/-- Every root is in `R`, was asked for by an operation in `P`, or is a module whose name ends in
`__mypyc`. -/
structure RootsAsked (env : Env W) (P : ApiOp → Prop) (R : List Str) (s : St W) : Prop where
  mem : ∀ r ∈ s.roots, r ∈ R ∨ RootAsked env P r ∨ endsWith c!"__mypyc" r = true

/-- The operations in `P` and what the mypyc hook does. -/
def OrMypyc (P : ApiOp → Prop) (o : ApiOp) : Prop :=
  P o ∨ ∃ name, o = .addModule name ∧ endsWith c!"__mypyc" name = true

section
variable {env : Env W} {P : ApiOp → Prop} {R : List Str} {s : St W}

theorem RootsAsked.same (h : RootsAsked env P R s) {s' : St W} (hr : s'.roots = s.roots) :
    RootsAsked env P R s' := by
  refine ⟨fun r hm => h.mem r ?_⟩; rw [← hr]; exact hm

theorem RootsAsked.addEdge (h : RootsAsked env P R s) (a b d) : RootsAsked env P R (s.addEdge a b d) :=
  h.same (addEdge_roots ..)

theorem RootsAsked.sched (h : RootsAsked env P R s) (n i) : RootsAsked env P R (s.schedule n i) :=
  h.same (schedule_roots ..)

theorem RootsAsked.addSched (h : RootsAsked env P R s) (m n i) :
    RootsAsked env P R ((s.addNode m).schedule n i) := h.same (schedule_roots ..)

theorem RootsAsked.addRoot (h : RootsAsked env P R s) {id} (hr : RootAsked env (OrMypyc P) id) :
    RootsAsked env P R (s.addRoot id) := by
  refine ⟨fun r hm => ?_⟩
  rcases (roots_addRoot _ _ _).mp hm with hm | rfl
  · exact h.mem r hm
  · obtain ⟨o, ho | ⟨name, rfl, hn⟩, ha⟩ := hr
    · exact .inr (.inl ⟨o, ho, ha⟩)
    · cases ha; exact .inr (.inr hn)
end

theorem rootsCtx (env : Env W) (P : ApiOp → Prop) (R : List Str) :
    Ctx env (OrMypyc P) (fun _ => RootsAsked env P R) (RootsAsked env P R) where
  aAddModule name h := .inr ⟨name, rfl, h⟩
  toE h := h
  world w h := h.same rfl
  looked h := h.same rfl
  asked _ _ _ h := h.same rfl
  called _ _ h := h.same rfl
  failed h := h.same rfl
  pushLoad _ h _ _ := h
  popLoad h _ := h
  popLoadLink h _ _ := h.addEdge ..
  popLoadMissing h _ _ _ := h
  addExcludedSub h _ _ _ _ := h.addSched ..
  addMissing h _ _ _ := h.addSched ..
  addSwig n _ h _ _ hx _ := h.same rfl
  popExcluded {O s name p lm} h _ _ :=
    RootsAsked.addSched (s := s.popLazy name) (h.same rfl) ..
  popAlias {O s name p lm t} h _ _ :=
    RootsAsked.addSched (s := s.popLazy name) (h.same rfl) ..
  popVirtual {O s name p lm t} h _ _ :=
    RootsAsked.addSched (s := s.popLazy name) (h.same rfl) ..
  doneAlias h _ _ := h.addEdge ..
  popRefs h _ _ := h.same rfl
  doneRef h _ _ := h.addEdge ..
  doneRefs h _ := h
  addAlias h _ _ _ _ := h.addSched ..
  addTarget h _ hf _ := h.addSched ..
  doneTarget h _ _ := h
  doneTargetLink h _ _ _ := h.addEdge ..
  addLoaded h _ _ hf := h.same rfl
  nsEdge h _ _ _ := h.addEdge ..
  schedNode h _ _ := h.sched _ _
  addInvalid h _ _ _ := h.addSched ..
  finishInvalid h _ _ _ _ _ _ := (h.addEdge _ _ _).same rfl
  finishImp _ h _ _ _ _ := (h.addEdge _ _ _).same rfl
  globals _ h _ := h.same rfl
  reexport h _ _ _ _ _ _ := h.addEdge ..
  subLink h _ _ _ _ _ := h.addEdge ..
  subEdge h _ _ _ _ _ := h.addEdge ..
  sixEdge h _ _ _ _ _ _ _ := h.addEdge ..
  pkgEdge h _ _ _ := h.addEdge ..
  pkgSub h _ _ _ _ := h.addEdge ..
  pushPkg h _ _ _ := h.same rfl
  pop h _ := h.same rfl
  enter h := h.same rfl
  exit _ h _ := h.same rfl
  exitE _ h _ := h.same rfl
  script h _ _ _ := h.addSched ..
  addRoot h hr _ := h.addRoot hr
  addDist _ h _ hA := h.same rfl
  distEdge h _ _ := h.addEdge ..
  doneDist h _ := h
  importModule h _ _ _ := h.addEdge ..
  exclude {s} names _ h := foldl_pres (P := RootsAsked env P R) (f := addExclude)
    (fun s a h => h.same rfl) names s h
  imply {s} l _ h := foldl_pres (P := RootsAsked env P R) (f := addImply) (fun s a h => by
    unfold addImply; split
    · exact h
    · exact h.same rfl) l s h
  missHook _ _ h := h.same rfl
  postHook _ _ h := h.same rfl
  apiAddNode _ hA h _ := h.same rfl
  apiAddEdge _ _ _ _ h _ _ := h.addEdge ..
  apiSchedule _ _ _ h := h.sched ..
  mypycEdge h _ _ _ _ _ := h.addEdge ..
  mypycSched h _ _ _ := h.sched ..

theorem initState_roots (w : W) (stdlib : List (Str × Implies)) (builtin : Bool) :
    (initState w stdlib builtin).roots = [] := by
  have key : ∀ (l : List (Str × Implies)) (s : St W), (l.foldl addImply s).roots = s.roots := by
    intro l
    induction l with
    | nil => intro s; rfl
    | cons a l ih =>
      intro s
      rw [List.foldl_cons, ih]
      unfold addImply
      split <;> rfl
  unfold initState
  simp only []
  split <;> exact key _ _

theorem passive_only {P : ApiOp → Prop} {h : Hook W} (hh : h.Passive) : h.Only P := by
  induction hh with
  | ret => exact .ret _
  | raise e => exact .raise e
  | look _ ih => exact .look ih
  | setWorld _ ih => exact .setWorld ih

/-- C57: after any client program, however it ended, every root was asked for by one of the operations
that the client and its post-processing hooks use — `P` is any set containing these — or its name ends
in `__mypyc` (the hook for mypyc adds such roots, `C57_mypyc_root`). -/
theorem C57_roots_asked (env : Env W) (hM : ∀ k i n, (env.userMissing k i n).Passive) (P : ApiOp → Prop)
    (hP : ∀ k n, (env.userPost k n).Only P) (p : Hook W) (hp : p.Only P) (n : Nat) (w : W)
    (stdlib : List (Str × Implies)) (builtin : Bool) :
    ∀ r ∈ (runClient env n p (initState w stdlib builtin)).2.roots,
      (∃ o, P o ∧ AsksFor env o r) ∨ endsWith c!"__mypyc" r = true := by
  intro r hr
  have := client_ctx (rootsCtx env P []) (fun k n => (hP k n).mono fun _ => .inl) hM n
    (hp.mono fun _ => .inl) (initState w stdlib builtin) ⟨fun r hr => by
      rw [initState_roots] at hr
      cases hr⟩
  rcases this.mem r hr with h | h
  · cases h
  · exact h

/-- C57: what one operation adds to the roots, if there are no hooks of the user: what it asks for and
helpers of mypyc. -/
theorem C57_one_operation (env : Env W) (hM : ∀ k i n, (env.userMissing k i n).Passive)
    (hP : ∀ k n, (env.userPost k n).Passive) (n : Nat) (o : ApiOp) (s : St W) :
    ∀ r ∈ ((calls env n).op o s).2.roots,
      r ∈ s.roots ∨ AsksFor env o r ∨ endsWith c!"__mypyc" r = true := by
  intro r hr
  have := ((calls_ctx (rootsCtx env (· = o) s.roots) (fun k n => passive_only (hP k n)) hM n).op o s
    (.inl rfl) ⟨fun r hr => .inl hr⟩).1
  rcases this.mem r hr with h | ⟨_, rfl, h⟩ | h
  · exact .inl h
  · exact .inr (.inl h)
  · exact .inr (.inr h)

/-- `m` is an extension module of a distribution with mypyc's helper module. -/
def rootHelperTable : Demo.Table :=
  { mods := [(c!"m", { ident := c!"m", kind := .module .extension, filename := some c!"/l/m.cpython-312.so",
                       distribution := some { identifier := c!"/l/m.dist-info", name := c!"m", version := c!"1",
                                              importNames := [c!"m", c!"h__mypyc"] } }, []),
             (c!"h__mypyc", Demo.src c!"h__mypyc", [])]
    files := [c!"/l/m.py"]
    scripts := [(c!"/l/m.py", [])] }

/-- A surprise, and why the names ending in `__mypyc` are needed: `add_module("m")` makes the helper
module of mypyc a root, too. -/
theorem C57_mypyc_root :
    (Demo.run rootHelperTable [.addModule c!"m"]).2.roots = [c!"m", c!"h__mypyc"] := by
  decide +kernel

/-- The hypotheses of the theorems are met. -/
example :
    (∀ k i n, ((Demo.env Demo.small).userMissing k i n).Passive) ∧
    (∀ k n, ((Demo.env Demo.small).userPost k n).Passive) ∧
    (Demo.client [.addModule c!"a", .addScript c!"/s.py"]).Only
      (fun o => o = .addModule c!"a" ∨ o = .addScript c!"/s.py") ∧
    (Demo.run Demo.small [.addModule c!"a", .addScript c!"/s.py"]).2.roots = [c!"a", c!"/s.py"] ∧
    (Demo.run Demo.small [.addModule c!"a", .addScript c!"/s.py"]).2.nodes.map Node.ident =
      [c!"a", c!"m", c!"b", c!"p", c!"p.q", c!"/s.py"] := by
  refine ⟨fun _ _ _ => .ret, fun _ _ => .ret, ?_, by decide +kernel, by decide +kernel⟩
  exact .call (.inl rfl) fun _ => .call (.inr rfl) fun _ => .look fun _ => .ret _

end Verif.Props
