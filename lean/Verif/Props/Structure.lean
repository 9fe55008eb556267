import Verif.Proofs.Structure
import Verif.Spec.Demo
/-!
# C01, C02, C03: the shape of the graph

`runClient env n p (initState ...)` is the run of an arbitrary client program `p` (which may
catch exceptions and look at the graph at any time) against a new graph, in an arbitrary outside
world `env` with arbitrary hooks.  `seenViews` are the graphs that the client or any hook saw on
the way.
-/
namespace Verif.Props
open Verif Spec

variable {W : Type}

/-- C01: every graph seen by a hook or the client, and the final one, has at most one node per
identifier. -/
theorem C01_unique_ids (env : Env W) (n : Nat) (p : Hook W) (w : W) (stdlib : List (Str × Implies))
    (builtin : Bool) :
    let s := (runClient env n p (initState w stdlib builtin)).2
    UniqueIds (view s) ∧ ∀ g ∈ seenViews s.log, UniqueIds g := by
  intro s
  have h := structureClosed.client (env := env) n p (initState w stdlib builtin) (by
    obtain ⟨h1, h2⟩ := initState_view w stdlib builtin
    rw [h1, h2]
    exact ⟨⟨by intro i j hi; simp at hi, ⟨by simp, by simp⟩⟩, by simp [seenViews]⟩)
  exact ⟨h.1.1, fun g hg => (h.2 g hg).1⟩

/-- C01, for one operation and any state: uniqueness is kept, however the operation ends. -/
theorem C01_unique_ids_op (env : Env W) (n : Nat) (o : ApiOp) (s : St W)
    (h : UniqueIds (view s) ∧ NoDangling (view s))
    (hl : ∀ g ∈ seenViews s.log, UniqueIds g ∧ NoDangling g) :
    UniqueIds (view ((calls env n).op o s).2) :=
  (structureClosed.op (env := env) n o s ⟨h, hl⟩).1.1

/-- C02: in every graph seen by a hook or the client, and in the final one, edges join nodes of the
graph and roots are nodes of the graph. -/
theorem C02_no_dangling (env : Env W) (n : Nat) (p : Hook W) (w : W)
    (stdlib : List (Str × Implies)) (builtin : Bool) :
    let s := (runClient env n p (initState w stdlib builtin)).2
    NoDangling (view s) ∧ ∀ g ∈ seenViews s.log, NoDangling g := by
  intro s
  have h := structureClosed.client (env := env) n p (initState w stdlib builtin) (by
    obtain ⟨h1, h2⟩ := initState_view w stdlib builtin
    rw [h1, h2]
    exact ⟨⟨by intro i j hi; simp at hi, ⟨by simp, by simp⟩⟩, by simp [seenViews]⟩)
  exact ⟨h.1.2, fun g hg => (h.2 g hg).2⟩

/-- C03: an operation, however it ends and whatever hooks do meanwhile, only adds to the graph;
what is found under an identifier stays the same. -/
theorem C03_grows_op (env : Env W) (n : Nat) (o : ApiOp) (s : St W) :
    Grows (view s) (view ((calls env n).op o s).2) ∧
    ∀ id node, s.find id = some node → ((calls env n).op o s).2.find id = some node := by
  refine ⟨(growsClosed1 (W := W) (view s)).op (env := env) n o s
    ⟨fun _ h => h, fun _ h => h, fun _ h => h⟩, fun id node hf => ?_⟩
  obtain ⟨l, hl⟩ := (prefixClosed (W := W) s.nodes).op (env := env) n o s ⟨[], by simp [view]⟩
  have hl' : ((calls env n).op o s).2.nodes = s.nodes ++ l := hl
  unfold St.find at *
  rw [hl', List.find?_append, hf]
  rfl

/-- C03: over a whole run, each graph that is seen contains every graph that was seen before. -/
theorem C03_grows_run (env : Env W) (n : Nat) (p : Hook W) (w : W)
    (stdlib : List (Str × Implies)) (builtin : Bool) :
    let s := (runClient env n p (initState w stdlib builtin)).2
    (seenViews s.log).Pairwise Grows ∧ ∀ g ∈ seenViews s.log, Grows g (view s) := by
  intro s
  obtain ⟨h1, h2⟩ := initState_view w stdlib builtin
  have h := (growsClosed (W := W) ⟨[], [], []⟩).client (env := env) n p (initState w stdlib builtin)
    ⟨⟨by simp, by simp, by simp⟩, by rw [h2]; simp [seenViews], by rw [h2]; simp [seenViews]⟩
  exact h.2

/-! A run in which much happens: a script with a cycle of imports, a package, a missing module,
and a failing call. -/
example : ((Demo.run Demo.small [.addScript c!"/s.py", .addModule c!"", .addModule c!"p"]).2.nodes.map
    Node.ident) = [c!"/s.py", c!"a", c!"m", c!"b", c!"p", c!"p.q"] := by decide +kernel

example : (Demo.run Demo.small [.addScript c!"/s.py", .addModule c!"", .addModule c!"p"]).2.roots =
    [c!"/s.py", c!"p"] := by decide +kernel

example : (Demo.run Demo.small [.addScript c!"/s.py", .addModule c!"", .addModule c!"p"]).2.edges.length
    = 7 := by decide +kernel

example : Event.failed ∈ (Demo.run Demo.small [.addScript c!"/s.py", .addModule c!""]).2.log := by
  decide +kernel

/-- The specification is not trivial: this graph has a duplicate and a dangling edge. -/
example : ¬ UniqueIds ⟨[missingNode c!"a", excludedNode c!"a"], [], []⟩ := fun h => by
  have := h 0 1 (by simp) (by simp) rfl
  omega

example : ¬ NoDangling ⟨[missingNode c!"a"], [(c!"a", c!"b", defaultDep)], []⟩ := fun h => by
  obtain ⟨n, hn, he⟩ := (h.1 c!"a" c!"b" defaultDep (by simp)).2
  simp at hn
  subst hn
  simp [missingNode] at he

end Verif.Props
