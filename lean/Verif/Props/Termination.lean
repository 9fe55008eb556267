import Verif.Proofs.Terminates
import Verif.Spec.Demo
import Verif.Proofs.ExactNames
/-!
# C42: building the graph terminates

In a finite environment (`Spec/FiniteSpec.lean`), every call of the API comes to an end: the depth of
recursion, which counts nested calls as well as the work items taken from the stack one after the
other, stays below a bound that depends on the environment only.  The built-in hooks may be active.
-/
namespace Verif.Props
open Verif Spec

section
variable {W : Type} {env : Env W} {U : Universe}

/-- One bound `N` suffices for all calls in all states that clients can bring about. -/
theorem C42_terminates (hr : env.Returns) (hk : env.KeepsFakes) (hF : FiniteImports env U) (w : W)
    {stdlib : List (Str × Implies)} (ht : TableOk U stdlib) (builtin : Bool) :
    ∃ N, ∀ m p, Hook.Only (OpOk env U) p → ∀ n, N ≤ n → ∀ o, OpOk env U o →
      ((calls env n).op o (runClient env m p (initState w stdlib builtin)).2).1 ≠ .error .fuel := by
  refine ⟨Term.R U (Term.nodeCost U * U.names.length) + 1, fun m p hp n hn o ho => ?_⟩
  exact ((Term.calls_fin hr hk hF n).op (Term.interp_at (Term.calls_fin hr hk hF m) hp (Term.init_at w ht builtin)) ho).fuel hn

/-- Whole client programs have a definite outcome. -/
theorem C42_outcome (hr : env.Returns) (hk : env.KeepsFakes) (hF : FiniteImports env U) (w : W)
    {stdlib : List (Str × Implies)} (ht : TableOk U stdlib) (builtin : Bool) :
    ∃ N, ∀ p, Hook.Only (OpOk env U) p → ∀ n, N ≤ n →
      runClient env n p (initState w stdlib builtin) = runClient env N p (initState w stdlib builtin) := by
  refine ⟨Term.R U (Term.nodeCost U * U.names.length) + 1, fun p hp n hn => ?_⟩
  have h := Term.init_at (env := env) w ht builtin
  unfold runClient
  generalize initState w stdlib builtin = s at h
  induction hp generalizing s with
  | ret r => rfl
  | raise e => rfl
  | look _ ih => exact ih s _ (h.event _)
  | setWorld _ ih => exact ih _ (h.world _)
  | @call o k ho _ ih =>
    have h1 := (Term.calls_fin hr hk hF (Term.R U (Term.nodeCost U * U.names.length) + 1)).op h ho
    have h2 := h1.fuel (Nat.le_refl _)
    have h3 : (calls env n).op o s = (calls env (Term.R U (Term.nodeCost U * U.names.length) + 1)).op o s :=
      ((calls_le env hn).op o s).resolve_left h2
    have h4 := Term.Fin2.attempt h1
    have h5 : M.attempt ((calls env n).op o) s =
        M.attempt ((calls env (Term.R U (Term.nodeCost U * U.names.length) + 1)).op o) s := by
      unfold M.attempt; rw [h3]
    unfold interp M.bind
    rw [h5]
    cases hm : M.attempt ((calls env (Term.R U (Term.nodeCost U * U.names.length) + 1)).op o) s with
    | mk r s1 =>
      rw [hm] at h4
      cases r with
      | ok x => exact ih x s1 h4.at_
      | error e => rfl

end

/-! ## A concrete environment: `a` and `b` import each other, `x` and `y` are aliases of each other -/

def cyclic : Demo.Table where
  mods := [(c!"a", Demo.src c!"a", [Demo.imp c!"b", Demo.imp c!"x"]),
    (c!"b", Demo.src c!"b", [Demo.imp c!"a", Demo.fromImp 0 c!"p" [c!"q"]]),
    (c!"p", Demo.pkg c!"p", [Demo.imp c!"p"]),
    (c!"p.q", Demo.src c!"p.q", [Demo.fromImp 1 c!"" [c!"q"]])]

def cyclicImplies : List (Str × Implies) := [(c!"x", .alias c!"y"), (c!"y", .alias c!"x")]

def cyclicNames : Universe where
  names := [c!"a", c!"b", c!"p", c!"x", c!"y", c!"a.q", c!"b.q", c!"p.q", c!"x.q", c!"y.q"]
  targets := [c!"a", c!"b", c!"p", c!"x", c!"y"]
  members := [c!"q"]
  limit := 2

theorem demo_returns (t : Demo.Table) : (Demo.env t).Returns := by
  constructor <;> intros <;> simp [Demo.env] <;> split <;> simp

theorem demo_fakes {t : Demo.Table} (h : Demo.lookup t.mods [] = none) : (Demo.env t).KeepsFakes := by
  constructor
  · intro pkg b dir w e w' _ he
    have he := search_eq he
    simp [resolveSpec, Demo.env] at he
  · intro w sp hs
    simp [Demo.env, h] at hs

/-- The import statement refers to names of the universe (computable). -/
def importCheck (U : Universe) (n : Node) (i : ImportInfo) : Bool :=
  (match absoluteName n i with
    | .ok (some y) => decide (y ∈ U.targets)
    | _ => false) && i.importNames.all fun m => decide (m.name ∈ U.members)

theorem importCheck_ok {U : Universe} {n i} (h : importCheck U n i = true) : ImportOk U n i := by
  unfold importCheck at h
  simp only [Bool.and_eq_true, List.all_eq_true, decide_eq_true_eq] at h
  refine ⟨?_, ?_, h.2⟩
  · intro y hy
    have := h.1
    split at this
    · rename_i y' hy'
      rw [hy.unique (refers_of_absoluteName hy')]
      simpa using this
    · cases this
  · intro hy
    have := h.1
    rw [absoluteName_of_outside hy] at this; simp at this

theorem demo_finite {t : Demo.Table} {U : Universe} (h1 : ∀ x ∈ U.targets, x ∈ U.names)
    (h2 : ∀ x ∈ U.names, (match splitPackage x with
      | .ok (some p, _) => decide (p ∈ U.names)
      | _ => true) = true)
    (h3 : ∀ t ∈ U.targets, ∀ m ∈ U.members, t ++ '.' :: m ∈ U.names)
    (h4 : ∀ m ∈ U.members, sixMove m = none)
    (h5 : ∀ q ∈ t.mods, q.2.1.isLoaded = true ∧ q.2.1.ident = q.1 ∧ mypycFile q.2.1 = none ∧
        (match q.2.1.kind with | .package _ _ _ _ (some _) => false | _ => true) = true ∧
        q.2.2.length ≤ U.limit ∧ ∀ i ∈ q.2.2, importCheck U q.2.1 i = true) :
    FiniteImports (Demo.env t) U where
  targets := h1
  parents := by
    intro x hx p hp
    obtain ⟨b, h⟩ := split_of_packageOf hp
    have := h2 x hx
    rw [h] at this
    simpa using this
  members := h3
  six := by
    intro m hm t h
    rw [← sixMove_iff, h4 m hm] at h; cases h
  modules := by
    intro x hx w spec w' n imports hs hn
    have hl : ∃ p, Demo.lookup t.mods x = some p ∧ p = (n, imports) := by
      have hs := locates_iff.mp hs
      simp only [resolveSpec, Demo.env] at hs
      cases hl : Demo.lookup t.mods x with
      | none => rw [hl] at hs; simp at hs
      | some p =>
        rw [hl] at hs
        simp only [Option.map_some, Except.ok.injEq, Option.some.injEq] at hs
        subst hs
        simp only [Demo.env, Demo.specOf, hl] at hn
        simp at hn
        exact ⟨p, rfl, hn⟩
    obtain ⟨p, hl, rfl⟩ := hl
    have hm : (x, n, imports) ∈ t.mods := by
      unfold Demo.lookup at hl
      cases hf : t.mods.find? fun p => p.1 == x with
      | none => rw [hf] at hl; simp at hl
      | some q =>
        rw [hf] at hl
        simp at hl
        have h1 := List.find?_some hf
        simp at h1
        have := List.mem_of_find?_eq_some hf
        rw [← hl, ← h1]; exact this
    obtain ⟨h1, h2, h3, h4, h5, h6⟩ := h5 _ hm
    refine ⟨.inl h1, fun h => absurd h2 h, ⟨h5, fun i hi => importCheck_ok (h6 i hi)⟩, (Term.MypycOk.of_none h3), ?_, ?_⟩
    · intro a b c d hk
      simp [hk] at h4
    · intro a b c d hk
      simp [hk] at h4

theorem cyclic_finite : FiniteImports (Demo.env cyclic) cyclicNames :=
  demo_finite (by decide +kernel) (by decide +kernel) (by decide +kernel) (by decide +kernel) (by decide +kernel)

example : ∃ N, ∀ m p, Hook.Only (OpOk (Demo.env cyclic) cyclicNames) p → ∀ n, N ≤ n → ∀ o,
    OpOk (Demo.env cyclic) cyclicNames o →
      ((calls (Demo.env cyclic) n).op o (runClient (Demo.env cyclic) m p (initState () cyclicImplies true)).2).1 ≠
        .error .fuel :=
  C42_terminates (demo_returns _) (demo_fakes (by decide +kernel)) cyclic_finite () (by
    intro p hp _
    simp only [cyclicImplies, List.mem_cons, List.not_mem_nil, or_false] at hp
    rcases hp with rfl | rfl <;> simp [ImpliesOk, cyclicNames]) true

example : OpOk (Demo.env cyclic) cyclicNames (.addModule c!"a") := by
  show c!"a" ∈ cyclicNames.names
  decide +kernel

example : ((Demo.run cyclic [.addModule c!"a"] cyclicImplies).2.nodes.map Node.ident, (Demo.run cyclic [.addModule c!"a"] cyclicImplies).2.stack) =
  ([c!"a", c!"x", c!"y", c!"b", c!"p", c!"p.q"], []) := by decide +kernel

end Verif.Props
