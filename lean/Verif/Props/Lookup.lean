import Verif.Proofs.Lookup
import Verif.Proofs.LoaderRaises
import Verif.Spec.Demo
import Verif.Props.Loaders
import Verif.Props.Bytecode
/-!
# C82: the graph is never asked about nodes it does not have

The methods add edges and roots for nodes that they found or made before.  If one of these were not in the graph
the user would see a `KeyError`, far from its cause.  This never happens, as long as the user's code only passes
nodes of the graph; exceptions come from outside, or are a failed `assert` or a `ValueError`.
-/
namespace Verif.Props
open Verif Spec
variable {W : Type}

theorem initial_keptIn (w : W) (stdlib : List (Str × Implies)) (builtin : Bool) : KeptIn (initState w stdlib builtin) := by
  have h := foldl_kept (addImply_kept (W := W)) stdlib
    { world := w, lazy := fun k => if k = c!"__main__" then some .excluded else none }
  have h0 : KeptIn (stdlib.foldl addImply
      ({ world := w, lazy := fun k => if k = c!"__main__" then some .excluded else none } : St W)) :=
    ⟨by rw [h.2.1]; simp, by rw [h.2.2]; simp⟩
  unfold initState
  split
  · exact h0.same rfl rfl rfl
  · exact h0

/-- **C82.**  The exceptions of any careful client, also those of the calls it makes (a client may pass them
on), come from the world or the user's code, or are `AssertionError` or `ValueError`. -/
theorem C82_exceptions (P : Exc → Prop) (env : Env W) (hW : WorldRaises P env) (hH : HooksCareful P env)
    (n : Nat) (p : Hook W) (hp : Careful P [] p) (w : W) (stdlib : List (Str × Implies)) (builtin : Bool) (e : Exc)
    (h : (runClient env n p (initState w stdlib builtin)).1 = .error e) :
    P e ∨ e = .assertion ∨ e = .valueError false ∨ e = .fuel := by
  have := interp_fine (calls_fine hW hH n) p [] _ hp (initial_keptIn w stdlib builtin) (by simp)
  have h3 := this.2.2
  unfold runClient at h
  rw [h] at h3
  exact h3

/-- In particular no call raises a `KeyError` or `IndexError` if nothing outside does. -/
theorem C82_no_lookup_error (env : Env W) (hW : WorldRaises (fun e => ¬ LookupFails e) env)
    (hH : HooksCareful (fun e => ¬ LookupFails e) env) (n : Nat) (p : Hook W)
    (hp : Careful (fun e => ¬ LookupFails e) [] p) (w : W) (stdlib : List (Str × Implies)) (builtin : Bool) (e : Exc)
    (h : (runClient env n p (initState w stdlib builtin)).1 = .error e) : e ≠ .keyError ∧ e ≠ .indexError := by
  rcases C82_exceptions _ env hW hH n p hp w stdlib builtin e h with h | rfl | rfl | rfl
  · exact ⟨fun h' => h (.inl h'), fun h' => h (.inr h')⟩
  all_goals exact ⟨nofun, nofun⟩

/-- The node that a careful client returns, such as the result of its last call, is in the graph. -/
theorem C82_result (P : Exc → Prop) (env : Env W) (hW : WorldRaises P env) (hH : HooksCareful P env)
    (n : Nat) (p : Hook W) (hp : Careful P [] p) (w : W) (stdlib : List (Str × Implies)) (builtin : Bool) (m : Node)
    (h : (runClient env n p (initState w stdlib builtin)).1 = .ok (some m)) :
    ∃ m' ∈ (runClient env n p (initState w stdlib builtin)).2.nodes, m'.ident = m.ident := by
  have := interp_fine (calls_fine hW hH n) p [] _ hp (initial_keptIn w stdlib builtin) (by simp)
  have h3 := this.2.2
  unfold runClient at h
  rw [h] at h3
  exact Has_of_has (h3 m rfl)

/-- **C82 for `node_for_spec`.**  It raises what the loaders raise, a failed `assert`, or the `RuntimeError` for
a loader that it does not know; scanning compiled code raises nothing. -/
theorem C82_node_for_spec (P : Exc → Prop) (L : Loaders W) (hL : LoadersRaise P L) (n : Nat) (spec : Verif.Spec)
    (w : W) (e : Exc) (h : (nodeForSpec L n spec w).1 = .error e) :
    P e ∨ e = .assertion ∨ e = .runtimeError ∨ e = .fuel :=
  nodeForSpec_raises (P := fun e => P e ∨ e = .assertion ∨ e = .runtimeError ∨ e = .fuel)
    { findSpec := fun x => (hL.findSpec x).weaken fun _ h => .inl h
      getSource := fun x => (hL.getSource x).weaken fun _ h he => .inl (h he)
      parse := fun x y => (hL.parse x y).weaken fun _ h he => .inl (h he)
      getCode := fun x => (hL.getCode x).weaken fun _ h he => .inl (h he)
      isPackage := fun x => (hL.isPackage x).weaken fun _ h => .inl h
      distributionForFile := fun x => (hL.distributionForFile x).weaken fun _ h => .inl h
      containsDatafiles := fun x => (hL.containsDatafiles x).weaken fun _ h => .inl h
      importPath := fun x => (hL.importPath x).weaken fun _ h he => .inl (h he)
      delModule := fun x => (hL.delModule x).weaken fun _ h => .inl h
      invalidate := hL.invalidate.weaken fun _ h => .inl h
      compiled := hL.compiled } (by simp) (by simp) (by simp) n spec w e h

/-! ## Examples -/

/-- The example worlds raise no `LookupError` (their `sys.modules.pop` does). -/
theorem demo_raises (t : Demo.Table) : WorldRaises (fun e => ¬ LookupFails e) (Demo.env t) := by
  have h : ∀ {α : Type} (x : Ext Unit α), (∀ w e, (x w).1 = .error e → e = .runtimeError ∨ e = .osError ∨ e = .syntaxError) →
      Raises (fun e => ¬ LookupFails e) x := by
    intro α x hx w e he
    rcases hx w e he with rfl | rfl | rfl <;> simp [LookupFails]
  constructor
  case popModule => rintro x w _ ⟨⟩ h; exact absurd ⟨nofun, nofun⟩ h
  case order => exact fun _ _ _ h => h
  all_goals intros; apply h; intro w e he; simp only [Demo.env] at he
  all_goals first
    | (cases he; done)
    | (split at he <;> cases he <;> simp)

/-- A client that adds `a`, looks at the graph, imports a module from every node that it sees, and passes on the
first exception. -/
def importer : Hook Unit :=
  .call (.addModule c!"a") fun r => match r with
    | .error e => .raise e
    | .ok none => .ret none
    | .ok (some m) => .call (.importModule m c!"p") fun r => match r with
      | .error e => .raise e
      | .ok r => .look fun s => match s.nodes with
        | [] => .ret r
        | x :: _ => .call (.importPackage x c!"p.q") fun r => match r with
          | .error e => .raise e
          | .ok r => .ret r

/-- It is careful. -/
theorem importer_careful (P : Exc → Prop) : Careful P [] importer := by
  refine ⟨trivial, fun r hr => ?_⟩
  cases r with
  | error e => exact hr e rfl
  | ok m =>
    cases m with
    | none => exact fun _ h => nomatch h
    | some m =>
      refine ⟨by simp [UsesKnown, learnt], fun r hr => ?_⟩
      cases r with
      | error e => exact hr e rfl
      | ok r =>
        intro s
        simp only []
        cases s.nodes with
        | nil => rintro x rfl; simp [learnt]
        | cons y l =>
          refine ⟨by simp [UsesKnown], fun r' hr => ?_⟩
          cases r' with
          | error e => exact hr e rfl
          | ok r' => rintro x rfl; simp [learnt]

/-- The hypotheses are met. -/
example (n : Nat) (e : Exc)
    (h : (runClient (Demo.env Demo.small) n importer (initState () [] true)).1 = .error e) :
    e ≠ .keyError ∧ e ≠ .indexError :=
  C82_no_lookup_error (Demo.env Demo.small) (demo_raises _)
    ⟨fun _ _ => (nofun : ∀ n : Node, (none : Option Node) = some n → _),
      fun _ _ _ => (nofun : ∀ n : Node, (none : Option Node) = some n → _)⟩ n importer
    (importer_careful _) () [] true e h

/-- The client does get to its end. -/
example : (runClient (Demo.env Demo.small) (29 + 1) importer (initState () [] true)).1 =
    .ok (some (Demo.src c!"p.q")) := by decide +kernel

/-- Care is needed: importing from a node that is not in the graph raises `KeyError`, after the module was
added. -/
theorem C82_foreign :
    let r := (calls (Demo.env Demo.small) (29 + 1)).op (.importModule (Demo.src c!"nobody") c!"p") (initState () [] true)
    r.1 = .error .keyError ∧ r.2.nodes.map Node.ident = [c!"p"] := by decide +kernel

/-- The same for a missing hook that returns a node without adding it: the `KeyError` is raised by the
method that wants to link it. -/
theorem C82_foreign_hook :
    let t : Demo.Table := { Demo.small with missing := fun _ _ x => .ret (some (Demo.src x)) }
    ((calls (Demo.env t) (29 + 1)).op (.addModule c!"a")
      { initState () [] true with missHooks := [.user 0] }).1 = .error .keyError := by decide +kernel

/-- Loaders that give compiled code, without source for some modules. -/
def codeLoaders : Loaders Unit := { demoLoaders with getCode := fun _ w => (.ok (some SampleCode.root), w) }

/-- The hypotheses on loaders are met by ones that raise only handled exceptions. -/
example (n : Nat) (spec : Verif.Spec) (e : Exc) (h : (nodeForSpec codeLoaders n spec ()).1 = .error e) :
    e = .assertion ∨ e = .runtimeError ∨ e = .fuel := by
  have hL : LoadersRaise (fun _ => False) codeLoaders := by
    constructor
    case getSource =>
      intro x w e he hs
      simp only [codeLoaders, demoLoaders] at he
      split at he
      · cases he
      split at he <;> cases he
      exact hs rfl
    case importPath => rintro x w _ ⟨⟩ hi; exact hi (.inl rfl)
    case compiled => rintro x w _ ⟨⟩; exact SampleCode.compiled
    case invalidate => rintro w _ ⟨⟩
    case parse => rintro _ _ w _ ⟨⟩
    all_goals rintro x w _ ⟨⟩
  rcases C82_node_for_spec _ codeLoaders hL n spec () e h with h | h
  · exact h.elim
  · exact h

example : (nodeForSpec codeLoaders 1 ⟨c!"m", .inspect, some c!"/m.pyc", none⟩ ()).1.toOption.isSome = true := by
  decide +kernel

/-- For code that no compiler makes (an instruction names nothing) scanning raises `IndexError`, and so does
`node_for_spec`. -/
theorem C82_bad_code :
    let L : Loaders Unit :=
      { demoLoaders with getCode := fun _ w => (.ok (some (.mk 0 [] [⟨.storeName, some 0⟩] .nil)), w) }
    (nodeForSpec L 1 ⟨c!"m", .inspect, some c!"/m.pyc", none⟩ ()).1 = .error .indexError := by decide +kernel

end Verif.Props
