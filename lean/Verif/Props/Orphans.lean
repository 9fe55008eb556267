import Verif.Proofs.Orphans
import Verif.Props.Config
/-!
# C59: nodes that cannot be reached from the roots
-/
namespace Verif.Props
open Verif Spec

variable {W : Type}

theorem reach_of_path {g : View} {a b : Str} (ha : Reach g a) (hp : Path g.edges a b) : Reach g b := by
  induction hp with
  | refl => exact ha
  | step _ he ih => exact .step ih he

/-- C59: after any run without a failed call of a client that does not build parts of the graph by
hand, every node can be reached from a root, or from a missing module that was only tried as a submodule
for a name of a `from` statement.  Hooks for missing modules do not call the graph; names of `from`
statements have no dots in them. -/
theorem C59_reachable (env : Env W) (hM : ∀ k i n, (env.userMissing k i n).Passive)
    (hP : ∀ k n, (env.userPost k n).Only ApiOp.Links) (p : Hook W) (hp : p.Only ApiOp.Links) (n : Nat) (w : W)
    (stdlib : List (Str × Implies)) (builtin : Bool) :
    let s := (runClient env n p (initState w stdlib builtin)).2
    Event.failed ∉ s.log →
    (∀ a b i, Event.started (.nl a b i) ∈ s.log → ∀ nm ∈ i.importNames, '.' ∉ nm.name) →
    ∀ x ∈ s.nodes, Reach (view s) x.ident ∨
      ∃ a, OnlyTried (view s) s.gw s.log a ∧ Path s.edges a x.ident := by
  intro s hf hd x hx
  have h0 : GoodOrSpoilt (initState w stdlib builtin) := by
    have key : ∀ (l : List (Str × Implies)) (s : St W), GoodOrSpoilt s → GoodOrSpoilt (l.foldl addImply s) := by
      intro l s hs
      refine foldl_pres (P := GoodOrSpoilt) (f := addImply) (fun s a h => ?_) l s hs
      unfold addImply
      split
      · exact h
      · exact h.map List.prefix_rfl fun h =>
          h.quiet ⟨List.prefix_rfl, fun _ h => h, List.prefix_rfl, fun _ _ _ h => h, fun _ h => h⟩ rfl rfl rfl
    have := key stdlib
      { world := w, lazy := fun k => if k = c!"__main__" then some .excluded else none }
      (.inr ⟨fun _ h => (by cases h), fun _ h => (by cases h)⟩)
    unfold initState
    simp only []
    split
    · exact this.map List.prefix_rfl fun h =>
        h.quiet ⟨List.prefix_rfl, fun _ h => h, List.prefix_rfl, fun _ _ _ h => h, fun _ h => h⟩ rfl rfl rfl
    · exact this
  rcases interp_orph (calls_orph hM hP n) hp _ h0 with h | h
  · rcases h with h | ⟨a, b, i, h, nm, h1, h2⟩
    · exact absurd h hf
    · exact absurd h2 (hd a b i h nm h1)
  · obtain ⟨a, ha, hpath⟩ := h.nodes x hx
    rcases ha with ha | ha
    · exact .inl (reach_of_path (.root ha) hpath)
    · exact .inr ⟨a, ha, hpath⟩

/-- C59: if no missing module was only tried, all nodes are reachable; in particular a listing of the
reachable nodes has all of them. -/
theorem C59_all_listed (env : Env W) (hM : ∀ k i n, (env.userMissing k i n).Passive)
    (hP : ∀ k n, (env.userPost k n).Only ApiOp.Links) (p : Hook W) (hp : p.Only ApiOp.Links) (n : Nat) (w : W)
    (stdlib : List (Str × Implies)) (builtin : Bool) (l : List Node) :
    let s := (runClient env n p (initState w stdlib builtin)).2
    Event.failed ∉ s.log →
    (∀ a b i, Event.started (.nl a b i) ∈ s.log → ∀ nm ∈ i.importNames, '.' ∉ nm.name) →
    (¬ ∃ a, OnlyTried (view s) s.gw s.log a) → Listing (view s) l →
    ∀ x ∈ s.nodes, IsModuleNode x → x ∈ l := by
  intro s hf hd hn hl x hx hm
  rcases C59_reachable env hM hP p hp n w stdlib builtin hf hd x hx with h | ⟨a, ha, -⟩
  · exact (hl.mem x).mpr ⟨hx, h, hm⟩
  · exact absurd ⟨a, ha⟩ hn

/-- `p` has a global variable `version` and a submodule `q`; `a` says `from p import version, q`. -/
def orphanTable : Demo.Table :=
  { mods := [(c!"a", Demo.src c!"a", [Demo.fromImp 0 c!"p" [c!"version", c!"q"]]),
             (c!"p", Demo.pkg c!"p" [] [c!"version"], []),
             (c!"p.q", Demo.src c!"p.q", [])] }

/-- Nodes outside of a set with all roots that no edge leaves are not reachable. -/
theorem not_reach {g : View} (L : List Str) (hr : ∀ r ∈ g.roots, r ∈ L) (he : ∀ e ∈ g.edges, e.2.1 ∈ L)
    {x} (hx : x ∉ L) : ¬ Reach g x := by
  intro h
  apply hx
  cases h with
  | root h => exact hr _ h
  | step _ h => exact he _ h

/-- The exception is needed: the package has a variable `version`, which is all that the module asks for,
yet there is a `MissingModule` for `p.version` in the graph.  Nothing leads to it. -/
theorem C59_orphan :
    let s := (Demo.run orphanTable [.addModule c!"a"]).2
    (∃ x ∈ s.nodes, x.ident = c!"p.version" ∧ x.isMissing = true ∧ ¬ Reach (view s) x.ident) ∧
    Event.failed ∉ s.log := by
  have h1 : missingNode c!"p.version" ∈ (Demo.run orphanTable [.addModule c!"a"]).2.nodes := by
    decide +kernel
  have h2 : ∀ r ∈ (view (Demo.run orphanTable [.addModule c!"a"]).2).roots, r ∈ [c!"a", c!"p", c!"p.q"] := by
    decide +kernel
  have h3 : ∀ e ∈ (view (Demo.run orphanTable [.addModule c!"a"]).2).edges,
      e.2.1 ∈ [c!"a", c!"p", c!"p.q"] := by decide +kernel
  have h4 : Event.failed ∉ (Demo.run orphanTable [.addModule c!"a"]).2.log := by decide +kernel
  generalize (Demo.run orphanTable [.addModule c!"a"]).2 = s at *
  exact ⟨⟨_, h1, rfl, rfl, not_reach _ h2 h3 (by decide +kernel)⟩, h4⟩

/-- No name of a list that was processed has a dot in it. -/
def plainLog (log : List Event) : Bool :=
  log.all fun e => match e with
    | .started (.nl _ _ i) => i.importNames.all fun nm => !nm.name.contains '.'
    | _ => true

theorem plainLog_ok {log : List Event} (h : plainLog log = true) :
    ∀ a b i, Event.started (.nl a b i) ∈ log → ∀ nm ∈ i.importNames, '.' ∉ nm.name := by
  intro a b i hm nm hn
  have := List.all_eq_true.mp h _ hm
  have := List.all_eq_true.mp this nm hn
  simpa using this

/-- The hypotheses of the theorems are met, with the orphan and without. -/
example : (∀ k i n, ((Demo.env orphanTable).userMissing k i n).Passive) ∧
    (∀ k n, ((Demo.env orphanTable).userPost k n).Only ApiOp.Links) ∧
    (Demo.client [.addModule c!"a"]).Only ApiOp.Links ∧
    (let s := (Demo.run orphanTable [.addModule c!"a"]).2
     Event.failed ∉ s.log ∧ plainLog s.log = true) ∧
    (let s := (Demo.run Demo.small [.addModule c!"a", .addScript c!"/s.py"]).2
     Event.failed ∉ s.log ∧ plainLog s.log = true ∧ s.nodes.length = 6) :=
  ⟨fun _ _ _ => .ret, fun _ _ => .ret _, demo_client_only _ _ (by simp [ApiOp.Links]),
    by decide +kernel, by decide +kernel⟩

/-- In this graph no missing module was only tried, although there is a missing module. -/
example :
    let s := (Demo.run Demo.small [.addModule c!"a", .addScript c!"/s.py"]).2
    (¬ ∃ a, OnlyTried (view s) s.gw s.log a) ∧ s.nodes.any Node.isMissing = true := by
  have h0 : (Demo.run Demo.small [.addModule c!"a", .addScript c!"/s.py"]).2.nodes.any Node.isMissing = true := by
    decide +kernel
  have h1 : ∀ p ∈ (Demo.run Demo.small [.addModule c!"a", .addScript c!"/s.py"]).2.nodes,
      p.isPackage = true → (Demo.run Demo.small [.addModule c!"a", .addScript c!"/s.py"]).2.gw p.ident = [] := by
    decide +kernel
  have h2 : ∀ p ∈ (Demo.run Demo.small [.addModule c!"a", .addScript c!"/s.py"]).2.nodes,
      p.isPackage = true → p = Demo.pkg c!"p" := by decide +kernel
  generalize (Demo.run Demo.small [.addModule c!"a", .addScript c!"/s.py"]).2 = s at *
  refine ⟨?_, h0⟩
  rintro ⟨a, y, -, -, -, p, hp, hpk, -, -, -, -, nm, -, -, h⟩
  rcases h with h | ⟨_, init, _, _, _, hk, hn⟩
  · rw [h1 p hp hpk] at h; cases h
  · rw [h2 p hp hpk] at hk
    simp only [Demo.pkg, Kind.package.injEq] at hk
    rw [← hk.2.1] at hn
    cases hn

end Verif.Props
