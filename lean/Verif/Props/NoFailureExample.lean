import Verif.Props.NoFailure
import Verif.Model.Implies
/-!
# C63: examples and counterexamples
-/
namespace Verif.Props
open Verif M Spec

theorem demo_works (t : Demo.Table) (S : Setup) (h : ∀ path, S.asksScript path → Demo.lookup t.scripts path ≠ none)
    (hd : ∀ x, S.dists x = t.dists.find? fun d => d.name == x)
    (ho : ∀ x, S.sources x = Demo.lookup t.scripts x) :
    S.Works (Demo.env t) where
  finds x w _ := ⟨_, .inl ⟨_, .plain rfl⟩⟩
  reads x spec w w' _ h1 := by
    replace h1 := locates_iff.mp h1
    simp only [resolveSpec, Demo.env] at h1
    cases hl : Demo.lookup t.mods x with
    | none => rw [hl] at h1; simp at h1
    | some q =>
      rw [hl] at h1
      simp [Demo.specOf] at h1
      subst h1
      simp [Demo.env, hl]
  scripts path w hp := by
    have := h path hp
    simp only [Demo.env]
    cases hl : Demo.lookup t.scripts path with
    | none => exact absurd hl this
    | some i => exact ⟨_, rfl⟩
  distributions name d w h1 _ := by
    rw [hd] at h1
    exact ⟨d, by simpa [Demo.env] using h1⟩
  sources src infos w h1 := by
    rw [ho] at h1
    exact ⟨infos, by simp [Demo.env, h1]⟩
  compiled source w _ := by
    cases hl : t.files.contains source with
    | false => exact .inl (by simpa [Demo.env] using hl)
    | true =>
      refine .inr ⟨by simpa [Demo.env] using hl, fun w => ⟨source, rfl⟩, fun w w' code _ => ?_⟩
      cases hc : Demo.lookup t.scripts code with
      | some l => exact .inl ⟨l, by simp [Demo.env, hc]⟩
      | none => exact .inr (by simp [Demo.env, hc])

theorem ex_safe : exactSetup.Safe where
  names x h := by
    obtain ⟨tr, h⟩ := h
    have := ex_needs h
    simp only [ExNeeds, List.mem_cons, Prod.mk.injEq, List.not_mem_nil, or_false] at this
    have one : ∀ y : Str, '.' ∉ y → y ≠ [] → ∃ pre last, IsSplit y 0 pre last :=
      fun y h1 h2 => ⟨[], y, by simp [dotted], by simp, h1, fun _ => h2⟩
    have two : ∀ y z : Str, '.' ∉ y → y ≠ [] → '.' ∉ z → ∃ pre last, IsSplit (y ++ '.' :: z) 0 pre last :=
      fun y z h1 h2 h3 => ⟨[y], z, by simp [dotted], by simpa using ⟨h1, h2⟩, h3, by simp⟩
    rcases this with ⟨rfl, _⟩ | ⟨rfl, _⟩ | ⟨rfl, _⟩ | ⟨rfl, _⟩ | ⟨rfl, _⟩ | ⟨rfl, _⟩ | ⟨rfl, _⟩ | ⟨rfl, _⟩ <;>
      first
      | exact one _ (by decide) (by decide)
      | exact two c!"p" c!"q" (by decide) (by decide) (by decide)
      | exact two c!"p" c!"v" (by decide) (by decide) (by decide)
  noCode x n infos h hn := by
    rcases (ex_mods h).2 with rfl | rfl | rfl <;> cases hn
  once y p q h hp hq hb := by
    have : p = c!"p" := by
      obtain ⟨tr, h⟩ := h
      have := ex_needs h
      simp only [ExNeeds, List.mem_cons, Prod.mk.injEq, List.not_mem_nil, or_false] at this
      rcases this with ⟨rfl, _⟩ | ⟨rfl, _⟩ | ⟨rfl, _⟩ | ⟨rfl, _⟩ | ⟨rfl, _⟩ | ⟨rfl, _⟩ | ⟨rfl, _⟩ | ⟨rfl, _⟩ <;>
        first
        | exact absurd hp (ex_dot (by decide) p)
        | exact hp.unique (⟨c!"q", rfl, by decide⟩ : HasPackage c!"p.q" c!"p")
        | exact hp.unique (⟨c!"v", rfl, by decide⟩ : HasPackage c!"p.v" c!"p")
    subst this
    cases hq.unique ex_p
    simp [Demo.pkg, Node.isMissing, Node.isExcluded] at hb

def exactNames : Universe where
  names := [c!"a", c!"al", c!"p", c!"z", c!"x", c!"/s", c!"a.q", c!"a.v", c!"al.q", c!"al.v", c!"p.q", c!"p.v",
    c!"z.q", c!"z.v", c!"x.q", c!"x.v"]
  targets := [c!"a", c!"al", c!"p", c!"z", c!"x"]
  members := [c!"q", c!"v"]
  limit := 3

/-- All hypotheses of `C63_total` are met by the example of C61. -/
example : ∃ N, ∀ n, N ≤ n →
    let r := runClient (Demo.env exactTable) n (configureThen [c!"x"] [(c!"al", .alias c!"a")]
      (doAll exactOps)) (initState () [] true)
    r.1 = .ok none ∧ Event.failed ∉ r.2.log ∧
    (∀ m, m ∈ r.2.nodes ↔ exactSetup.HasNode m) ∧
    (∀ a b d, (a, b, d) ∈ r.2.edges ↔ exactSetup.HasEdge a b d) ∧ ∀ x, x ∈ r.2.roots ↔ exactSetup.HasRoot x := by
  refine C63_total exactSetup ex_tame ex_safe (Demo.env exactTable) ex_describes (demo_works _ _ ?_ (fun _ => rfl) fun _ => rfl)
    (fun _ _ _ => Iff.rfl) _ ex_asked (by simp [ScriptsOnce, exactOps]) () [] true [c!"x"] [(c!"al", .alias c!"a")] rfl
    (U := exactNames) (demo_returns _) (demo_fakes (by decide +kernel))
    (demo_finite (by decide +kernel) (by decide +kernel) (by decide +kernel) (by decide +kernel) (by decide +kernel))
    (by simp [TableOk]) (by simp [TableOk, ImpliesOk, exactNames]) ?_ (demo_loads _ (by decide +kernel)).makes
    (fun _ _ => .ret none) (fun _ _ _ => .ret) (.inl rfl)
  · rintro _ rfl; decide +kernel
  · intro o ho
    simp only [exactOps, List.mem_cons, List.not_mem_nil, or_false] at ho
    rcases ho with rfl | rfl | rfl | rfl | rfl
    · show c!"a" ∈ exactNames.names; decide +kernel
    · show c!"al" ∈ exactNames.names; decide +kernel
    · refine ⟨by decide +kernel, ?_⟩
      intro w infos f hl
      have : infos = [Demo.imp c!"al"] ∧ f = c!"/s" := by
        have h2 : ((Demo.env exactTable).loadScript c!"/s" w).1 = .ok ([Demo.imp c!"al"], c!"/s") := rfl
        rw [h2] at hl
        cases hl
        exact ⟨rfl, rfl⟩
      obtain ⟨rfl, rfl⟩ := this
      refine ⟨by decide, fun i hi => importCheck_ok ?_⟩
      simp only [List.mem_cons, List.not_mem_nil, or_false] at hi
      subst hi
      decide +kernel
    · intro w d hd
      have h2 : ((Demo.env exactTable).distributionNamed c!"D" w).1 = .ok (some exactDist) := rfl
      rw [h2] at hd
      cases hd
      decide +kernel
    · intro w infos hl
      have h2 : ((Demo.env exactTable).parseSource c!"import z" w).1 = .ok [Demo.imp c!"z"] := rfl
      rw [h2] at hl
      cases hl
      decide +kernel

/-! ## Calls that fail although all modules can be read -/

/-- The table in `_implies.py`, for a platform that is not Windows. -/
def realTable : List (Str × Implies) := stdlibImplies c!"posixpath" c!"_sysconfigdata__linux_" false

/-- A bug, and why `once` is needed: with the table of the standard library, and a Python installation
without the optional package `turtledemo`, `add_module("turtledemo.nim")` raises `ValueError`: the
package is looked up first, that adds all its implied submodules, `turtledemo.nim` among them, and then
the missing module is added for a second time. -/
theorem C63_turtledemo :
    let r := (calls (Demo.env {}) 30).op (.addModule c!"turtledemo.nim") (initState () realTable true)
    (r.1 matches .error (.valueError _)) = true ∧ r.2.has c!"turtledemo.nim" = true := by
  decide +kernel

/-- The same for an import statement: `a` has `import turtledemo.nim`, and that ends the construction
of the graph. -/
theorem C63_turtledemo_import :
    let r := (calls (Demo.env { mods := [(c!"a", Demo.src c!"a", [Demo.imp c!"turtledemo.nim"])] }) 30).op
      (.addModule c!"a") (initState () realTable true)
    (r.1 matches .error (.valueError _)) = true := by
  decide +kernel

/-- The same for an excluded package: `g` implies `g.p.y`, and `g.p` is excluded. -/
theorem C63_excluded :
    let env := Demo.env { mods := [(c!"g", Demo.pkg c!"g", [])] }
    let s := (runClient env 30 (configureThen [c!"g.p"] [(c!"g", .refs [c!"g.p.y"])] (.ret none))
      (initState () [] true)).2
    (((calls env 30).op (.addModule c!"g.p.y") s).1 matches .error (.valueError _)) = true := by
  decide +kernel

/-- Why `names` is needed: an alias for an ill-formed name. -/
theorem C63_names :
    (((calls (Demo.env {}) 30).op (.addModule c!"a") (initState () [(c!"a", .alias c!"b..c")] true)).1 matches
      .error (.valueError _)) = true := by
  decide +kernel

/-- Why `ScriptsOnce` is needed. -/
theorem C63_script_twice :
    let env := Demo.env { scripts := [(c!"/s", [])] }
    let s := ((calls env 30).op (.addScript c!"/s") (initState () [] true)).2
    (((calls env 30).op (.addScript c!"/s") s).1 matches .error (.valueError _)) = true := by
  decide +kernel

end Verif.Props
