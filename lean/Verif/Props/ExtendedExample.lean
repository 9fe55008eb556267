import Verif.Props.ProjectExample
/-!
# C66: an example with a package that extends its path

A package that cannot be compiled imports a submodule of a package that extends its `__path__` with `pkgutil`.
-/
namespace Verif.Props
open Verif Spec Proj

namespace Extended

/-- `import ns.m`, in a package that is not valid -/
def treeB : Ast := .other [.import_ [(c!"ns.m", none)]]
def treeE : Ast := .other []

def project : Project where
  item x :=
    if x = c!"ns" then some (.package c!"/ns/__init__.py" c!"__path__ = __import__('pkgutil').extend_path(__path__, __name__)"
      treeE [c!"__path__"] [c!"__import__"] [c!"/ns", c!"/lib/ns"] false)
    else if x = c!"ns.m" then some (.source c!"/lib/ns/m.py" c!"M" treeE [] [])
    else if x = c!"pkgutil" then some (.source c!"/pkgutil.py" c!"P" treeE [] [])
    else if x = c!"bad" then some (.invalidPackage c!"/bad/__init__.py" (some treeB) [c!"/bad"] false)
    else none
  script := fun _ => none
  parent := fun file => if file = c!"/bad/__init__.py" then c!"/bad" else c!"/ns"
  resolve := fun p => p
  dist := fun _ => none
  extended := fun x => if x = c!"ns" then some .pkgutil else none

noncomputable abbrev conf : Str → Option Implies := configured [] ([] ++ [])
def mods : List Str := [c!"bad"]
def trees (_ file : Str) : Ast := if file = c!"/bad/__init__.py" then treeB else treeE
def codes (x : Str) : Code :=
  if x = c!"ns" then .mk 0 [c!"__import__", c!"__path__"] [⟨.loadName, some 0⟩, ⟨.storeName, some 1⟩] .nil
  else .mk 0 [] [] .nil

theorem froms_b : allFroms treeB = [] := by simp [allFroms, treeB, occurrences]
theorem imports_b : allImports treeB = [(c!"ns.m", none)] := by simp [allImports, treeB, occurrences]
theorem froms_e : allFroms treeE = [] := by simp [allFroms, treeE, occurrences]
theorem imports_e : allImports treeE = [] := by simp [allImports, treeE, occurrences]

theorem compiled : Compiled project trees codes where
  source := by
    intro x file text tree g r h
    rcases h with h | ⟨path, data, h⟩
    · simp only [project] at h
      repeat' split at h
      all_goals simp at h
      all_goals
        rename_i hx
        obtain ⟨rfl, rfl, rfl, rfl, rfl⟩ := h
        subst hx
        exact ⟨rfl, [], by decide +kernel⟩
    · simp only [project] at h
      repeat' split at h
      all_goals simp at h
      rename_i hx
      obtain ⟨rfl, rfl, rfl, rfl, rfl, _⟩ := h
      subst hx
      exact ⟨rfl, [], by decide +kernel⟩
  package := by
    intro x file text tree g r path data h
    simp only [project] at h
    repeat' split at h
    all_goals simp at h
    rename_i hx
    obtain ⟨rfl, rfl, rfl, rfl, rfl, rfl, rfl⟩ := h
    exact ⟨by simp [project, hx], rfl⟩
  extended := by
    intro x file text tree g r path data ns h he
    simp only [project] at h he
    split at he
    · rename_i hx
      subst hx
      cases he
      cases h
      exact ⟨by simp, ⟨c!"__path__ = __import__('", c!"').extend_path(__path__, __name__)", rfl⟩, fun _ => by decide +kernel⟩
    · cases he
  other := by
    intro x it h
    simp only [project] at h
    repeat' split at h
    all_goals first | cases h; trivial | cases h; exact ⟨rfl, rfl⟩ | cases h

theorem text_cases {x pkg tree} (h : project.text x = some (pkg, tree)) :
    x = c!"bad" ∧ pkg = true ∧ tree = treeB ∨ (x = c!"ns" ∨ x = c!"ns.m" ∨ x = c!"pkgutil") ∧ tree = treeE := by
  by_cases h1 : x = c!"bad"
  · subst h1
    have : project.text c!"bad" = some (true, treeB) := rfl
    rw [this] at h
    cases h
    exact .inl ⟨rfl, rfl, rfl⟩
  refine .inr ?_
  simp only [Project.text, project, if_neg h1] at h
  split at h
  all_goals first
    | (cases h; done)
    | (rename_i hi
       repeat' split at hi
       all_goals first | (cases hi; done) | (cases hi; cases h; simp_all))

theorem conf_none {x} (h : x ≠ c!"__main__") : conf x = none := by
  unfold conf configured
  rw [if_neg (by simp [h])]
  rfl

theorem conf_some {x v} (h : conf x = some v) : v = .excluded := by
  by_cases hx : x = c!"__main__"
  · subst hx
    unfold conf configured at h
    rw [if_pos (by simp)] at h
    exact (Option.some.inj h).symm
  · rw [conf_none hx] at h
    cases h

theorem along_ns {x t} (h : project.Along conf x t) : x = c!"ns" ∧ t = c!"pkgutil" := by
  rcases h with h | ⟨ns, h, -, rfl⟩
  · rcases alias_conf h with h | h <;> cases conf_some h
  · unfold Project.nsType at h
    split at h
    · simp only [project] at h
      split at h
      · cases h
        exact ⟨by assumption, rfl⟩
      · cases h
    · cases h

theorem not_implied {x t} (h : Project.Implied conf x t) : False := by
  obtain ⟨l, h, _⟩ := h
  cases conf_some h

theorem import_cases {x pkg tree way t a} (h : project.text x = some (pkg, tree)) (hi : HasImport tree way t a) :
    t = c!"ns.m" := by
  have hi := imports_all hi
  rcases text_cases h with ⟨rfl, rfl, rfl⟩ | ⟨_, rfl⟩
  · rw [imports_b] at hi
    cases List.mem_singleton.mp hi
    rfl
  · rw [imports_e] at hi
    cases hi

theorem no_from {x pkg tree way name ns l} (h : project.text x = some (pkg, tree))
    (hi : Nested tree way (.importFrom name ns l)) : False := by
  have hi := froms_all hi
  rcases text_cases h with ⟨rfl, rfl, rfl⟩ | ⟨_, rfl⟩
  · rw [froms_b] at hi
    cases hi
  · rw [froms_e] at hi
    cases hi

def Bound : Place → Prop
  | .module x => x ∈ [c!"bad", c!"ns.m", c!"ns", c!"pkgutil"]
  | .text x pkg tree => project.text x = some (pkg, tree)

theorem package_ns {x p : Str} (h : Bound (.module x)) (hp : HasPackage x p) : x = c!"ns.m" ∧ p = c!"ns" := by
  have h : x ∈ [c!"bad", c!"ns.m", c!"ns", c!"pkgutil"] := h
  simp only [List.mem_cons, List.not_mem_nil, or_false] at h
  rcases h with rfl | rfl | rfl | rfl
  · exact absurd hp.dot (by decide)
  · exact ⟨rfl, hp.unique ⟨c!"m", rfl, by decide⟩⟩
  all_goals exact absurd hp.dot (by decide)

theorem bound {pl} (h : project.Reached conf mods [] pl) : Bound pl := by
  induction h with
  | asked h => simp [mods] at h; subst h; simp [Bound]
  | package _ h ih => rw [(package_ns ih h).2]; simp [Bound]
  | along _ h ih => rw [(along_ns h).2]; simp [Bound]
  | implied _ _ h ih => exact (not_implied h).elim
  | text _ h => exact h.1
  | script h => cases h
  | imports _ h ih => rw [import_cases ih h]; simp [Bound]
  | froms _ h ih => obtain ⟨_, _, h, _⟩ := h; exact (no_from ih h).elim
  | names _ h _ _ _ _ _ ih => obtain ⟨_, _, h, _⟩ := h; exact (no_from ih h).elim

theorem node_top {x n} (hx : '.' ∉ x) (hm : x ≠ c!"__main__") : project.NodeOf conf x n ↔ n = project.node x := by
  rw [of_top hx, own_plain (.inl (conf_none hm))]

theorem wanted {t nm} (h : project.Wanted conf mods [] t nm) : False := by
  obtain ⟨x, pkg, tree, way, t', names, a, h1, ⟨_, _, h2, _⟩, _⟩ := h
  exact no_from (bound h1) h2

theorem clear : project.Clear conf mods [] where
  mentioned := by
    intro x h
    have : Bound (.module x) := by
      cases h with
      | asked h => exact bound (.asked h)
      | imports h1 h2 => exact bound (.imports h1 h2)
      | froms h1 h2 => exact bound (.froms h1 h2)
      | along h1 h => exact bound (.along h1 h)
      | implied h1 h => exact (not_implied h).elim
    have h : x ∈ [c!"bad", c!"ns.m", c!"ns", c!"pkgutil"] := this
    simp only [List.mem_cons, List.not_mem_nil, or_false] at h
    rcases h with rfl | rfl | rfl | rfl
    · exact ⟨[c!"bad"], by decide⟩
    · exact ⟨[c!"ns", c!"m"], by decide⟩
    · exact ⟨[c!"ns"], by decide⟩
    · exact ⟨[c!"pkgutil"], by decide⟩
  names := fun x pkg tree way name names level h1 h2 => (no_from (bound h1) h2).elim
  script := fun x h => by cases h
  noEmpty := rfl
  noSix := by simp [project]
  noSwig := by
    intro x h
    have h : x ∈ [c!"bad", c!"ns.m", c!"ns", c!"pkgutil"] := bound h
    simp only [List.mem_cons, List.not_mem_nil, or_false] at h
    rcases h with rfl | rfl | rfl | rfl <;> simp [Project.globals, project]
  noMypyc := by
    intro x file d _ h
    simp [project] at h
  tried := by
    intro x l h hc
    cases conf_some hc
  once := by
    intro y p q hy hp hq hb
    obtain ⟨rfl, rfl⟩ := package_ns (bound hy) hp
    rw [(node_top (by decide) (by decide)).mp hq] at hb
    rcases hb with hb | hb <;> cases hb
  passedOn := fun x pkg tree way t names u nm a h1 h2 h3 h4 h5 => (wanted ⟨_, _, _, _, _, _, _, h1, h2, h3, h4, h5⟩).elim
  static := fun t nm h => (wanted h).elim
  variables := fun t nm h => (wanted h).elim

end Extended

/-- The hypotheses of `C66_project` are met; the package has the path that it gets when it is imported, and `pkgutil`
comes with it. -/
example : ∃ N, ∀ n, N ≤ n →
    let r := runClient (((projectEnv Extended.project (fun _ => true) ()).withLoaders
        (projectLoaders Extended.project exOrd Extended.trees Extended.codes) 1).withTexts (projectTexts Extended.project exOrd)) n
      (configureThen [] [] (doAll [.addModule c!"bad"])) (initState () [] true)
    r.1 = .ok none ∧
    { ident := c!"bad", kind := .package false { name := c!"bad", kind := .invalid, filename := some c!"/bad/__init__.py" }
        [c!"/bad"] false none, filename := some c!"/bad" } ∈ r.2.nodes ∧
    { ident := c!"ns", kind := .package false { name := c!"ns", kind := .source, filename := some c!"/ns/__init__.py" }
        [c!"/ns", c!"/lib/ns"] false (some .pkgutil), filename := some c!"/ns", globalsWritten := [c!"__path__"],
        globalsRead := [c!"__import__"] } ∈ r.2.nodes ∧
    (c!"bad", c!"ns.m", DepInfo.mk false true false none) ∈ r.2.edges ∧
    (c!"ns", c!"pkgutil", defaultDep) ∈ r.2.edges ∧
    ∀ b d, (c!"ns", b, d) ∈ r.2.edges → b = c!"pkgutil" := by
  have hS := project_shows (I := fun _ : Unit => True) (there := fun _ => true) (away := ()) (ord := exOrd) (ord' := exOrd)
    Extended.compiled fun _ _ => rfl
  obtain ⟨N, h⟩ := C66_project Extended.project [] [] [] Extended.mods [] Extended.clear [c!"bad", c!"ns", c!"ns.m", c!"pkgutil"]
    (by
      intro x h
      simp only [Extended.project] at h
      repeat' split at h
      all_goals simp_all)
    (fun _ => True) (projectEnv Extended.project (fun _ => true) ())
    (projectLoaders Extended.project exOrd Extended.trees Extended.codes) (projectTexts Extended.project exOrd)
    hS exOrd_ok exOrd_ok 0 (fun _ _ _ => Iff.rfl) [.addModule c!"bad"]
    ⟨by simp [Extended.mods], by simp, by simp, by simp [ScriptsOnce]⟩ () trivial true
  refine ⟨N, fun n hn => ?_⟩
  obtain ⟨h1, _, _, h2, h3, _⟩ := h n hn
  have nb : Extended.project.NodeOf Extended.conf c!"bad" (Extended.project.node c!"bad") :=
    (Extended.node_top (by decide) (by decide)).mpr rfl
  have nn : Extended.project.NodeOf Extended.conf c!"ns" (Extended.project.node c!"ns") :=
    (Extended.node_top (by decide) (by decide)).mpr rfl
  have hr : Extended.project.Reached Extended.conf Extended.mods [] (.module c!"bad") := .asked (by decide)
  have hf : Extended.project.Reached Extended.conf Extended.mods [] (.text c!"bad" true Extended.treeB) := .text hr ⟨rfl, nb⟩
  have hi : HasImport Extended.treeB [.plain] c!"ns.m" none := ⟨_, .plain (.head _) (.here _), .head _⟩
  have hn := Project.Reached.package (Project.Reached.imports hf hi) (p := c!"ns") ⟨c!"m", rfl, by decide⟩
  refine ⟨h1, (h2 _).mpr (.inl ⟨_, .inl hr, nb⟩), (h2 _).mpr (.inl ⟨_, .inl hn, nn⟩),
    (h3 _ _ _).mpr (.imports hf hi ⟨by decide, by decide, rfl, rfl⟩),
    (h3 _ _ _).mpr (.along hn (.inr ⟨.pkgutil, rfl, nn, rfl⟩)), ?_⟩
  intro b d he
  cases (h3 _ _ _).mp he with
  | imports h hi =>
    have := imports_all hi
    rcases Extended.text_cases (Extended.bound h) with ⟨h, _⟩ | ⟨_, rfl⟩
    · cases h
    · rw [Extended.imports_e] at this; cases this
  | froms h hi | names h hi | passedOn h hi => obtain ⟨_, _, hi, _⟩ := hi; exact (Extended.no_from (Extended.bound h) hi).elim
  | outside h hi => obtain ⟨_, _, hi, _⟩ := hi; exact (Extended.no_from (Extended.bound h) hi).elim
  | package h hp => exact absurd (Extended.package_ns (Extended.bound h) hp).1 (by decide)
  | along _ h => exact (Extended.along_ns h).2
  | implied _ _ h => exact (Extended.not_implied h).elim

end Verif.Props
