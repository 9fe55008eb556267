import Verif.Props.ProjectExample
/-!
# C66: an example with compiled code

A frozen module imports a module that cannot be compiled, and in a function a submodule of a package of
which there is only the bytecode.
-/
namespace Verif.Props
open Verif Spec Proj

namespace Frozen

/-- `import a`, and in a function `from b import c` -/
def treeF : Ast := .other [.import_ [(c!"a", none)], .funcDef [.importFrom (some c!"b") [(c!"c", none)] 0]]
/-- `import b`, in a module that is not valid -/
def treeA : Ast := .other [.import_ [(c!"b", none)]]
def treeB : Ast := .other []
def codeB : Code := .mk 0 [] [] .nil

def project : Project where
  item x :=
    if x = c!"fz" then some (.compiled none SampleCode.root treeF [c!"a", c!"f", c!"K", c!"g"] [])
    else if x = c!"a" then some (.invalid c!"/a.py" (some treeA))
    else if x = c!"b" then some (.compiledPackage (some c!"/b/__init__.pyc") codeB treeB [] [] [c!"/b"] false)
    else if x = c!"bad" then some (.invalid c!"/bad.py" none)
    else none
  script := fun _ => none
  parent := fun _ => c!"/b"
  resolve := fun p => p
  dist := fun _ => none

noncomputable abbrev conf : Str → Option Implies := configured [] ([] ++ [])
def mods : List Str := [c!"fz", c!"bad"]
def trees (_ _ : Str) : Ast := treeA

theorem froms_f : allFroms treeF = [(some c!"b", [(c!"c", none)], 0)] := by simp [allFroms, treeF, occurrences]
theorem imports_f : allImports treeF = [(c!"a", none)] := by simp [allImports, treeF, occurrences]
theorem froms_a : allFroms treeA = [] := by simp [allFroms, treeA, occurrences]
theorem imports_a : allImports treeA = [(c!"b", none)] := by simp [allImports, treeA, occurrences]
theorem froms_b : allFroms treeB = [] := by simp [allFroms, treeB, occurrences]
theorem imports_b : allImports treeB = [] := by simp [allImports, treeB, occurrences]

theorem at_root : ImportAt 1 SampleCode.root 2 c!"a" 0 none :=
  ⟨[], _, [], _, [], 0, _, rfl, rfl, by simp [ExtArgs], by simp [ExtArgs], by simp, by simp, .inr ⟨0, rfl, rfl⟩,
    ⟨1, rfl, rfl⟩, rfl⟩
theorem at_f : ImportAt 1 SampleCode.f 2 c!"b" 0 (some [c!"c"]) :=
  ⟨[], _, [], _, [], 0, _, rfl, rfl, by simp [ExtArgs], by simp [ExtArgs], by simp, by simp, .inl rfl, ⟨0, rfl, rfl⟩, rfl⟩

theorem f_in : InFunction true SampleCode.root SampleCode.f := ⟨_, SampleCode.f_function, self_mem_codes _⟩

theorem nested_import {way ns} (h : Nested treeF way (.import_ ns)) : ns = [(c!"a", none)] ∧ way = [.plain] := by
  unfold treeF at h
  cases h with
  | plain h1 h2 =>
    simp only [List.mem_cons, List.not_mem_nil, or_false] at h1
    rcases h1 with rfl | rfl
    · cases h2
      exact ⟨rfl, rfl⟩
    · cases h2 with
      | inDef h3 h4 => cases List.mem_singleton.mp h3; cases h4

theorem nested_from {way name ns l} (h : Nested treeF way (.importFrom name ns l)) :
    name = some c!"b" ∧ ns = [(c!"c", none)] ∧ l = 0 ∧ way = [.plain, .inDef] := by
  unfold treeF at h
  cases h with
  | plain h1 h2 =>
    simp only [List.mem_cons, List.not_mem_nil, or_false] at h1
    rcases h1 with rfl | rfl
    · cases h2
    · cases h2 with
      | inDef h3 h4 =>
        cases List.mem_singleton.mp h3
        cases h4
        exact ⟨rfl, rfl, rfl, rfl⟩

theorem code_f : CodeOf true SampleCode.root treeF where
  nodup := SampleCode.nodup
  compiled := SampleCode.compiled
  fromTree := by
    intro c hc i m l names h
    have hi := import_number h
    rw [SampleCode.codes_root] at hc
    simp only [List.mem_cons, List.not_mem_nil, or_false] at hc
    rcases hc with rfl | rfl | rfl
    · have : importInstrs SampleCode.root = [2] := by decide +kernel
      rw [this] at hi
      cases List.mem_singleton.mp hi
      obtain ⟨rfl, rfl, rfl⟩ := import_unique h at_root
      exact ⟨[.plain], by simp [root_not_made], by decide, by decide, rfl, _, .plain (.head _) (.here _), .head _⟩
    · have : importInstrs SampleCode.f = [2] := by decide +kernel
      rw [this] at hi
      cases List.mem_singleton.mp hi
      obtain ⟨rfl, rfl, rfl⟩ := import_unique h at_f
      exact ⟨[.plain, .inDef], by simp [f_in], by decide, by decide, some c!"b", rfl,
        .plain (.tail _ (.head _)) (.inDef (.head _) (.here _))⟩
    · have : importInstrs SampleCode.k = [] := by decide +kernel
      rw [this] at hi
      cases hi
  imports := by
    intro way ns m a h hm
    obtain ⟨rfl, rfl⟩ := nested_import h
    cases List.mem_singleton.mp hm
    exact ⟨rfl, by decide, by decide, _, self_mem_codes _, 2, by simp [root_not_made], at_root⟩
  froms := by
    intro way name ns l h
    obtain ⟨rfl, rfl, rfl, rfl⟩ := nested_from h
    exact ⟨by decide, by decide, [c!"c"], rfl, SampleCode.f, by rw [SampleCode.codes_root]; simp, 2, by simp [f_in], at_f⟩

theorem nested_b {way x} (h : Nested treeB way x) : x = .other [] := by
  unfold treeB at h
  cases h with
  | here => rfl
  | plain h _ => cases h

theorem code_b : CodeOf true codeB treeB where
  nodup := by decide
  compiled := by
    intro c hc
    have : c = codeB := List.mem_singleton.mp hc
    subst this
    refine ⟨fun i a h => by simp [codeB, Code.instrs] at h, fun i a h => by simp [codeB, Code.instrs] at h, ?_, ?_, by simp [codeB, Code.instrs]⟩
    · intro i pre d h
      obtain ⟨a, ha⟩ := h.instr
      simp [codeB, Code.instrs] at ha
    · intro i pre d h
      obtain ⟨a, ha⟩ := h.instr
      simp [codeB, Code.instrs] at ha
  fromTree := by
    intro c hc i m l names h
    have : c = codeB := List.mem_singleton.mp hc
    subst this
    obtain ⟨a, ha⟩ := h.instr
    simp [codeB, Code.instrs] at ha
  imports := fun _ _ _ _ h => by cases nested_b h
  froms := fun _ _ _ _ h => by cases nested_b h

theorem compiled : Compiled project trees (fun _ => codeB) where
  source := by
    intro x file text tree g r h
    rcases h with h | ⟨path, data, h⟩ <;>
    · simp only [project] at h
      repeat' split at h
      all_goals simp at h
  package := by
    intro x file text tree g r path data h
    simp only [project] at h
    repeat' split at h
    all_goals simp at h
  other := by
    intro x it h
    simp only [project] at h
    repeat' split at h
    all_goals cases h
    · refine ⟨code_f, ?_⟩
      have h : (match extractBytecodeInfo true SampleCode.root with | .ok (_, w, r) => some (w, r) | _ => none) =
        some ([c!"a", c!"f", c!"K", c!"g"], []) := by decide +kernel
      revert h
      cases extractBytecodeInfo true SampleCode.root with
      | error e => exact fun h => by cases h
      | ok v => exact fun h => ⟨v.1, congrArg Except.ok (Prod.ext rfl (Option.some.inj h))⟩
    · rfl
    · exact ⟨rfl, code_b, [], by decide +kernel⟩
    · trivial

theorem text_cases {x pkg tree} (h : project.text x = some (pkg, tree)) :
    x = c!"fz" ∧ pkg = false ∧ tree = treeF ∨ x = c!"a" ∧ pkg = false ∧ tree = treeA ∨
      x = c!"b" ∧ pkg = true ∧ tree = treeB := by
  simp only [Project.text] at h
  split at h
  all_goals
    rename_i hi
    simp only [project] at hi
    repeat' split at hi
  all_goals simp_all

theorem conf_none {x} (h : x ≠ c!"__main__") : conf x = none := by
  unfold conf configured
  rw [if_neg (by simp [h])]
  rfl

theorem conf_some {x v} (h : conf x = some v) : v = .excluded := by
  by_cases hx : x = c!"__main__"
  · subst hx
    unfold conf configured at h
    rw [if_pos (by simp)] at h
    exact (Option.some.inj h).symm
  · rw [conf_none hx] at h
    cases h

theorem no_alias {x t} (h : project.Along conf x t) : False := by
  rcases alias_conf (along_alias (fun _ => rfl) h) with h | h <;> cases conf_some h
theorem not_implied {x t} (h : Project.Implied conf x t) : False := by
  obtain ⟨l, h, _⟩ := h
  cases conf_some h

theorem import_cases {x pkg tree way t a} (h : project.text x = some (pkg, tree)) (hi : HasImport tree way t a) :
    a = none ∧ (x = c!"fz" ∧ t = c!"a" ∨ x = c!"a" ∧ t = c!"b") := by
  have hi := imports_all hi
  rcases text_cases h with ⟨rfl, rfl, rfl⟩ | ⟨rfl, rfl, rfl⟩ | ⟨rfl, rfl, rfl⟩
  · rw [imports_f] at hi
    cases List.mem_singleton.mp hi
    exact ⟨rfl, .inl ⟨rfl, rfl⟩⟩
  · rw [imports_a] at hi
    cases List.mem_singleton.mp hi
    exact ⟨rfl, .inr ⟨rfl, rfl⟩⟩
  · rw [imports_b] at hi
    cases hi

theorem from_cases {x pkg tree way name ns l} (h : project.text x = some (pkg, tree))
    (hi : Nested tree way (.importFrom name ns l)) :
    x = c!"fz" ∧ name = some c!"b" ∧ ns = [(c!"c", none)] ∧ l = 0 := by
  have hi := froms_all hi
  rcases text_cases h with ⟨rfl, rfl, rfl⟩ | ⟨rfl, rfl, rfl⟩ | ⟨rfl, rfl, rfl⟩
  · rw [froms_f] at hi
    cases List.mem_singleton.mp hi
    exact ⟨rfl, rfl, rfl, rfl⟩
  · rw [froms_a] at hi
    cases hi
  · rw [froms_b] at hi
    cases hi

theorem has_from {x pkg tree way t ns} (h : project.text x = some (pkg, tree)) (hi : HasFrom x pkg tree way t ns) :
    x = c!"fz" ∧ t = c!"b" ∧ ns = [(c!"c", none)] := by
  obtain ⟨name, level, h1, h2⟩ := hi
  obtain ⟨rfl, rfl, rfl, rfl⟩ := from_cases h h1
  cases h2 with
  | absolute => exact ⟨rfl, rfl, rfl⟩
  | relative _ _ h => cases h

theorem source_self {t u} (h : project.Source conf t u) : u = t := by
  rcases h with ⟨h, _⟩ | h
  · exact h
  · exact (no_alias (.inl ⟨_, h, .inl rfl⟩)).elim

def Bound : Place → Prop
  | .module x => x ∈ [c!"fz", c!"bad", c!"a", c!"b", c!"b.c"]
  | .text x pkg tree => project.text x = some (pkg, tree)

theorem package_b {x p : Str} (h : Bound (.module x)) (hp : HasPackage x p) : x = c!"b.c" ∧ p = c!"b" := by
  have h : x ∈ [c!"fz", c!"bad", c!"a", c!"b", c!"b.c"] := h
  simp only [List.mem_cons, List.not_mem_nil, or_false] at h
  rcases h with rfl | rfl | rfl | rfl | rfl
  iterate 4 exact absurd hp.dot (by decide)
  exact ⟨rfl, hp.unique ⟨c!"c", rfl, by decide⟩⟩

theorem bound {pl} (h : project.Reached conf mods [] pl) : Bound pl := by
  induction h with
  | asked h => simp [mods] at h; rcases h with rfl | rfl <;> simp [Bound]
  | package _ h ih => rw [(package_b ih h).2]; simp [Bound]
  | along _ h ih => exact (no_alias h).elim
  | implied _ _ h ih => exact (not_implied h).elim
  | text _ h => exact h.1
  | script h => cases h
  | imports _ h ih =>
    rcases (import_cases ih h).2 with ⟨_, rfl⟩ | ⟨_, rfl⟩ <;> simp [Bound]
  | froms _ h ih => rw [(has_from ih h).2.1]; simp [Bound]
  | names _ h hs _ hn _ _ ih =>
    obtain ⟨_, rfl, rfl⟩ := has_from ih h
    cases List.mem_singleton.mp hn
    rw [source_self hs]
    simp [Bound]

theorem node_b {n} : project.NodeOf conf c!"b" n ↔ n = project.node c!"b" := by
  rw [of_top (by decide), own_plain (.inl (conf_none (by decide)))]

theorem not_defined {nm} (h : project.Defines c!"b" nm) : False := by
  have ht : project.text c!"b" = some (true, treeB) := rfl
  cases h with
  | own h => cases h
  | byName h1 h2 => exact absurd (has_from h1 h2).1 (by decide)
  | byOutside h1 h2 =>
    obtain ⟨_, _, h2, _⟩ := h2
    exact absurd (from_cases h1 h2).1 (by decide)
  | byStar h1 h2 => exact absurd (has_from h1 h2).1 (by decide)

theorem sub_c : project.Sub conf c!"b" c!"c" := .inr (.inr (by simp [Project.globals, project]))

theorem wanted {t nm} (h : project.Wanted conf mods [] t nm) : t = c!"b" ∧ nm = c!"c" := by
  obtain ⟨x, pkg, tree, way, t', names, a, h1, h2, h3, h4, _⟩ := h
  obtain ⟨_, rfl, rfl⟩ := has_from (bound h1) h2
  cases List.mem_singleton.mp h4
  exact ⟨source_self h3, rfl⟩

theorem clear : project.Clear conf mods [] where
  mentioned := by
    intro x h
    have : Bound (.module x) := by
      cases h with
      | asked h => exact bound (.asked h)
      | imports h1 h2 => exact bound (.imports h1 h2)
      | froms h1 h2 => exact bound (.froms h1 h2)
      | along h1 h => exact (no_alias h).elim
      | implied h1 h => exact (not_implied h).elim
    have h : x ∈ [c!"fz", c!"bad", c!"a", c!"b", c!"b.c"] := this
    simp only [List.mem_cons, List.not_mem_nil, or_false] at h
    rcases h with rfl | rfl | rfl | rfl | rfl
    · exact ⟨[c!"fz"], by decide⟩
    · exact ⟨[c!"bad"], by decide⟩
    · exact ⟨[c!"a"], by decide⟩
    · exact ⟨[c!"b"], by decide⟩
    · exact ⟨[c!"b", c!"c"], by decide⟩
  names := by
    intro x pkg tree way name names level h1 h2
    obtain ⟨_, _, rfl, _⟩ := from_cases (bound h1) h2
    refine ⟨by decide, ?_, ?_⟩ <;> simp
  script := by
    intro x h
    cases h
  noEmpty := rfl
  noSix := by simp [project]
  noSwig := by
    intro x h
    have h : x ∈ [c!"fz", c!"bad", c!"a", c!"b", c!"b.c"] := bound h
    simp only [List.mem_cons, List.not_mem_nil, or_false] at h
    rcases h with rfl | rfl | rfl | rfl | rfl <;> simp [Project.globals, project]
  noMypyc := by
    intro x file d _ h
    simp [project] at h
  tried := by
    intro x l h hc
    cases conf_some hc
  once := by
    intro y p q hy hp hq hb
    obtain ⟨rfl, rfl⟩ := package_b (bound hy) hp
    rw [node_b.mp hq] at hb
    rcases hb with hb | hb <;> cases hb
  passedOn := by
    intro x pkg tree way t names u nm a h1 h2 h3 h4 h5 h6
    rw [(wanted ⟨_, _, _, _, _, _, _, h1, h2, h3, h4, h5⟩).1] at h6
    exact (not_defined h6).elim
  static := by
    intro t nm h _ hd
    rw [(wanted h).1] at hd
    exact (not_defined hd).elim
  variables := by
    intro t nm h _ hs
    obtain ⟨rfl, rfl⟩ := wanted h
    exact absurd sub_c hs

end Frozen

/-- The hypotheses of `C66_project` are met; what the graph has for the frozen module, the module that is not
valid and the package. -/
example : ∃ N, ∀ n, N ≤ n →
    let r := runClient (((projectEnv Frozen.project (fun _ => true) ()).withLoaders
        (projectLoaders Frozen.project exOrd Frozen.trees fun _ => Frozen.codeB) 1).withTexts (projectTexts Frozen.project exOrd)) n
      (configureThen [] [] (doAll [.addModule c!"fz", .addModule c!"bad"])) (initState () [] true)
    r.1 = .ok none ∧
    { ident := c!"fz", kind := .module .frozen, globalsWritten := [c!"a", c!"f", c!"K", c!"g"] } ∈ r.2.nodes ∧
    { ident := c!"a", kind := .module .invalid, filename := some c!"/a.py" } ∈ r.2.nodes ∧
    { ident := c!"b", kind := .package false { name := c!"b", kind := .bytecode, filename := some c!"/b/__init__.pyc" }
        [c!"/b"] false none, filename := some c!"/b" } ∈ r.2.nodes ∧
    { ident := c!"b.c", kind := .missing } ∈ r.2.nodes ∧
    (c!"fz", c!"a", DepInfo.mk false true false none) ∈ r.2.edges ∧
    (c!"fz", c!"b.c", DepInfo.mk true false true none) ∈ r.2.edges ∧
    (c!"a", c!"b", DepInfo.mk false true false none) ∈ r.2.edges ∧
    ∀ b d, (c!"bad", b, d) ∉ r.2.edges := by
  have hS := project_shows (I := fun _ : Unit => True) (there := fun _ => true) (away := ()) (ord := exOrd) (ord' := exOrd)
    Frozen.compiled fun _ _ => rfl
  obtain ⟨N, h⟩ := C66_project Frozen.project [] [] [] Frozen.mods [] Frozen.clear [c!"fz", c!"a", c!"b", c!"bad"]
    (by
      intro x h
      simp only [Frozen.project] at h
      repeat' split at h
      all_goals simp_all)
    (fun _ => True) (projectEnv Frozen.project (fun _ => true) ())
    (projectLoaders Frozen.project exOrd Frozen.trees fun _ => Frozen.codeB) (projectTexts Frozen.project exOrd)
    hS exOrd_ok exOrd_ok 0 (fun _ _ _ => Iff.rfl) [.addModule c!"fz", .addModule c!"bad"]
    ⟨by simp [Frozen.mods], by simp, by simp, by simp [ScriptsOnce]⟩ () trivial true
  refine ⟨N, fun n hn => ?_⟩
  obtain ⟨h1, _, _, h2, h3, _⟩ := h n hn
  have nf : Frozen.project.NodeOf Frozen.conf c!"fz" (Frozen.project.node c!"fz") := by
    rw [of_top (by decide), own_plain (.inl (Frozen.conf_none (by decide)))]
  have na : Frozen.project.NodeOf Frozen.conf c!"a" (Frozen.project.node c!"a") := by
    rw [of_top (by decide), own_plain (.inl (Frozen.conf_none (by decide)))]
  have nb := Frozen.node_b.mpr rfl
  have nbc : Frozen.project.NodeOf Frozen.conf c!"b.c" { ident := c!"b.c", kind := .missing } := by
    rw [of_sub (x := c!"b.c") (p := c!"b") ⟨c!"c", rfl, by decide⟩ nb rfl rfl, own_plain (.inl (Frozen.conf_none (by decide))),
      node_none (by decide +kernel)]
  have hr : Frozen.project.Reached Frozen.conf Frozen.mods [] (.module c!"fz") := .asked (by decide)
  have hf : Frozen.project.Reached Frozen.conf Frozen.mods [] (.text c!"fz" false Frozen.treeF) := .text hr ⟨rfl, nf⟩
  have hi : HasImport Frozen.treeF [.plain] c!"a" none := ⟨_, .plain (.head _) (.here _), .head _⟩
  have ha := Project.Reached.imports hf hi
  have hat : Frozen.project.Reached Frozen.conf Frozen.mods [] (.text c!"a" false Frozen.treeA) := .text ha ⟨rfl, na⟩
  have hib : HasImport Frozen.treeA [.plain] c!"b" none := ⟨_, .plain (.head _) (.here _), .head _⟩
  have hfr : HasFrom c!"fz" false Frozen.treeF [.plain, .inDef] c!"b" [(c!"c", none)] :=
    ⟨_, _, .plain (.tail _ (.head _)) (.inDef (.head _) (.here _)), .absolute rfl⟩
  have hs : Frozen.project.Source Frozen.conf c!"b" c!"b" :=
    .inl ⟨rfl, fun n v h => by rw [Frozen.node_b.mp h]; exact node_not_alias⟩
  have hp : Frozen.project.Pkg Frozen.conf c!"b" := ⟨_, nb, .inl rfl⟩
  refine ⟨h1, (h2 _).mpr (.inl ⟨_, .inl hr, nf⟩), (h2 _).mpr (.inl ⟨_, .inl ha, na⟩),
    (h2 _).mpr (.inl ⟨_, .inl (.imports hat hib), nb⟩),
    (h2 _).mpr (.inl ⟨_, .inl (.names hf hfr hs hp (.head _) (by decide) Frozen.sub_c), nbc⟩),
    (h3 _ _ _).mpr (.imports hf hi ⟨by decide, by decide, rfl, rfl⟩),
    (h3 _ _ _).mpr (.names hf hfr hs hp (.head _) (by decide) Frozen.sub_c ⟨by decide, by decide, rfl, rfl⟩),
    (h3 _ _ _).mpr (.imports hat hib ⟨by decide, by decide, rfl, rfl⟩), ?_⟩
  intro b d he
  have no : ∀ {pkg tree}, Frozen.project.Reached Frozen.conf Frozen.mods [] (.text c!"bad" pkg tree) → False :=
    fun h => by cases Frozen.bound h
  cases (h3 _ _ _).mp he with
  | imports h | froms h | names h | outside h | passedOn h => exact no h
  | package h hp => exact absurd (Frozen.package_b (Frozen.bound h) hp).1 (by decide)
  | along _ h => exact Frozen.no_alias h
  | implied _ _ h => exact Frozen.not_implied h

end Verif.Props
