import Verif.Props.Project
/-!
# C66: an example

First a world for every project, then a project with a package, a relative import, a star import, a variable
that is imported, a namespace package, an extension module, a missing module, an implied module, an alias,
an excluded package and a script.
-/
namespace Verif.Props
open Verif Spec Proj

/-! ## A world for a project -/

/-- The specification of a module. -/
def projectSpec (x : Str) : Spec.Item → Verif.Spec
  | .source file .. => { name := x, loader := .inspect, origin := some file, searchLocations := none }
  | .package file _ _ _ _ path _ => { name := x, loader := .inspect, origin := some file, searchLocations := some path }
  | .namespace path => { name := x, loader := .namespace, origin := none, searchLocations := some path }
  | .extension file => { name := x, loader := .extension, origin := some file, searchLocations := none }
  | .builtin => { name := x, loader := .builtin, origin := some c!"built-in", searchLocations := none }
  | .compiled file .. =>
    { name := x, loader := if file = none then .frozen else .inspect, origin := file, searchLocations := none }
  | .compiledPackage file _ _ _ _ path _ =>
    { name := x, loader := if file = none then .frozen else .inspect, origin := file, searchLocations := some path }
  | .invalid file _ => { name := x, loader := .inspect, origin := some file, searchLocations := none }
  | .invalidPackage file _ path _ => { name := x, loader := .inspect, origin := some file, searchLocations := some path }

variable {W : Type}

/-- The modules are found in worlds with `there`.  Hooks raise, and replacing modules is not expected. -/
def projectEnv (P : Project) (there : W → Bool) (away : W) : Env W where
  findSpec := fun x w => (.ok (if there w then (P.item x).map (projectSpec x) else none), w)
  findSpecRel := fun _ _ w => (.error .runtimeError, w)
  inSysModules := fun _ _ => false
  popModule := fun _ w => (.error .keyError, w)
  setModule := fun _ _ _ => away
  setFake := fun _ _ _ => away
  delModule := fun _ w => (.error .keyError, w)
  isInspectLoader := fun _ _ => true
  isPackage := fun sp w => (.ok sp.searchLocations.isSome, w)
  nodeForSpec := fun _ w => (.error .runtimeError, w)
  loadScript := fun _ w => (.error .osError, w)
  parseSource := fun _ w => (.error .osError, w)
  distributionNamed := fun x w => (.ok (P.installed x), w)
  globPy := fun _ w => (.ok [], w)
  subdirs := fun _ w => (.ok [], w)
  isIdentifier := fun n => !n.isEmpty
  outOrder := fun _ l => l
  isFile := fun _ w => (.ok false, w)
  readBytes := fun p w => (.ok p, w)
  compileAst := fun _ w => (.error .osError, w)
  userPost := fun _ _ => .raise .runtimeError
  userMissing := fun _ _ _ => .raise .runtimeError

/-- `trees`: the parser; `codes`: the compiler. -/
def projectLoaders (P : Project) (ord : SetOrder) (trees : Str → Str → Ast) (codes : Str → Code) : Loaders W where
  findSpec := fun _ w => (.ok none, w)
  getSource := fun sp w => (match P.item sp.name with
    | some (.source _ text ..) | some (.package _ text ..) => .ok (some text)
    | some (.invalid _ none) => .error .syntaxError
    | some (.invalid file (some _)) | some (.invalidPackage file ..) => .ok (some file)
    | _ => .ok none, w)
  parse := fun text file w => (.ok (trees text file), w)
  getCode := fun sp w => (match P.item sp.name with
    | some (.compiled _ code ..) | some (.compiledPackage _ code ..) => .ok (some code)
    | some (.invalid ..) | some (.invalidPackage ..) => .error .syntaxError
    | _ => .ok (some (codes sp.name)), w)
  isPackage := fun sp w => (.ok (match P.item sp.name with
    | some (.package ..) | some (.compiledPackage ..) | some (.invalidPackage ..) => true
    | _ => false), w)
  distributionForFile := fun file w => (.ok (P.dist file), w)
  containsDatafiles := fun _ w => (.ok false, w)
  importPath := fun x w => (match P.item x with
    | some (.package _ _ _ _ _ path _) => .ok (some path)
    | _ => .error .importError, w)
  delModule := fun _ w => (.ok (), w)
  invalidate := fun w => (.ok (), w)
  parent := P.parent
  new := true
  order := ord

def projectTexts (P : Project) (ord : SetOrder) : Texts W where
  readFile := fun path w => (if P.script path = none then .error .osError else .ok path, w)
  decode := fun b w => (.ok b, w)
  parse := fun text path w => (match P.script path with
    | some tree => .ok tree
    | none => match P.snippet text with
      | some tree => .ok tree
      | none => .error .syntaxError, w)
  compile := fun _ _ w => (.ok (), w)
  resolve := fun path w => (.ok (P.resolve path), w)
  order := ord

/-- Parser and compiler give what the project says. -/
structure Compiled (P : Project) (trees : Str → Str → Ast) (codes : Str → Code) : Prop where
  source : ∀ x file text tree g r,
    (P.item x = some (.source file text tree g r) ∨
      ∃ path data, P.item x = some (.package file text tree g r path data)) →
    trees text file = tree ∧ ∃ imports, extractBytecodeInfo true (codes x) = .ok (imports, g, r)
  package : ∀ x file text tree g r path data, P.item x = some (.package file text tree g r path data) →
    (P.extended x = none → c!"__import__" ∉ r) ∧ data = false
  extended : ∀ x file text tree g r path data ns, P.item x = some (.package file text tree g r path data) →
    P.extended x = some ns → c!"__import__" ∈ r ∧ Setup.nsModule ns <:+: text ∧
      (ns = .pkgutil → ¬ Setup.nsModule .pkgResources <:+: text) := by
    intro _ _ _ _ _ _ _ _ _ _ h
    cases h
  other : ∀ x it, P.item x = some it →
    match it with
    | .compiled _ code tree g r =>
      CodeOf true code tree ∧ ∃ imports, extractBytecodeInfo true code = .ok (imports, g, r)
    | .compiledPackage _ code tree g r _ data =>
      data = false ∧ CodeOf true code tree ∧ ∃ imports, extractBytecodeInfo true code = .ok (imports, g, r)
    | .invalid file (some tree) => trees file file = tree
    | .invalidPackage file tree _ data => data = false ∧ tree = some (trees file file)
    | _ => True
  noScript : P.script c!"-source-code-" = none := by rfl

section
variable {P : Project} {ord : SetOrder} {trees : Str → Str → Ast} {codes : Str → Code}

theorem project_shows {ord' : SetOrder} {I : W → Prop} {there : W → Bool} {away : W} (h : Compiled P trees codes)
    (hI : ∀ w, I w → there w = true) :
    P.Shows I (projectEnv P there away) (projectLoaders P ord trees codes) (projectTexts P ord') where
  found := by
    intro x it hi w hw
    refine ⟨hw, projectSpec x it, by simp [projectEnv, hi, hI w hw], ?_, ?_⟩ <;> cases it <;> simp [projectSpec]
    case compiled file _ _ _ _ => cases file <;> simp [Comes]
    case compiledPackage file _ _ _ _ _ _ => cases file <;> simp [Comes]
  absent := by
    intro x _ hi w hw
    exact ⟨hw, .inl (by simp [projectEnv, hi])⟩
  source := by
    intro spec file text tree g r _ hi
    obtain ⟨h1, imports, h2⟩ := h.source _ _ _ _ _ _ hi
    refine ⟨fun w hw => ⟨?_, hw⟩, fun w hw => ⟨?_, hw⟩, _, imports, fun w hw => ⟨?_, hw⟩, h2⟩
    · rcases hi with hi | ⟨path, data, hi⟩ <;> simp [projectLoaders, hi]
    · simp [projectLoaders, h1]
    · rcases hi with hi | ⟨path, data, hi⟩ <;> simp [projectLoaders, hi]
  compiled := by
    intro spec file code tree g r _ hi
    refine ⟨fun w hw => ⟨?_, hw⟩, fun w hw => ⟨?_, hw⟩⟩ <;>
    rcases hi with hi | ⟨path, data, hi⟩ <;> simp [projectLoaders, hi]
  code := by
    rintro x file code tree g r (hi | ⟨path, data, hi⟩)
    · exact h.other _ _ hi
    · exact (h.other _ _ hi).2
  invalid := by
    intro spec file tree _ hi
    cases tree with
    | none => exact .inl ⟨rfl, fun w hw => ⟨by simp [projectLoaders, hi], hw⟩⟩
    | some t =>
      refine .inr ⟨⟨file, fun w hw => ⟨by simp [projectLoaders, hi], hw⟩, fun w hw => ⟨by simp [projectLoaders, hi], hw⟩,
        fun w hw => ⟨?_, hw⟩⟩, fun w hw => ⟨by simp [projectLoaders, hi], hw⟩⟩
      exact congrArg Except.ok (h.other _ _ hi)
  invalidPackage := by
    intro spec file tree path data _ hi
    obtain ⟨-, h1⟩ := h.other _ _ hi
    subst h1
    exact ⟨file, fun w hw => ⟨by simp [projectLoaders, hi], hw⟩, fun w hw => ⟨by simp [projectLoaders, hi], hw⟩,
      fun w hw => ⟨rfl, hw⟩⟩
  isPackage := by
    intro spec it _ hi _ w hw
    refine ⟨?_, hw⟩
    cases it <;> simp [projectLoaders, hi]
  extended := by
    intro x file text tree g r path data hi
    cases he : P.extended x with
    | none => exact .inl ((h.package _ _ _ _ _ _ _ _ hi).1 he)
    | some ns =>
      obtain ⟨h1, h2, h3⟩ := h.extended _ _ _ _ _ _ _ _ _ hi he
      exact ⟨h1, h2, h3, .inl fun w hw => ⟨by simp [projectLoaders, hi], hw⟩⟩
  distribution := fun _ _ _ _ _ _ hw => ⟨rfl, hw⟩
  datafiles := by
    intro x file text tree g r path data hi w hw
    rw [(h.package _ _ _ _ _ _ _ _ hi).2]
    exact ⟨rfl, hw⟩
  invalidDatafiles := by
    intro x file tree path data hi w hw
    rw [(h.other _ _ hi).1]
    exact ⟨rfl, hw⟩
  compiledDatafiles := by
    intro x file code tree g r path data hi
    have := (h.other _ _ hi).1
    subst this
    cases file with
    | none => rfl
    | some f => exact fun w hw => ⟨rfl, hw⟩
  parent := rfl
  script := by
    intro path tree hs
    exact ⟨path, path, fun w hw => ⟨by simp [projectTexts, hs], hw⟩, fun _ hw => ⟨rfl, hw⟩,
      fun w hw => ⟨by simp [projectTexts, hs], hw⟩, fun _ hw => ⟨rfl, hw⟩, fun _ hw => ⟨rfl, hw⟩⟩
  installed := fun name d hd w hw => ⟨by simp [projectEnv, hd], hw⟩
  snippet := fun source tree hs w hw => ⟨by simp [projectTexts, hs, h.noScript], hw⟩

end

/-! ## The project -/

/-- `import` and `from` statements of a tree. -/
def allImports (tree : Ast) : List (Str × Option Str) :=
  (occurrences tree).flatMap fun o => match o.2 with | .import_ names => names | _ => []
def allFroms (tree : Ast) : List (Option Str × List (Str × Option Str) × Nat) :=
  (occurrences tree).flatMap fun o => match o.2 with | .importFrom m names l => [(m, names, l)] | _ => []

theorem imports_all {tree way t a} (h : HasImport tree way t a) : (t, a) ∈ allImports tree := by
  obtain ⟨names, h1, h2⟩ := h
  exact List.mem_flatMap.mpr ⟨_, (C22_occurrences_are_nested tree way _).mpr h1, h2⟩

theorem froms_all {tree way m names l} (h : Nested tree way (.importFrom m names l)) : (m, names, l) ∈ allFroms tree :=
  List.mem_flatMap.mpr ⟨_, (C22_occurrences_are_nested tree way _).mpr h, List.mem_singleton.mpr rfl⟩

namespace Shop

/-- `from . import b`, `from d import *` -/
def treeA : Ast := .other [.importFrom none [(c!"b", none)] 1, .importFrom (some c!"d") [(c!"*", none)] 0]
/-- `import sys`, and in a function `from a import V` -/
def treeB : Ast := .other [.import_ [(c!"sys", none)], .funcDef [.importFrom (some c!"a") [(c!"V", none)] 0]]
def treeD : Ast := .other []
/-- `if ...: import n.x as y`, `import gone.sub, c, e.x`, and `from ..far import q`, which points outside -/
def treeS : Ast := .other [.if_ [.import_ [(c!"n.x", some c!"y")]],
  .import_ [(c!"gone.sub", none), (c!"c", none), (c!"e.x", none)], .importFrom (some c!"far") [(c!"q", none)] 2]

/-- `import d`, a piece of source code -/
def treeI : Ast := .other [.import_ [(c!"d", none)]]
/-- A distribution. -/
def shop : Dist := { identifier := c!"/shop.dist-info", name := c!"Shop", importNames := [c!"a", c!"a.b"] }

def project : Project where
  item x :=
    if x = c!"a" then some (.package c!"/a/__init__.py" c!"A" treeA [c!"V"] [] [c!"/a"] false)
    else if x = c!"a.b" then some (.source c!"/a/b.py" c!"B" treeB [] [])
    else if x = c!"d" then some (.source c!"/d.py" c!"D" treeD [c!"W"] [])
    else if x = c!"e" then some (.namespace [c!"/e"])
    else if x = c!"e.x" then some (.extension c!"/e/x.so")
    else if x = c!"n" then some (.namespace [c!"/n"])
    else if x = c!"n.x" then some (.extension c!"/n/x.so")
    else if x = c!"sys" then some .builtin
    else none
  script path := if path = c!"/s" then some treeS else none
  parent := fun _ => c!"/a"
  resolve := fun p => p
  dist := fun _ => none
  installed x := if x = c!"Shop" then some shop else none
  snippet source := if source = c!"import d" then some treeI else none

def table : List (Str × Implies) := [(c!"sys", .refs [c!"t"])]
/-- `c` is an alias of `d`. -/
def implies : List (Str × Implies) := [(c!"c", .alias c!"d")]
def excludes : List Str := [c!"e"]
noncomputable abbrev conf : Str → Option Implies := configured excludes (table ++ implies)
def mods : List Str := [c!"d", c!"a", c!"a.b"]
def scripts : List Str := [c!"/s"]
def ops : List ApiOp := [.addModule c!"d", .addScript c!"/s", .addModule c!"a", .addModule c!"a.b"]
def trees (_ file : Str) : Ast :=
  if file = c!"/a/__init__.py" then treeA else if file = c!"/d.py" then treeD else treeB
def codes (x : Str) : Code :=
  if x = c!"a" then .mk 0 [c!"V"] [⟨.storeName, some 0⟩] .nil
  else if x = c!"d" then .mk 0 [c!"W"] [⟨.storeName, some 0⟩] .nil else .mk 0 [] [] .nil

theorem compiled : Compiled project trees codes where
  source := by
    intro x file text tree g r h
    rcases h with h | ⟨path, data, h⟩
    · simp only [project] at h
      repeat' split at h
      all_goals simp at h
      all_goals
        rename_i hx
        obtain ⟨rfl, rfl, rfl, rfl, rfl⟩ := h
        subst hx
        exact ⟨rfl, [], by decide +kernel⟩
    · simp only [project] at h
      repeat' split at h
      all_goals simp at h
      rename_i hx
      obtain ⟨rfl, rfl, rfl, rfl, rfl, _⟩ := h
      subst hx
      exact ⟨rfl, [], by decide +kernel⟩
  package := by
    intro x file text tree g r path data h
    simp only [project] at h
    repeat' split at h
    all_goals simp at h
    obtain ⟨rfl, rfl, rfl, rfl, rfl, rfl, rfl⟩ := h
    exact ⟨by simp, rfl⟩
  other := by
    intro x it h
    simp only [project] at h
    repeat' split at h
    all_goals first | cases h; trivial | cases h

theorem text_cases {x pkg tree} (h : project.text x = some (pkg, tree)) :
    x = c!"a" ∧ pkg = true ∧ tree = treeA ∨ x = c!"a.b" ∧ pkg = false ∧ tree = treeB ∨
      x = c!"d" ∧ pkg = false ∧ tree = treeD := by
  by_cases h1 : x = c!"a"
  · subst h1
    have : project.text c!"a" = some (true, treeA) := rfl
    rw [this] at h
    cases h
    exact .inl ⟨rfl, rfl, rfl⟩
  by_cases h2 : x = c!"a.b"
  · subst h2
    have : project.text c!"a.b" = some (false, treeB) := rfl
    rw [this] at h
    cases h
    exact .inr (.inl ⟨rfl, rfl, rfl⟩)
  by_cases h3 : x = c!"d"
  · subst h3
    have : project.text c!"d" = some (false, treeD) := rfl
    rw [this] at h
    cases h
    exact .inr (.inr ⟨rfl, rfl, rfl⟩)
  exfalso
  simp only [Project.text, project, if_neg h1, if_neg h2, if_neg h3] at h
  split at h
  all_goals first
    | (cases h; done)
    | (rename_i hi
       repeat' split at hi
       all_goals cases hi)

theorem globals_cases {x nm} (h : nm ∈ project.globals x) : x = c!"a" ∧ nm = c!"V" ∨ x = c!"d" ∧ nm = c!"W" := by
  simp only [Project.globals] at h
  split at h
  all_goals
    rename_i hi
    simp only [project] at hi
    repeat' split at hi
  all_goals first | (simp at h; done) | (simp at hi; done) | (simp at hi; obtain ⟨_, _, _, rfl, _⟩ := hi; simp_all)

theorem froms_a : allFroms treeA = [(none, [(c!"b", none)], 1), (some c!"d", [(c!"*", none)], 0)] := by
  simp [allFroms, treeA, occurrences]
theorem froms_b : allFroms treeB = [(some c!"a", [(c!"V", none)], 0)] := by
  simp [allFroms, treeB, occurrences]
theorem froms_d : allFroms treeD = [] := by
  simp [allFroms, treeD, occurrences]
theorem froms_s : allFroms treeS = [(some c!"far", [(c!"q", none)], 2)] := by
  simp [allFroms, treeS, occurrences]
theorem imports_a : allImports treeA = [] := by
  simp [allImports, treeA, occurrences]
theorem imports_b : allImports treeB = [(c!"sys", none)] := by
  simp [allImports, treeB, occurrences]
theorem imports_d : allImports treeD = [] := by
  simp [allImports, treeD, occurrences]
theorem imports_s : allImports treeS =
    [(c!"n.x", some c!"y"), (c!"gone.sub", none), (c!"c", none), (c!"e.x", none)] := by
  simp [allImports, treeS, occurrences]

theorem from_a {way t names} (h : HasFrom c!"a" true treeA way t names) :
    t = c!"a" ∧ names = [(c!"b", none)] ∨ t = c!"d" ∧ names = [(c!"*", none)] := by
  obtain ⟨name, level, h1, h2⟩ := h
  have h3 := froms_all h1
  rw [froms_a] at h3
  simp only [List.mem_cons, List.not_mem_nil, or_false, Prod.mk.injEq] at h3
  rcases h3 with ⟨rfl, rfl, rfl⟩ | ⟨rfl, rfl, rfl⟩
  · refine .inl ⟨?_, rfl⟩
    cases h2 with
    | absolute h => cases h
    | relative kept rest _ h3 _ _ h4 =>
      have : rest = [] := List.length_eq_zero_iff.mp h4
      subst this
      simpa using h3.symm
  · refine .inr ⟨?_, rfl⟩
    cases h2 with
    | absolute => rfl
    | relative _ _ h => cases h

theorem from_b {x pkg way t names} (h : HasFrom x pkg treeB way t names) : t = c!"a" ∧ names = [(c!"V", none)] := by
  obtain ⟨name, level, h1, h2⟩ := h
  have h3 := froms_all h1
  rw [froms_b] at h3
  simp only [List.mem_singleton, Prod.mk.injEq] at h3
  obtain ⟨rfl, rfl, rfl⟩ := h3
  refine ⟨?_, rfl⟩
  cases h2 with
  | absolute => rfl
  | relative _ _ h => cases h

theorem from_d {x pkg way t names} (h : HasFrom x pkg treeD way t names) : False := by
  obtain ⟨name, level, h1, h2⟩ := h
  have := froms_all h1
  rw [froms_d] at this
  cases this

theorem from_s {way t names} (h : HasFrom c!"/s" false treeS way t names) : False := by
  obtain ⟨name, level, h1, h2⟩ := h
  have := froms_all h1
  rw [froms_s] at this
  cases List.mem_singleton.mp this
  cases h2 with
  | absolute h => cases h
  | relative kept rest _ h3 h4 h5 h6 =>
    have hk := List.length_pos_iff.mpr h5
    have := congrArg List.length (dotted_inj (ds := [c!"/s"]) h4 (by decide) (by simp [h5]) (by decide) h3.symm)
    simp only [Bool.false_eq_true, if_false] at h6
    simp only [List.length_append, List.length_singleton] at this
    omega

/-- What points outside. -/
theorem out_bound {x pkg tree way y ns} (h : x = c!"a" ∧ pkg = true ∧ tree = treeA ∨ x = c!"a.b" ∧ pkg = false ∧ tree = treeB ∨
    x = c!"d" ∧ pkg = false ∧ tree = treeD ∨ x = c!"/s" ∧ pkg = false ∧ tree = treeS)
    (ho : HasOutside x pkg tree way y ns) : x = c!"/s" ∧ y = c!"..far" ∧ ns = [(c!"q", none)] := by
  obtain ⟨name, level, h1, ⟨hl, comps, k1, k2, k3, k4⟩, rfl⟩ := ho
  have h3 := froms_all h1
  rcases h with ⟨rfl, rfl, rfl⟩ | ⟨rfl, rfl, rfl⟩ | ⟨rfl, rfl, rfl⟩ | ⟨rfl, rfl, rfl⟩
  · rw [froms_a] at h3
    simp only [List.mem_cons, List.not_mem_nil, or_false, Prod.mk.injEq] at h3
    rcases h3 with ⟨rfl, rfl, rfl⟩ | ⟨rfl, rfl, rfl⟩
    · exact absurd (List.length_eq_zero_iff.mp (by simpa using k4)) k1
    · cases hl
  · rw [froms_b] at h3
    cases List.mem_singleton.mp h3
    cases hl
  · rw [froms_d] at h3
    cases h3
  · rw [froms_s] at h3
    cases List.mem_singleton.mp h3
    exact ⟨rfl, rfl, rfl⟩

theorem has_out : HasOutside c!"/s" false treeS [.plain] c!"..far" [(c!"q", none)] :=
  ⟨some c!"far", 2, .plain (.tail _ (.tail _ (.head _))) (.here _),
    ⟨by decide, [c!"/s"], by decide, rfl, by decide, by decide⟩, rfl⟩

theorem import_a {way t a} (h : HasImport treeA way t a) : False := by
  have := imports_all h
  rw [imports_a] at this
  cases this
theorem import_b {way t a} (h : HasImport treeB way t a) : t = c!"sys" ∧ a = none := by
  have := imports_all h
  rw [imports_b] at this
  simpa using this
theorem import_d {way t a} (h : HasImport treeD way t a) : False := by
  have := imports_all h
  rw [imports_d] at this
  cases this
theorem import_s {way t a} (h : HasImport treeS way t a) :
    (t, a) ∈ [(c!"n.x", some c!"y"), (c!"gone.sub", none), (c!"c", none), (c!"e.x", none)] :=
  imports_s ▸ imports_all h

theorem conf_cases {x v} (h : conf x = some v) : v = .excluded ∧ (x = c!"__main__" ∨ x = c!"e") ∨
    v = .refs [c!"t"] ∧ x = c!"sys" ∨ v = .alias c!"d" ∧ x = c!"c" := by
  unfold conf configured at h
  split at h
  · rename_i hx
    simp [table, implies, excludes] at hx
    exact .inl ⟨(Option.some.inj h).symm, hx⟩
  · by_cases hs : c!"sys" = x
    · subst hs
      simp [table, implies] at h
      exact .inr (.inl ⟨h.symm, rfl⟩)
    · by_cases hc : c!"c" = x
      · subst hc
        simp [table, implies] at h
        exact .inr (.inr ⟨h.symm, rfl⟩)
      · simp [table, implies, hs, hc] at h

theorem conf_none {x} (h : x ≠ c!"__main__" ∧ x ≠ c!"e" ∧ x ≠ c!"sys" ∧ x ≠ c!"c") : conf x = none := by
  cases hc : conf x with
  | none => rfl
  | some v =>
    obtain ⟨h1, h2, h3, h4⟩ := h
    rcases conf_cases hc with ⟨_, h | h⟩ | ⟨_, h⟩ | ⟨_, h⟩ <;> contradiction

theorem conf_e : conf c!"e" = some .excluded := by
  unfold conf configured
  rw [if_pos (by simp [excludes])]

theorem conf_c : conf c!"c" = some (.alias c!"d") := by
  unfold conf configured
  rw [if_neg (by simp [excludes, table, implies])]
  decide +kernel

theorem implied_sys {x r} (h : Project.Implied conf x r) : x = c!"sys" ∧ r = c!"t" := by
  obtain ⟨l, h1, h2⟩ := h
  rcases conf_cases h1 with ⟨h, _⟩ | ⟨h, rfl⟩ | ⟨h, _⟩
  · cases h
  · cases h
    exact ⟨rfl, List.mem_singleton.mp h2⟩
  · cases h

theorem alias_c {x t} (h : project.Along conf x t) : x = c!"c" ∧ t = c!"d" := by
  replace h := along_alias (fun _ => rfl) h
  rcases alias_conf h with h | h <;> rcases conf_cases h with ⟨h, _⟩ | ⟨h, rfl⟩ | ⟨h, rfl⟩ <;> cases h
  exact ⟨rfl, rfl⟩

theorem node_a {n} : project.NodeOf conf c!"a" n ↔ n = project.node c!"a" := by
  rw [of_top (by decide), own_plain (.inl (conf_none (by decide)))]
theorem node_ab {n} : project.NodeOf conf c!"a.b" n ↔ n = project.node c!"a.b" := by
  rw [of_sub (x := c!"a.b") (p := c!"a") ⟨c!"b", rfl, by decide⟩ (node_a.mpr rfl) rfl rfl, own_plain (.inl (conf_none (by decide)))]
theorem node_av {n} : project.NodeOf conf c!"a.V" n ↔ n = { ident := c!"a.V", kind := .missing } := by
  rw [of_sub (x := c!"a.V") (p := c!"a") ⟨c!"V", rfl, by decide⟩ (node_a.mpr rfl) rfl rfl, own_plain (.inl (conf_none (by decide))),
    node_none (by decide +kernel)]
theorem node_c {n} : project.NodeOf conf c!"c" n ↔ n = { ident := c!"c", kind := .alias c!"d" } := by
  rw [of_top (by decide)]
  unfold Project.own
  rw [conf_c]
theorem node_d {n} : project.NodeOf conf c!"d" n ↔ n = project.node c!"d" := by
  rw [of_top (by decide), own_plain (.inl (conf_none (by decide)))]
theorem node_e {n} : project.NodeOf conf c!"e" n ↔ n = { ident := c!"e", kind := .excluded } := by
  rw [of_top (by decide)]
  unfold Project.own
  rw [conf_e]
theorem node_ex : project.NodeOf conf c!"e.x" { ident := c!"e.x", kind := .excluded } :=
  .inExcluded ⟨c!"x", rfl, by decide⟩ (node_e.mpr rfl) rfl

theorem pkg_a : project.Pkg conf c!"a" := ⟨_, node_a.mpr rfl, .inl rfl⟩

/-- Nothing but `c` is an alias. -/
theorem source_of {t u} (h : project.Source conf t u) : u = t ∨ t = c!"c" := by
  rcases h with ⟨h, _⟩ | h
  · exact .inl h
  · exact .inr (alias_c (.inl ⟨_, h, .inl rfl⟩)).1

theorem source_a : project.Source conf c!"a" c!"a" :=
  .inl ⟨rfl, fun n v h => by rw [node_a.mp h]; exact node_not_alias⟩

def names : List Str :=
  [c!"a", c!"a.b", c!"c", c!"d", c!"e", c!"e.x", c!"sys", c!"t", c!"n.x", c!"n", c!"gone.sub", c!"gone"]

/-- What is reached, at most. -/
def Bound : Place → Prop
  | .module x => x ∈ names
  | .text x pkg tree => (x = c!"a" ∧ pkg = true ∧ tree = treeA) ∨ (x = c!"a.b" ∧ pkg = false ∧ tree = treeB) ∨
      (x = c!"d" ∧ pkg = false ∧ tree = treeD) ∨ (x = c!"/s" ∧ pkg = false ∧ tree = treeS)

theorem package_bound {x p : Str} (h : Bound (.module x)) (hp : HasPackage x p) : Bound (.module p) := by
  have key : ∀ x ∈ names, '.' ∈ x →
      (rpartition '.' x).1 ++ '.' :: (rpartition '.' x).2.2 = x ∧ (rpartition '.' x).1 ∈ names := by
    decide +kernel
  obtain ⟨h1, h2⟩ := key x h hp.dot
  rw [hp.unique ⟨_, h1.symm, Verif.rpartition_last x⟩]
  exact h2

theorem import_bound {x pkg tree way t a} (h : Bound (.text x pkg tree)) (hi : HasImport tree way t a) :
    Bound (.module t) := by
  rcases h with ⟨rfl, rfl, rfl⟩ | ⟨rfl, rfl, rfl⟩ | ⟨rfl, rfl, rfl⟩ | ⟨rfl, rfl, rfl⟩
  · exact (import_a hi).elim
  · rw [(import_b hi).1]; simp [Bound, names]
  · exact (import_d hi).elim
  · have := import_s hi
    simp only [List.mem_cons, List.not_mem_nil, or_false, Prod.mk.injEq] at this
    rcases this with ⟨rfl, _⟩ | ⟨rfl, _⟩ | ⟨rfl, _⟩ | ⟨rfl, _⟩ <;> simp [Bound, names]

theorem from_bound {x pkg tree way t names} (h : Bound (.text x pkg tree)) (hi : HasFrom x pkg tree way t names) :
    t = c!"a" ∧ names = [(c!"b", none)] ∧ x = c!"a" ∧ pkg = true ∨ t = c!"a" ∧ names = [(c!"V", none)] ∨
      t = c!"d" ∧ names = [(c!"*", none)] := by
  rcases h with ⟨rfl, rfl, rfl⟩ | ⟨rfl, rfl, rfl⟩ | ⟨rfl, rfl, rfl⟩ | ⟨rfl, rfl, rfl⟩
  · rcases from_a hi with ⟨rfl, rfl⟩ | ⟨rfl, rfl⟩
    · exact .inl ⟨rfl, rfl, rfl, rfl⟩
    · exact .inr (.inr ⟨rfl, rfl⟩)
  · obtain ⟨rfl, rfl⟩ := from_b hi
    exact .inr (.inl ⟨rfl, rfl⟩)
  · exact (from_d hi).elim
  · exact (from_s hi).elim

theorem sub_v : ¬ project.Sub conf c!"a" c!"V" := by
  rintro (⟨n, h1, h2⟩ | ⟨path, h⟩ | h)
  · rw [node_av.mp h1] at h2
    cases h2
  · simp [project] at h
  · exact h (by simp [Project.globals, project])

theorem sub_b : project.Sub conf c!"a" c!"b" := .inl ⟨_, node_ab.mpr rfl, rfl⟩

/-- What is imported by name, and from where. -/
theorem name_bound {x pkg tree way t ns u nm a} (h : Bound (.text x pkg tree)) (hi : HasFrom x pkg tree way t ns)
    (hs : project.Source conf t u) (hm : (nm, a) ∈ ns) (hne : nm ≠ c!"*") :
    u = c!"a" ∧ (nm = c!"b" ∨ nm = c!"V") := by
  rcases from_bound h hi with ⟨rfl, rfl, _⟩ | ⟨rfl, rfl⟩ | ⟨rfl, rfl⟩
  · cases List.mem_singleton.mp hm
    exact ⟨(source_of hs).resolve_right (by decide), .inl rfl⟩
  · cases List.mem_singleton.mp hm
    exact ⟨(source_of hs).resolve_right (by decide), .inr rfl⟩
  · cases List.mem_singleton.mp hm
    exact absurd rfl hne

theorem bound {pl} (h : project.Reached conf mods scripts pl) : Bound pl := by
  induction h with
  | asked h =>
    simp only [mods, List.mem_cons, List.not_mem_nil, or_false] at h
    rcases h with rfl | rfl | rfl <;> simp [Bound, names]
  | package _ h ih => exact package_bound ih h
  | along _ h => rw [(alias_c h).2]; simp [Bound, names]
  | implied _ _ h => rw [(implied_sys h).2]; simp [Bound, names]
  | text _ h =>
    rcases text_cases h.1 with h | h | h
    · exact .inl h
    · exact .inr (.inl h)
    · exact .inr (.inr (.inl h))
  | @script path tree h1 h2 =>
    simp only [scripts, List.mem_singleton] at h1
    subst h1
    simp only [project, if_true, Option.some.injEq] at h2
    exact .inr (.inr (.inr ⟨rfl, rfl, h2.symm⟩))
  | imports _ h ih => exact import_bound ih h
  | froms _ h ih => rcases from_bound ih h with ⟨rfl, _⟩ | ⟨rfl, _⟩ | ⟨rfl, _⟩ <;> simp [Bound, names]
  | names _ h hs _ h3 hne h4 ih =>
    obtain ⟨rfl, rfl | rfl⟩ := name_bound ih h hs h3 hne
    · simp [Bound, names]
    · exact absurd h4 sub_v

theorem wanted {t nm} (h : project.Wanted conf mods scripts t nm) : t = c!"a" ∧ (nm = c!"b" ∨ nm = c!"V") := by
  obtain ⟨x, pkg, tree, way, t', ns, a, h1, h2, h3, h4, h5⟩ := h
  exact name_bound (bound h1) h2 h3 h4 h5

theorem proper_of {x : Str} (h : Bound (.module x)) : Proper x := by
  have key : ∀ x ∈ names, splitAll '.' x ≠ [] ∧ x = dotted (splitAll '.' x) ∧
      ∀ c ∈ splitAll '.' x, c ≠ [] ∧ '.' ∉ c ∧ '/' ∉ c := by decide +kernel
  exact ⟨_, key x h⟩

theorem mentioned {x} (h : project.Mentioned conf mods scripts x) : Bound (.module x) := by
  cases h with
  | asked h => exact bound (.asked h)
  | imports h1 h2 => exact bound (.imports h1 h2)
  | froms h1 h2 => exact bound (.froms h1 h2)
  | along h1 h2 => exact bound (.along h1 h2)
  | implied _ h => rw [(implied_sys h).2]; simp [Bound, names]

theorem not_bound (t nm : Str) (h1 : project.Wanted conf mods scripts t nm) (_ : project.Defines t nm) : ¬ Binds project conf t nm := by
  intro h2
  obtain ⟨rfl, hnm⟩ := wanted h1
  cases h2 with
  | imports h3 h4 =>
    rcases text_cases h3 with ⟨_, rfl, rfl⟩ | ⟨h, _⟩ | ⟨h, _⟩
    · exact import_a h4
    · cases h
    · cases h
  | froms h3 h4 =>
    rcases text_cases h3 with ⟨_, rfl, rfl⟩ | ⟨h, _⟩ | ⟨h, _⟩
    · rcases from_a h4 with ⟨h, _⟩ | ⟨h, _⟩ <;> rcases hnm with rfl | rfl <;> cases h
    · cases h
    · cases h
  | names h3 h4 h5 =>
    rcases text_cases h3 with ⟨_, rfl, rfl⟩ | ⟨h, _⟩ | ⟨h, _⟩
    · rcases from_a h4 with ⟨_, rfl⟩ | ⟨_, rfl⟩ <;> simp at h5
    · cases h
    · cases h
  | package h3 => exact absurd h3.dot (by decide)
  | along h3 => cases (alias_c h3).1
  | implied h3 => cases (implied_sys h3).1

theorem none_passed {u nm b d} (h : project.Wanted conf mods scripts u nm) (hd : project.Defines u nm)
    (he : project.Edge conf mods scripts u b d) (hc : Setup.Called nm b d) : False := by
  refine nothing_passed not_bound (fun t nm h => ?_) he nm h hd hc
  obtain ⟨rfl, rfl | rfl⟩ := wanted h <;> exact ⟨by simp [scripts], by decide⟩

theorem clear : project.Clear conf mods scripts where
  mentioned := fun x h => proper_of (mentioned h)
  names := by
    intro x pkg tree way name ns level h1 h2
    have h3 := froms_all h2
    rcases bound h1 with ⟨rfl, rfl, rfl⟩ | ⟨rfl, rfl, rfl⟩ | ⟨rfl, rfl, rfl⟩ | ⟨rfl, rfl, rfl⟩
    · rw [froms_a] at h3
      simp only [List.mem_cons, List.not_mem_nil, or_false, Prod.mk.injEq] at h3
      rcases h3 with ⟨rfl, rfl, rfl⟩ | ⟨rfl, rfl, rfl⟩ <;> refine ⟨by simp, fun nm a b h h' => ?_, fun nm a h => ?_⟩
      · cases List.mem_singleton.mp h
      · cases List.mem_singleton.mp h; decide
      · cases List.mem_singleton.mp h'; rfl
      · cases List.mem_singleton.mp h; decide
    · rw [froms_b] at h3
      cases List.mem_singleton.mp h3
      refine ⟨by simp, fun nm a b h h' => ?_, fun nm a h => ?_⟩ <;> cases List.mem_singleton.mp h
      decide
    · rw [froms_d] at h3
      cases h3
    · rw [froms_s] at h3
      cases List.mem_singleton.mp h3
      refine ⟨by simp, fun nm a b h h' => ?_, fun nm a h => ?_⟩ <;> cases List.mem_singleton.mp h
      decide
  script := by
    intro x h
    simp only [scripts, List.mem_singleton] at h
    subst h
    exact ⟨by simp [project], by decide, by decide⟩
  noEmpty := rfl
  noSix := by simp [project]
  noSwig := by
    intro x _ h
    rcases globals_cases h with ⟨_, h⟩ | ⟨_, h⟩ <;> cases h
  noMypyc := by
    intro x file d _ h
    simp [project] at h
  tried := by
    intro x l h hc
    cases h with
    | @mk y pkg tree way t names u nm a h1 h2 h3 h4 h5 h6 h7 =>
      obtain ⟨rfl, h⟩ := name_bound (bound h1) h2 h3 h5 h6
      rw [conf_none (by rcases h with rfl | rfl <;> decide)] at hc
      cases hc
  once := by
    intro y p q _ hp hq hb
    refine once_of (fun x t h => ?_) hp hq hb
    intro p q hp _
    rcases h with h | h
    · rw [(alias_c h).2] at hp
      exact absurd hp.dot (by decide)
    · rw [(implied_sys h).2] at hp
      exact absurd hp.dot (by decide)
  passedOn := by
    intro x pkg tree way t names u nm a h1 h2 h3 h4 h5 h6 b d h7 h8
    exact (none_passed ⟨_, _, _, _, _, _, _, h1, h2, h3, h4, h5⟩ h6 h7 h8).elim
  static := by
    intro t nm h1 _ _
    obtain ⟨rfl, rfl | rfl⟩ := wanted h1
    · exact .inr ⟨_, node_ab.mpr rfl, rfl⟩
    · exact .inl (by simp [project, Project.globals])
  variables := by
    intro t nm h1 h2 h3 y hy
    obtain ⟨rfl, rfl | rfl⟩ := wanted h1
    · exact absurd sub_b h3
    · have hb := mentioned hy
      simp only [Bound, names, List.mem_cons, List.not_mem_nil, or_false] at hb
      rcases hb with rfl | rfl | rfl | rfl | rfl | rfl | rfl | rfl | rfl | rfl | rfl | rfl <;>
        exact ⟨by decide, fun z => by simp⟩

end Shop

/-- The hypotheses of `C66_project` are met: the modules are found while `/src` is in `sys.path`. -/
example : ∃ N, ∀ n, N ≤ n →
    let there : List Str → Bool := (·.contains c!"/src")
    let r := runClient (((projectEnv Shop.project there []).withLoaders
        (projectLoaders Shop.project exOrd Shop.trees Shop.codes) 1).withTexts (projectTexts Shop.project exOrd)) n
      (configureThen [c!"e"] [(c!"c", .alias c!"d")] (doAll Shop.ops))
      (initState [c!"/src", c!"/lib"] Shop.table true)
    r.1 = .ok none ∧
    (c!"a.b", c!"a", DepInfo.mk true false false none) ∈ r.2.edges ∧
    (c!"/s", c!"n.x", DepInfo.mk true true false (some c!"y")) ∈ r.2.edges ∧
    (c!"c", c!"d", defaultDep) ∈ r.2.edges ∧
    (c!"a", c!"d", DepInfo.mk false true false none) ∈ r.2.edges ∧
    ({ ident := c!"e.x", kind := .excluded } : Node) ∈ r.2.nodes ∧
    ({ ident := c!"a.V", kind := .missing } : Node) ∈ r.2.nodes ∧
    (c!"/s", c!"..far", DepInfo.mk false true false none) ∈ r.2.edges ∧
    ({ ident := c!"..far", kind := .invalidRel } : Node) ∈ r.2.nodes ∧
    ¬ ∃ d, (c!"a.b", c!"a.V", d) ∈ r.2.edges := by
  obtain ⟨N, h⟩ := C66_project Shop.project Shop.table Shop.implies Shop.excludes Shop.mods Shop.scripts Shop.clear
    [c!"a", c!"a.b", c!"d", c!"e", c!"e.x", c!"n", c!"n.x", c!"sys"]
    (by
      intro x h
      simp only [Shop.project] at h
      repeat' split at h
      all_goals simp_all)
    (List.contains · c!"/src" = true) (projectEnv Shop.project (·.contains c!"/src") [])
    (projectLoaders Shop.project exOrd Shop.trees Shop.codes) (projectTexts Shop.project exOrd)
    (project_shows Shop.compiled fun _ h => h) exOrd_ok exOrd_ok 0 (fun _ _ _ => Iff.rfl) Shop.ops
    ⟨by simp [Shop.mods, Shop.ops], by simp [Shop.scripts, Shop.ops], by simp [Shop.ops], by simp [ScriptsOnce, Shop.ops]⟩ [c!"/src", c!"/lib"] rfl true
  refine ⟨N, fun n hn => ?_⟩
  obtain ⟨h1, _, _, h2, h3, _⟩ := h n hn
  have ha : Shop.project.Reached Shop.conf Shop.mods Shop.scripts (.module c!"a") := .asked (by simp [Shop.mods])
  have hta := Project.Reached.text ha (pkg := true) (tree := Shop.treeA) ⟨rfl, Shop.node_a.mpr rfl⟩
  have hfa : HasFrom c!"a" true Shop.treeA [.plain] c!"a" [(c!"b", none)] :=
    ⟨none, 1, .plain (.head _) (.here _), .relative [c!"a"] [] (by decide) rfl (by decide) (by decide) rfl⟩
  have hfd : HasFrom c!"a" true Shop.treeA [.plain] c!"d" [(c!"*", none)] :=
    ⟨some c!"d", 0, .plain (.tail _ (.head _)) (.here _), .absolute rfl⟩
  have hb := Project.Reached.names hta hfa Shop.source_a Shop.pkg_a (List.mem_singleton.mpr rfl) (by decide) Shop.sub_b
  have htb := Project.Reached.text hb (pkg := false) (tree := Shop.treeB) ⟨rfl, Shop.node_ab.mpr rfl⟩
  have hfb : HasFrom c!"a.b" false Shop.treeB [.plain, .inDef] c!"a" [(c!"V", none)] :=
    ⟨some c!"a", 0, .plain (.tail _ (.head _)) (.inDef (.head _) (.here _)), .absolute rfl⟩
  have hs : Shop.project.Reached Shop.conf Shop.mods Shop.scripts (.text c!"/s" false Shop.treeS) :=
    .script (by simp [Shop.scripts]) rfl
  have his : ∀ x ∈ [c!"gone.sub", c!"c", c!"e.x"], HasImport Shop.treeS [.plain] x none := by
    intro x hx
    refine ⟨_, .plain (.tail _ (.head _)) (.here _), ?_⟩
    simpa using hx
  refine ⟨h1, (h3 _ _ _).mpr (.froms htb hfb ⟨by decide, by decide, rfl, rfl⟩),
    (h3 _ _ _).mpr (.imports hs ⟨_, .plain (.head _) (.inIf (.head _) (.here _)), List.mem_singleton.mpr rfl⟩
      ⟨by decide, by decide, rfl, rfl⟩),
    (h3 _ _ _).mpr (.along (.imports hs (his c!"c" (by decide))) (.inl ⟨_, Shop.node_c.mpr rfl, .inl rfl⟩)),
    (h3 _ _ _).mpr (.froms hta hfd ⟨by decide, by decide, rfl, rfl⟩),
    (h2 _).mpr (.inl ⟨c!"e.x", .inl (.imports hs (his c!"e.x" (by decide))), Shop.node_ex⟩),
    (h2 _).mpr (.inl ⟨c!"a.V", .inr (.mk htb hfb Shop.source_a Shop.pkg_a (List.mem_singleton.mpr rfl) (by decide)
      Shop.sub_v), Shop.node_av.mpr rfl⟩), (h3 _ _ _).mpr (.outside hs Shop.has_out ⟨by decide, by decide, rfl, rfl⟩),
    (h2 _).mpr (.inr (.inr ⟨_, ⟨_, _, _, _, _, hs, Shop.has_out⟩, rfl⟩)), ?_⟩
  rintro ⟨d, hd⟩
  have hV : ¬ Shop.project.Reached Shop.conf Shop.mods Shop.scripts (.module c!"a.V") := fun h =>
    absurd (Shop.bound h) (by simp [Shop.Bound, Shop.names])
  rcases edge_reached ((h3 _ _ _).mp hd) with h | ⟨_, _, _, _, _, h, ho⟩
  · exact hV h
  · cases (Shop.out_bound (Shop.bound h) ho).2.1

theorem Shop.fits : Shop.project.Fits Shop.conf ([c!"d"] ++ distModules [Shop.shop]) Shop.scripts [Shop.shop] where
  place := by
    intro d hd
    cases List.mem_singleton.mp hd
    decide
  same := by
    intro d hd d' hd' _
    rw [List.mem_singleton.mp hd, List.mem_singleton.mp hd']
  config := by
    rintro x t (h | h | h)
    · rcases Shop.conf_cases h with ⟨h, _⟩ | ⟨h, rfl⟩ | ⟨h, rfl⟩ <;> cases h
      decide
    · rcases Shop.conf_cases h with ⟨h, _⟩ | ⟨h, rfl⟩ | ⟨h, rfl⟩ <;> cases h
    · rw [(Shop.implied_sys h).2]
      decide
  passedOn := by
    intro x pkg tree way t names u nm a h1 h2 h3 h4 h5 h6 b d h7 h8
    exact (Shop.none_passed ⟨_, _, _, _, _, _, _, h1, h2, h3, h4, h5⟩ h6 h7 h8).elim

/-- The hypotheses of `C66_installed` are met: a distribution by its name, a script, and a piece of source code. -/
example : ∃ N, ∀ n, N ≤ n →
    let r := runClient (((projectEnv Shop.project (·.contains c!"/src") []).withLoaders
        (projectLoaders Shop.project exOrd Shop.trees Shop.codes) 1).withTexts (projectTexts Shop.project exOrd)) n
      (configureThen [c!"e"] [(c!"c", .alias c!"d")]
        (doAll [.addDistributionNamed c!"Shop", .addScript c!"/s", .addDependenciesForSource c!"import d"]))
      (initState [c!"/src", c!"/lib"] Shop.table true)
    r.1 = .ok none ∧
    ({ ident := c!"/shop.dist-info", kind := .dist Shop.shop } : Node) ∈ r.2.nodes ∧
    (c!"/shop.dist-info", c!"a.b", defaultDep) ∈ r.2.edges ∧ c!"/shop.dist-info" ∈ r.2.roots ∧ c!"d" ∈ r.2.roots ∧
    c!"a" ∉ r.2.roots := by
  obtain ⟨N, h⟩ := C66_installed Shop.project Shop.table Shop.implies Shop.excludes [c!"d"] Shop.scripts [Shop.shop]
    Shop.clear Shop.fits
    [c!"a", c!"a.b", c!"d", c!"e", c!"e.x", c!"n", c!"n.x", c!"sys"]
    (by
      intro x h
      simp only [Shop.project] at h
      repeat' split at h
      all_goals simp_all)
    (List.contains · c!"/src" = true) (projectEnv Shop.project (·.contains c!"/src") [])
    (projectLoaders Shop.project exOrd Shop.trees Shop.codes) (projectTexts Shop.project exOrd)
    (project_shows Shop.compiled fun _ h => h) exOrd_ok exOrd_ok 0 (fun _ _ _ => Iff.rfl)
    [.addDistributionNamed c!"Shop", .addScript c!"/s", .addDependenciesForSource c!"import d"]
    ⟨fun x => by
      simp only [List.mem_cons, List.not_mem_nil, or_false, reduceCtorEq, false_or, ApiOp.addDependenciesForSource.injEq,
        Shop.project]
      constructor
      · rintro rfl
        exact ⟨_, _, rfl, if_pos rfl, .imports (way := [.plain]) (a := none)
          ⟨_, .plain (.head _) (.here _), List.mem_singleton.mpr rfl⟩⟩
      · rintro ⟨src, tree, rfl, h1, h2⟩
        cases (if_pos rfl).symm.trans h1
        cases h2 with
        | imports h =>
          have := imports_all h
          simp [allImports, Shop.treeI, occurrences] at this
          exact this.1
        | froms h =>
          have := froms_all h
          simp [allFroms, Shop.treeI, occurrences] at this
        | names h =>
          have := froms_all h
          simp [allFroms, Shop.treeI, occurrences] at this,
      by simp [Shop.scripts], fun d => by simp [Shop.project, eq_comm], by simp [Shop.project], by simp [ScriptsOnce]⟩
    [c!"/src", c!"/lib"] rfl true
  refine ⟨N, fun n hn => ?_⟩
  obtain ⟨h1, _, _, h2⟩ := h n hn
  refine ⟨h1, (h2.nodes _).mpr (.inr (.inr (.inr ⟨_, List.mem_singleton.mpr rfl, rfl⟩))),
    (h2.edges _ _ _).mpr (.inr ⟨_, List.mem_singleton.mpr rfl, rfl, by decide, rfl⟩),
    (h2.roots _).mpr (.inr (.inr ⟨_, List.mem_singleton.mpr rfl, rfl⟩)), (h2.roots _).mpr (.inl (by decide)), ?_⟩
  refine fun ha => absurd ((h2.roots _).mp ha) ?_
  simp [Shop.scripts, Shop.shop]

/-- The hypotheses of `C63_in_worlds` are met. -/
example : ∃ N, ∀ n, N ≤ n →
    let r := runClient (world (projectEnv Shop.project (List.contains · c!"/src") [])
        (projectLoaders Shop.project exOrd Shop.trees Shop.codes) (projectTexts Shop.project exOrd) 0) n
      (configureThen Shop.excludes Shop.implies (doAll Shop.ops))
      (initState [c!"/src"] Shop.table true)
    r.1 = .ok none ∧ Event.failed ∉ r.2.log ∧ r.2.world.contains c!"/src" = true := by
  let L : Loaders (List Str) := projectLoaders Shop.project exOrd Shop.trees Shop.codes
  have hS := project_shows (ord := exOrd) (ord' := exOrd) (away := []) (I := (List.contains · c!"/src" = true)) Shop.compiled fun _ h => h
  obtain ⟨N, h⟩ := C63_in_worlds (setup Shop.project (records Shop.project L) exOrd Shop.conf Shop.mods Shop.scripts)
    (tame Shop.clear (scan exOrd_ok hS) exOrd_ok) (safe Shop.clear (scan exOrd_ok hS) exOrd_ok) (List.contains · c!"/src" = true) _
    (shown Shop.clear exOrd_ok exOrd_ok hS 0) (fun _ _ _ => Iff.rfl)
    Shop.ops ⟨by simp [setup, Shop.mods, Shop.ops],
      by simp [setup, Shop.scripts, Shop.ops], by simp [setup, Shop.ops], by simp [Setup.Adds, Shop.ops]⟩
    (by simp [ScriptsOnce, Shop.ops]) [c!"/src"] rfl Shop.table true Shop.excludes Shop.implies rfl (mods_none.mpr rfl)
    [c!"a", c!"a.b", c!"d", c!"e", c!"e.x", c!"n", c!"n.x", c!"sys"]
    (fun x p h => by
      obtain ⟨h1, _⟩ := mods_iff.mp h
      simp only [Shop.project] at h1
      repeat' split at h1
      all_goals simp_all)
    (.inl rfl)
  exact ⟨N, fun n hn => ⟨(h n hn).1, (h n hn).2.1, (h n hn).2.2.1⟩⟩

end Verif.Props
