import Verif.Spec.SafeSpec
import Verif.Spec.ExcSpec
import Verif.Spec.StatementSpec
import Verif.Spec.BytecodeSpec
import Verif.Model.Scripts
/-!
# A project and its import graph

Syntax trees of modules and scripts, and the graph that their import statements make.  The records of
the scanner, the loaders and the graph builder do not occur in this description.
-/
namespace Verif.Spec
open Verif

/-- What can be imported under a name.  `globals` are the names that the code stores as global
variables, `reads` those that it reads. -/
inductive Item where
  | source (file text : Str) (tree : Ast) (globals reads : List Str)
  | package (file text : Str) (tree : Ast) (globals reads : List Str) (path : List Str) (data : Bool)
  | namespace (path : List Str)
  | extension (file : Str)
  | builtin
  /-- code without a source text, in a file or frozen; `tree` has its import statements -/
  | compiled (file : Option Str) (code : Code) (tree : Ast) (globals reads : List Str)
  /-- the same for a package -/
  | compiledPackage (file : Option Str) (code : Code) (tree : Ast) (globals reads : List Str) (path : List Str)
      (data : Bool)
  /-- a module that cannot be compiled, with the tree if there is one -/
  | invalid (file : Str) (tree : Option Ast)
  /-- the same for a package -/
  | invalidPackage (file : Str) (tree : Option Ast) (path : List Str) (data : Bool)

/-- The file of a module. -/
def Item.file : Item → Option Str
  | .source file .. | .package file .. | .extension file | .invalid file _ | .invalidPackage file .. => some file
  | .compiled file .. | .compiledPackage file .. => file
  | _ => none

/-- The import instructions in the code are the statements in the tree: names after `as`, conditions and
`try` statements do not show in the code. -/
structure CodeOf (new : Bool) (code : Code) (tree : Ast) : Prop where
  /-- the conditions of `C37_records_partial` -/
  nodup : (codes code).Nodup
  compiled : ∀ c ∈ codes code, Compiled new c
  /-- instructions come from statements -/
  fromTree : ∀ c ∈ codes code, ∀ i m l names, ImportAt 1 c i m l names →
    ∃ way, (.inDef ∈ way ↔ InFunction new code c) ∧ .inIf ∉ way ∧ .inTry ∉ way ∧
    match names with
    | none => l = 0 ∧ ∃ ns, Nested tree way (.import_ ns) ∧ (m, none) ∈ ns
    | some t => ∃ name, name.getD [] = m ∧ Nested tree way (.importFrom name (t.map fun nm => (nm, none)) l)
  /-- statements are in the code -/
  imports : ∀ way ns m a, Nested tree way (.import_ ns) → (m, a) ∈ ns →
    a = none ∧ .inIf ∉ way ∧ .inTry ∉ way ∧ ∃ c ∈ codes code, ∃ i, (.inDef ∈ way ↔ InFunction new code c) ∧
      ImportAt 1 c i m 0 none
  froms : ∀ way name ns l, Nested tree way (.importFrom name ns l) →
    .inIf ∉ way ∧ .inTry ∉ way ∧ ∃ t, ns = t.map (fun nm => (nm, none)) ∧
      ∃ c ∈ codes code, ∃ i, (.inDef ∈ way ↔ InFunction new code c) ∧ ImportAt 1 c i (name.getD []) l (some t)

/-- A project. -/
structure Project where
  item : Str → Option Item
  script : Str → Option Ast
  /-- the directory of a file -/
  parent : Str → Str
  /-- the absolute name of the file of a script -/
  resolve : Str → Str
  /-- the distribution that a file belongs to -/
  dist : Str → Option Dist
  /-- the installed distributions by name -/
  installed : Str → Option Dist := fun _ => none
  /-- packages that extend their `__path__` when they are loaded -/
  extended : Str → Option NsType := fun _ => none
  /-- pieces of source code -/
  snippet : Str → Option Ast := fun _ => none

/-- A module, or the text of a module or script (`pkg`: of a package). -/
inductive Place where
  | module (x : Str)
  | text (x : Str) (pkg : Bool) (tree : Ast)

/-- Names of modules: parts that are not empty, separated by dots. -/
def Proper (x : Str) : Prop :=
  ∃ comps, comps ≠ [] ∧ x = dotted comps ∧ ∀ c ∈ comps, c ≠ [] ∧ '.' ∉ c ∧ '/' ∉ c

/-- The module `name` with `level` dots in front is called `t` in `x`. -/
inductive MeansName (x : Str) (pkg : Bool) (level : Nat) (name : Str) : Str → Prop where
  | absolute : level = 0 → MeansName x pkg level name name
  | relative (kept rest : List Str) : 0 < level → x = dotted (kept ++ rest) → (∀ c ∈ kept ++ rest, Comp c) →
      kept ≠ [] → rest.length = (if pkg then level - 1 else level) →
      MeansName x pkg level name (dotted (kept ++ if name = [] then [] else [name]))

/-- `level` dots lead out of the top-level package of `x`. -/
def LeadsOut (x : Str) (pkg : Bool) (level : Nat) : Prop :=
  0 < level ∧ ∃ comps, comps ≠ [] ∧ x = dotted comps ∧ (∀ c ∈ comps, Comp c) ∧
    comps.length ≤ (if pkg then level - 1 else level)

/-- `import t as a` in the tree. -/
def HasImport (tree : Ast) (way : List Via) (t : Str) (a : Option Str) : Prop :=
  ∃ names, Nested tree way (.import_ names) ∧ (t, a) ∈ names

/-- `from t import names` in the tree of `x`. -/
def HasFrom (x : Str) (pkg : Bool) (tree : Ast) (way : List Via) (t : Str) (names : List (Str × Option Str)) : Prop :=
  ∃ name level, Nested tree way (.importFrom name names level) ∧ MeansName x pkg level (name.getD []) t

/-- `from y import names` in the tree of `x`, where `y` starts with too many dots. -/
def HasOutside (x : Str) (pkg : Bool) (tree : Ast) (way : List Via) (y : Str) (names : List (Str × Option Str)) : Prop :=
  ∃ name level, Nested tree way (.importFrom name names level) ∧ LeadsOut x pkg level ∧
    y = List.replicate level '.' ++ name.getD []

namespace Project
open Setup (Called)
variable (P : Project)

/-- The text of a module. -/
def text (x : Str) : Option (Bool × Ast) :=
  match P.item x with
  | some (.source _ _ t _ _) => some (false, t)
  | some (.package _ _ t _ _ _ _) => some (true, t)
  | some (.compiled _ _ t _ _) => some (false, t)
  | some (.compiledPackage _ _ t _ _ _ _) => some (true, t)
  | some (.invalid _ (some t)) => some (false, t)
  | some (.invalidPackage _ (some t) _ _) => some (true, t)
  | _ => none

/-- Global variables of a module. -/
def globals (x : Str) : List Str :=
  match P.item x with
  | some (.source _ _ _ g _) | some (.package _ _ _ g _ _ _) => g
  | some (.compiled _ _ _ g _) | some (.compiledPackage _ _ _ g _ _ _) => g
  | _ => []

/-- The package `x` extends its `__path__`. -/
def nsType (x : Str) : Option NsType :=
  match P.item x with
  | some (.package ..) => P.extended x
  | _ => none

/-- The node for what can be imported as `x`. -/
def node (x : Str) : Node :=
  match P.item x with
  | some (.source file _ _ g r) =>
    { ident := x, kind := .module .source, distribution := P.dist file, filename := some file,
      globalsWritten := g, globalsRead := r }
  | some (.package file _ _ g r path data) =>
    { ident := x, kind := .package false { name := x, kind := .source, filename := some file } path data (P.extended x),
      distribution := P.dist file, filename := some (P.parent file), globalsWritten := g, globalsRead := r }
  | some (.namespace path) => { ident := x, kind := .namespacePkg path }
  | some (.extension file) =>
    { ident := x, kind := .module .extension, distribution := P.dist file, filename := some file }
  | some .builtin => { ident := x, kind := .module .builtin }
  | some (.compiled file _ _ g r) =>
    { ident := x, kind := .module (if file = none then .frozen else .bytecode), distribution := file.bind P.dist,
      filename := file, globalsWritten := g, globalsRead := r }
  | some (.compiledPackage file _ _ g r path data) =>
    { ident := x,
      kind := .package (decide (file = none))
        { name := x, kind := if file = none then .frozen else .bytecode, filename := file } path data none,
      distribution := file.bind P.dist, filename := file.map P.parent, globalsWritten := g, globalsRead := r }
  | some (.invalid file _) =>
    { ident := x, kind := .module .invalid, distribution := P.dist file, filename := some file }
  | some (.invalidPackage file _ path data) =>
    { ident := x, kind := .package false { name := x, kind := .invalid, filename := some file } path data none,
      distribution := P.dist file, filename := some (P.parent file) }
  | none => { ident := x, kind := .missing }

-- `conf` is what is configured for names: excludes, aliases, implied modules
variable (conf : Str → Option Implies)

/-- The node for `x`, if nothing is wrong with its package. -/
def own (x : Str) : Node :=
  match conf x with
  | some .excluded => { ident := x, kind := .excluded }
  | some (.alias t) => { ident := x, kind := .alias t }
  | some (.virtual t) => { ident := x, kind := .virtual t }
  | _ => P.node x

/-- The node for `x`: what is in a missing package is missing, what is in an excluded one is excluded. -/
inductive NodeOf : Str → Node → Prop where
  | top {x} : '.' ∉ x → NodeOf x (P.own conf x)
  | sub {x p q} : HasPackage x p → NodeOf p q → q.isMissing = false → q.isExcluded = false →
      NodeOf x (P.own conf x)
  | inMissing {x p q} : HasPackage x p → NodeOf p q → q.isMissing = true →
      NodeOf x { ident := x, kind := .missing }
  | inExcluded {x p q} : HasPackage x p → NodeOf p q → q.isExcluded = true →
      NodeOf x { ident := x, kind := .excluded }

/-- The module `x` stands for the module `t`. -/
def Alias (x t : Str) : Prop := ∃ n, P.NodeOf conf x n ∧ (n.kind = .alias t ∨ n.kind = .virtual t)

/-- The package `x` extends its `__path__` with the module `t`. -/
def Extends (x t : Str) : Prop :=
  ∃ ns, P.nsType x = some ns ∧ P.NodeOf conf x (P.node x) ∧ t = Setup.nsModule ns

/-- The module `t` comes along with `x`. -/
def Along (x t : Str) : Prop := P.Alias conf x t ∨ P.Extends conf x t

/-- The text of the module `x` is looked at. -/
def HasText (x : Str) (pkg : Bool) (tree : Ast) : Prop := P.text x = some (pkg, tree) ∧ P.NodeOf conf x (P.node x)

/-- The module can have submodules. -/
def Pkg (x : Str) : Prop := ∃ n, P.NodeOf conf x n ∧ (n.isPackage = true ∨ n.isNamespacePkg = true)

/-- `from t import ...` takes names from `u`: from `t` itself or from what it is an alias of. -/
def Source (t u : Str) : Prop :=
  (u = t ∧ ∀ n v, P.NodeOf conf t n → n.kind ≠ .alias v) ∨ P.NodeOf conf t { ident := t, kind := .alias u }

/-- `x` needs `r` by what is configured. -/
def Implied (x r : Str) : Prop := ∃ l, conf x = some (.refs l) ∧ r ∈ l

/-- The name `nm` in the package `t` stands for a submodule. -/
def Sub (t nm : Str) : Prop :=
  (∃ n, P.NodeOf conf (t ++ '.' :: nm) n ∧ n.isMissing = false) ∨ (∃ path, P.item t = some (.namespace path)) ∨
    nm ∉ P.globals t

/-- The package of `x` is there. -/
def InPlace (x : Str) : Prop :=
  ∀ p q, HasPackage x p → P.NodeOf conf p q → q.isMissing = false ∧ q.isExcluded = false

variable (mods scripts : List Str)

/-- What is reached from the modules `mods` and the scripts. -/
inductive Reached : Place → Prop where
  | asked {x} : x ∈ mods → Reached (.module x)
  | package {x p} : Reached (.module x) → HasPackage x p → Reached (.module p)
  | along {x t} : Reached (.module x) → P.Along conf x t → Reached (.module t)
  | implied {x r} : Reached (.module x) → P.InPlace conf x → Implied conf x r → Reached (.module r)
  | text {x pkg tree} : Reached (.module x) → P.HasText conf x pkg tree → Reached (.text x pkg tree)
  | script {path tree} : path ∈ scripts → P.script path = some tree → Reached (.text path false tree)
  | imports {x pkg tree way t a} : Reached (.text x pkg tree) → HasImport tree way t a → Reached (.module t)
  | froms {x pkg tree way t names} : Reached (.text x pkg tree) → HasFrom x pkg tree way t names →
      Reached (.module t)
  | names {x pkg tree way t names u nm a} : Reached (.text x pkg tree) → HasFrom x pkg tree way t names →
      P.Source conf t u → P.Pkg conf u → (nm, a) ∈ names → nm ≠ c!"*" → P.Sub conf u nm →
      Reached (.module (u ++ '.' :: nm))

/-- A name that is a variable of the package from which it is imported; the graph builder tries whether
it is a submodule, and keeps a missing module for it. -/
inductive Tried : Str → Prop where
  | mk {x pkg tree way t names u nm a} : P.Reached conf mods scripts (.text x pkg tree) →
      HasFrom x pkg tree way t names → P.Source conf t u → P.Pkg conf u → (nm, a) ∈ names → nm ≠ c!"*" →
      ¬ P.Sub conf u nm → Tried (u ++ '.' :: nm)

/-- The name `y`, with too many dots in front, is used in a relative import. -/
def Outside (y : Str) : Prop :=
  ∃ x pkg tree way names, P.Reached conf mods scripts (.text x pkg tree) ∧ HasOutside x pkg tree way y names

/-- The edges of the graph. -/
inductive Edge : Str → Str → DepInfo → Prop where
  | imports {x pkg tree way t a d} : P.Reached conf mods scripts (.text x pkg tree) → HasImport tree way t a →
      EdgeSays way false a d → Edge x t d
  | froms {x pkg tree way t names d} : P.Reached conf mods scripts (.text x pkg tree) →
      HasFrom x pkg tree way t names → EdgeSays way false none d → Edge x t d
  | names {x pkg tree way t names u nm a d} : P.Reached conf mods scripts (.text x pkg tree) →
      HasFrom x pkg tree way t names → P.Source conf t u → P.Pkg conf u → (nm, a) ∈ names → nm ≠ c!"*" →
      P.Sub conf u nm → EdgeSays way true a d → Edge x (u ++ '.' :: nm) d
  | outside {x pkg tree way y names d} : P.Reached conf mods scripts (.text x pkg tree) →
      HasOutside x pkg tree way y names → EdgeSays way false none d → Edge x y d
  | package {x p} : P.Reached conf mods scripts (.module x) → HasPackage x p → Edge x p defaultDep
  | along {x t} : P.Reached conf mods scripts (.module x) → P.Along conf x t → Edge x t defaultDep
  | implied {x r} : P.Reached conf mods scripts (.module x) → P.InPlace conf x → Implied conf x r →
      Edge x r defaultDep
  /-- a module that the module `u` imports, imported from `u` -/
  | passedOn {x pkg tree way t names u tree' nm a b d d'} : P.Reached conf mods scripts (.text x pkg tree) →
      HasFrom x pkg tree way t names → P.Source conf t u → P.HasText conf u false tree' → (nm, a) ∈ names →
      nm ≠ c!"*" → nm ∈ P.globals u → Edge u b d → Called nm b d → EdgeSays way true a d' → Edge x b d'

/-- The edges of import statements. -/
inductive ByText : Str → Str → DepInfo → Prop where
  | imports {x pkg tree way t a d} : P.Reached conf mods scripts (.text x pkg tree) → HasImport tree way t a →
      EdgeSays way false a d → ByText x t d
  | froms {x pkg tree way t names d} : P.Reached conf mods scripts (.text x pkg tree) →
      HasFrom x pkg tree way t names → EdgeSays way false none d → ByText x t d
  | names {x pkg tree way t names u nm a d} : P.Reached conf mods scripts (.text x pkg tree) →
      HasFrom x pkg tree way t names → P.Source conf t u → P.Pkg conf u → (nm, a) ∈ names → nm ≠ c!"*" →
      P.Sub conf u nm → EdgeSays way true a d → ByText x (u ++ '.' :: nm) d
  | passedOn {x pkg tree way t names u tree' nm a b d d'} : P.Reached conf mods scripts (.text x pkg tree) →
      HasFrom x pkg tree way t names → P.Source conf t u → P.HasText conf u false tree' → (nm, a) ∈ names →
      nm ≠ c!"*" → nm ∈ P.globals u → P.Edge conf mods scripts u b d → Called nm b d → EdgeSays way true a d' →
      ByText x b d'

/-- There is a path from `x` to `y` in the graph. -/
inductive Leads : Str → Str → Prop where
  | here {x} : Leads x x
  | on {x y z d} : Leads x y → P.Edge conf mods scripts y z d → Leads x z

/-- What may come with the module `x`. -/
inductive Draws (x : Str) : Str → Prop where
  | self : Draws x x
  | package {y p} : Draws x y → InPackage y p → Draws x p
  | alias {y t} : Draws x y → conf y = some (.alias t) ∨ conf y = some (.virtual t) → Draws x t
  | implied {y r} : Draws x y → Implied conf y r → Draws x r
  | extended {y ns} : Draws x y → P.nsType y = some ns → Draws x (Setup.nsModule ns)

/-- The module `x` does not come alone. -/
def Linked (x : Str) : Prop := conf x ≠ none ∨ P.nsType x ≠ none

/-- What may come with the module `x` when its package is already there. -/
def DrawsIn (x z : Str) : Prop := z = x ∨ (P.Linked conf x ∧ P.Draws conf x z)

/-- The text of `y` may be looked at while that of `c` is waiting, because both modules came with the same
module or with names in the same statement. -/
inductive Over (c : Str) : Str → Prop where
  | self : Over c c
  | linked {y} : P.Linked conf c → P.Draws conf c y → Over c y
  | together {r y} : P.Reached conf mods scripts (.module r) ∨ P.Tried conf mods scripts r → r ≠ c →
      P.Draws conf r c → P.Draws conf r y → Over c y
  | names {x pkg tree way t names u nm a nm' a' y} : P.Reached conf mods scripts (.text x pkg tree) →
      HasFrom x pkg tree way t names → P.Source conf t u → P.Pkg conf u → (nm, a) ∈ names → (nm', a') ∈ names →
      nm ≠ c!"*" → P.DrawsIn conf (u ++ '.' :: nm) c → P.DrawsIn conf (u ++ '.' :: nm') y → Over c y

/-- The text of `m` may be looked at while that of `c` is waiting. -/
def Behind (c m : Str) : Prop := ∃ y, P.Over conf mods scripts c y ∧ P.Leads conf mods scripts y m

/-- The module `t` is mentioned: asked for, imported or implied. -/
inductive Mentioned : Str → Prop where
  | asked {x} : x ∈ mods → Mentioned x
  | imports {x pkg tree way t a} : P.Reached conf mods scripts (.text x pkg tree) → HasImport tree way t a →
      Mentioned t
  | froms {x pkg tree way t names} : P.Reached conf mods scripts (.text x pkg tree) →
      HasFrom x pkg tree way t names → Mentioned t
  | along {x t} : P.Reached conf mods scripts (.module x) → P.Along conf x t → Mentioned t
  | implied {x r} : P.Reached conf mods scripts (.module x) → Implied conf x r → Mentioned r

/-- The name `nm` is imported from `u` somewhere in what is reached. -/
def Wanted (u nm : Str) : Prop :=
  ∃ x pkg tree way t names a, P.Reached conf mods scripts (.text x pkg tree) ∧ HasFrom x pkg tree way t names ∧
    P.Source conf t u ∧ (nm, a) ∈ names ∧ nm ≠ c!"*"

/-- The code of `t` gives a value to the name `nm`. -/
inductive Defines : Str → Str → Prop where
  | own {t nm} : nm ∈ P.globals t → Defines t nm
  | byName {t pkg tree way u names nm a} : P.text t = some (pkg, tree) → HasFrom t pkg tree way u names →
      (nm, a) ∈ names → nm ≠ c!"*" → Defines t nm
  | byOutside {t pkg tree way y names nm a} : P.text t = some (pkg, tree) → HasOutside t pkg tree way y names →
      (nm, a) ∈ names → nm ≠ c!"*" → Defines t nm
  | byStar {t pkg tree way u names nm a} : P.text t = some (pkg, tree) → HasFrom t pkg tree way u names →
      (c!"*", a) ∈ names → Defines u nm → Defines t nm

/-- What comes with the module `x` before any import statement is looked at. -/
inductive Brings (x : Str) : Str → Prop where
  | self : Brings x x
  | package {y p} : Brings x y → HasPackage y p → Brings x p
  | along {y t} : Brings x y → P.Along conf y t → Brings x t
  | implied {y r} : Brings x y → P.InPlace conf y → Implied conf y r → Brings x r

/-- A project whose import statements are clear. -/
structure Clear : Prop where
  /-- what is asked for and imported is called properly -/
  mentioned : ∀ x, P.Mentioned conf mods scripts x → Proper x
  /-- imported names: no dots, each only once in a statement, a star only on its own -/
  names : ∀ x pkg tree way name names level, P.Reached conf mods scripts (.text x pkg tree) →
    Nested tree way (.importFrom name names level) →
    (names.map Prod.fst).Nodup ∧ (∀ nm a b, (c!"*", a) ∈ names → (nm, b) ∈ names → nm = c!"*") ∧
    ∀ nm a, (nm, a) ∈ names → nm ≠ [] ∧ '.' ∉ nm ∧ '/' ∉ nm ∧ nm ≠ c!"swig_import_helper"
  /-- scripts can be read and are not called like modules -/
  script : ∀ x ∈ scripts, P.script x ≠ none ∧ '/' ∈ x ∧ x.head? ≠ some '.'
  noEmpty : P.item [] = none
  /-- modules are not made by SWIG, mypyc or six -/
  noSix : P.item c!"@@SIX_MOVES@@" = none
  noSwig : ∀ x, P.Reached conf mods scripts (.module x) → c!"swig_import_helper" ∉ P.globals x
  noMypyc : ∀ x file d, P.item x = some (.extension file) → P.dist file = some d → ∀ h ∈ d.importNames,
    ¬ ∃ p, h = p ++ c!"__mypyc"
  /-- variables do not imply modules -/
  tried : ∀ x l, P.Tried conf mods scripts x → conf x ≠ some (.refs l)
  /-- a missing or excluded package does not imply what is in it -/
  once : ∀ y p q, P.Reached conf mods scripts (.module y) → HasPackage y p → P.NodeOf conf p q →
    (q.isMissing = true ∨ q.isExcluded = true) → ¬ P.Brings conf p y
  /-- a module that is imported from a module `u` that only imports it: `u` has but one module of that
  name, by one of its statements, and does not wait for the importing module -/
  passedOn : ∀ x pkg tree way t names u nm a, P.Reached conf mods scripts (.text x pkg tree) →
    HasFrom x pkg tree way t names → P.Source conf t u → (nm, a) ∈ names → nm ≠ c!"*" → P.Defines u nm →
    ∀ b d, P.Edge conf mods scripts u b d → Called nm b d →
    (∃ tree', P.HasText conf u false tree') ∧ nm ∈ P.globals u ∧
    (∀ b' d', P.Edge conf mods scripts u b' d' → Called nm b' d' → b' = b) ∧
    (∃ d', P.ByText conf mods scripts u b d' ∧ Called nm b d') ∧ ¬ P.Behind conf mods scripts u x
  /-- names that a package has by its own `from` imports are variables or submodules -/
  static : ∀ t nm, P.Wanted conf mods scripts t nm → P.Pkg conf t → P.Defines t nm →
    nm ∈ P.globals t ∨ ∃ n, P.NodeOf conf (t ++ '.' :: nm) n ∧ n.isMissing = false
  /-- variables are not imported like modules -/
  variables : ∀ t nm, P.Wanted conf mods scripts t nm → P.Pkg conf t → ¬ P.Sub conf t nm →
    ∀ y, P.Mentioned conf mods scripts y → y ≠ t ++ '.' :: nm ∧ ∀ z, y ≠ t ++ '.' :: nm ++ '.' :: z

end Project

variable {W : Type}

/-- The operation raises `e` in worlds with `I`, and leaves such a world. -/
def Fails {α : Type} (I : W → Prop) (x : Ext W α) (e : Exc) : Prop := ∀ w, I w → (x w).1 = .error e ∧ I (x w).2

/-- Frozen code has no file. -/
def Comes (spec : Verif.Spec) : Option Str → Prop
  | none => spec.loader = .frozen
  | some file => spec.loader = .inspect ∧ spec.origin = some file

/-- The source of a module is there, but it cannot be parsed or compiled. -/
def NotCompiled (I : W → Prop) (L : Loaders W) (spec : Verif.Spec) (file : Str) (tree : Option Ast) : Prop :=
  ∃ text, Yields I (L.getSource spec) (some text) ∧ Fails I (L.getCode spec) .syntaxError ∧
    match tree with
    | none => Fails I (L.parse text file) .syntaxError
    | some t => Yields I (L.parse text file) t

/-- Worlds with `I` have the modules and scripts of the project, and looking at them leaves a world with `I`.
(Distributions: see `Shows`.) -/
structure Project.ShowsFiles (P : Project) (I : W → Prop) (env : Env W) (L : Loaders W) (T : Texts W) : Prop where
  /-- modules of the project are found -/
  found : ∀ x it, P.item x = some it → ∀ w, I w → I (env.findSpec x w).2 ∧
    ∃ spec, (env.findSpec x w).1 = .ok (some spec) ∧ spec.name = x ∧
    match it with
    | .source file .. => spec.loader = .inspect ∧ spec.origin = some file
    | .package file _ _ _ _ path _ => spec.loader = .inspect ∧ spec.origin = some file ∧
        ∃ own, spec.searchLocations = some own ∧ (P.extended x = none → own = path)
    | .namespace path => spec.loader = .namespace ∧ spec.origin = none ∧ spec.searchLocations = some path
    | .extension file => spec.loader = .extension ∧ spec.origin = some file
    | .builtin => spec.loader = .builtin
    | .compiled file .. => Comes spec file
    | .compiledPackage file _ _ _ _ path _ => Comes spec file ∧ spec.searchLocations = some path
    | .invalid file _ => spec.loader = .inspect ∧ spec.origin = some file
    | .invalidPackage file _ path _ => spec.loader = .inspect ∧ spec.origin = some file ∧
        spec.searchLocations = some path
  /-- others are not; `ModuleNotFoundError` for submodules of something that is not a package -/
  absent : ∀ x, Proper x → P.item x = none → ∀ w, I w → I (env.findSpec x w).2 ∧
    ((env.findSpec x w).1 = .ok none ∨ (env.findSpec x w).1 = .error (.moduleNotFound false))
  /-- the source of a module, its tree and code -/
  source : ∀ spec file text tree g r, (∃ w, I w ∧ (env.findSpec spec.name w).1 = .ok (some spec)) →
    (P.item spec.name = some (.source file text tree g r) ∨
      ∃ path data, P.item spec.name = some (.package file text tree g r path data)) →
    Yields I (L.getSource spec) (some text) ∧ Yields I (L.parse text file) tree ∧
    ∃ code imports, Yields I (L.getCode spec) (some code) ∧ extractBytecodeInfo L.new code = .ok (imports, g, r)
  /-- code without a source text -/
  compiled : ∀ spec file code tree g r, (∃ w, I w ∧ (env.findSpec spec.name w).1 = .ok (some spec)) →
    (P.item spec.name = some (.compiled file code tree g r) ∨
      ∃ path data, P.item spec.name = some (.compiledPackage file code tree g r path data)) →
    Yields I (L.getSource spec) none ∧ Yields I (L.getCode spec) (some code)
  code : ∀ x file code tree g r, (P.item x = some (.compiled file code tree g r) ∨
      ∃ path data, P.item x = some (.compiledPackage file code tree g r path data)) →
    CodeOf L.new code tree ∧ ∃ imports, extractBytecodeInfo L.new code = .ok (imports, g, r)
  /-- what cannot be compiled: it is found out when the source is read, or parsed, or compiled -/
  invalid : ∀ spec file tree, (∃ w, I w ∧ (env.findSpec spec.name w).1 = .ok (some spec)) →
    P.item spec.name = some (.invalid file tree) →
    (tree = none ∧ Fails I (L.getSource spec) .syntaxError) ∨
    (NotCompiled I L spec file tree ∧ Yields I (L.isPackage spec) false)
  invalidPackage : ∀ spec file tree path data, (∃ w, I w ∧ (env.findSpec spec.name w).1 = .ok (some spec)) →
    P.item spec.name = some (.invalidPackage file tree path data) → NotCompiled I L spec file tree
  isPackage : ∀ spec it, (∃ w, I w ∧ (env.findSpec spec.name w).1 = .ok (some spec)) → P.item spec.name = some it →
    (∀ file tree, it ≠ .invalid file tree) → Yields I (L.isPackage spec)
      (match it with | .package .. | .compiledPackage .. | .invalidPackage .. => true | _ => false)
  /-- packages that extend their `__path__` use `__import__`, and their text mentions what they use; the graph builder imports
  them to get the path -/
  extended : ∀ x file text tree g r path data, P.item x = some (.package file text tree g r path data) →
    match P.extended x with
    | none => c!"__import__" ∉ r ∨ ∀ ns, ¬ Setup.nsModule ns <:+: text
    | some ns => c!"__import__" ∈ r ∧ Setup.nsModule ns <:+: text ∧
        (ns = .pkgutil → ¬ Setup.nsModule .pkgResources <:+: text) ∧
        (Yields I (L.importPath x) (some path) ∨
          (∃ e, ImportFails e ∧ Fails I (L.importPath x) e) ∧
          ∀ w spec, I w → (env.findSpec x w).1 = .ok (some spec) → spec.searchLocations = some path)
  datafiles : ∀ x file text tree g r path data, P.item x = some (.package file text tree g r path data) →
    Yields I (L.containsDatafiles (P.parent file)) data
  invalidDatafiles : ∀ x file tree path data, P.item x = some (.invalidPackage file tree path data) →
    Yields I (L.containsDatafiles (P.parent file)) data
  compiledDatafiles : ∀ x file code tree g r path data,
    P.item x = some (.compiledPackage file code tree g r path data) →
    match file with
    | none => data = false
    | some file => Yields I (L.containsDatafiles (P.parent file)) data
  parent : L.parent = P.parent
  /-- scripts -/
  script : ∀ path tree, P.script path = some tree → ∃ bytes source,
    Yields I (T.readFile path) bytes ∧ Yields I (T.decode bytes) source ∧ Yields I (T.parse source path) tree ∧
    Yields I (T.compile source path) () ∧ Yields I (T.resolve path) (P.resolve path)
  /-- pieces of source code -/
  snippet : ∀ source tree, P.snippet source = some tree → Yields I (T.parse source c!"-source-code-") tree

/-- The same with the distributions. -/
structure Project.Shows (P : Project) (I : W → Prop) (env : Env W) (L : Loaders W) (T : Texts W) : Prop extends
    P.ShowsFiles I env L T where
  distribution : ∀ x it file, P.item x = some it → it.file = some file →
    Yields I (L.distributionForFile file) (P.dist file)
  /-- installed distributions -/
  installed : ∀ name d, P.installed name = some d → Yields I (env.distributionNamed name) (some d)

end Verif.Spec
