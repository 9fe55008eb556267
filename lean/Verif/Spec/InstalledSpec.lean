import Verif.Spec.ProjectSpec
/-!
# Projects with distributions and pieces of source code
-/
namespace Verif.Spec
open Verif

/-- What a piece of source code asks for.  Dots in front of a name do not count: there is no package that
the code is in. -/
inductive SnippetAsks (tree : Ast) : Str → Prop where
  | imports {way t a} : HasImport tree way t a → SnippetAsks tree t
  | froms {way name names level} : Nested tree way (.importFrom name names level) → SnippetAsks tree (name.getD [])
  | names {way name names level nm a} : Nested tree way (.importFrom name names level) → (nm, a) ∈ names →
      nm ≠ c!"*" → SnippetAsks tree (name.getD [] ++ '.' :: nm)

/-- The modules of distributions. -/
def distModules (dists : List Dist) : List Str := dists.flatMap Dist.importNames

namespace Project
open Setup (Called)
variable (P : Project)

/-- The client adds the modules, scripts and distributions, in any order, no script twice. -/
structure AddsAll (mods scripts : List Str) (dists : List Dist) (ops : List ApiOp) : Prop where
  module : ∀ x, x ∈ mods ↔ .addModule x ∈ ops ∨
    ∃ src tree, .addDependenciesForSource src ∈ ops ∧ P.snippet src = some tree ∧ SnippetAsks tree x
  script : ∀ x, x ∈ scripts ↔ .addScript x ∈ ops
  dist : ∀ d, d ∈ dists ↔ .addDistribution d ∈ ops ∨
    ∃ name, .addDistributionNamed name ∈ ops ∧ P.installed name = some d
  only : ∀ o ∈ ops, match o with
    | .addModule _ | .addScript _ | .addDistribution _ => True
    | .addDistributionNamed name => P.installed name ≠ none
    | .addDependenciesForSource src => P.snippet src ≠ none
    | _ => False
  once : ScriptsOnce ops

/-- The distributions are not called like modules or scripts, and no two are in the same place.  The last
condition is the one in `Clear.passedOn`, for modules that come with the same distribution. -/
structure Fits (conf : Str → Option Implies) (mods scripts : List Str) (dists : List Dist) : Prop where
  place : ∀ d ∈ dists, '/' ∈ d.identifier ∧ d.identifier.head? ≠ some '.' ∧ d.identifier ∉ scripts
  same : ∀ d ∈ dists, ∀ d' ∈ dists, d.identifier = d'.identifier → d = d'
  config : ∀ x t, conf x = some (.alias t) ∨ conf x = some (.virtual t) ∨ Implied conf x t → '/' ∉ t
  passedOn : ∀ x pkg tree way t names u nm a, P.Reached conf mods scripts (.text x pkg tree) →
    HasFrom x pkg tree way t names → P.Source conf t u → (nm, a) ∈ names → nm ≠ c!"*" → P.Defines u nm →
    ∀ b e, P.Edge conf mods scripts u b e → Called nm b e →
    ∀ d ∈ dists, ∀ m ∈ d.importNames, ∀ m' ∈ d.importNames, P.Draws conf m u → ∀ y, P.Draws conf m' y →
      ¬ P.Leads conf mods scripts y x

/-- The graph of the modules, scripts and distributions of a project. -/
structure GraphWith (conf : Str → Option Implies) (mods scripts : List Str) (dists : List Dist)
    (nodes : List Node) (edges : List (Str × Str × DepInfo)) (roots : List Str) : Prop where
  nodes : ∀ m, m ∈ nodes ↔
    (∃ x, (P.Reached conf (mods ++ distModules dists) scripts (.module x) ∨
      P.Tried conf (mods ++ distModules dists) scripts x) ∧ P.NodeOf conf x m) ∨
    (∃ path ∈ scripts, m = { ident := path, kind := .script, filename := some (P.resolve path) }) ∨
    (∃ y, P.Outside conf (mods ++ distModules dists) scripts y ∧ m = { ident := y, kind := .invalidRel }) ∨
    ∃ d ∈ dists, m = { ident := d.identifier, kind := .dist d }
  edges : ∀ a b e, (a, b, e) ∈ edges ↔ P.Edge conf (mods ++ distModules dists) scripts a b e ∨
    ∃ d ∈ dists, a = d.identifier ∧ b ∈ d.importNames ∧ e = defaultDep
  roots : ∀ x, x ∈ roots ↔ x ∈ mods ∨ x ∈ scripts ∨ ∃ d ∈ dists, x = d.identifier

end Project
end Verif.Spec
