import Verif.Spec.AstSpec
import Verif.Spec.Names
import Verif.Spec.GraphSpec
import Verif.Spec.FromSpec
/-!
# Specification: the edges for the import statements of a source text

Statements are read off the syntax tree; the records of the scanner do not occur here.
-/
namespace Verif.Spec
open Verif

/-- What an edge says about a statement that is nested along `way` and gives the module the name
`asname`; `fromlist`: the edge is for a name in a `from` list. -/
structure EdgeSays (way : List Via) (fromlist : Bool) (asname : Option Str) (d : DepInfo) : Prop where
  /-- optional iff within a function, an `if` or a `try` -/
  optional : d.isOptional = true ↔ .inDef ∈ way ∨ .inIf ∈ way ∨ .inTry ∈ way
  /-- global iff not within a function -/
  global : d.isGlobal = true ↔ .inDef ∉ way
  fromlist : d.inFromlist = fromlist
  asname : d.importedAs = asname

/-- The module `name`, with `level` dots in front, as seen from the node `m`, is called `t`.  The dots
drop components of the name of `m`: one less than their number if `m` is a package. -/
inductive MeansModule (nodes : List Node) (m : Node) (level : Nat) (name : Str) : Str → Prop where
  | absolute : level = 0 → MeansModule nodes m level name name
  | relative (kept rest : List Str) : 0 < level → m.ident = dotted (kept ++ rest) →
      (∀ c ∈ kept ++ rest, Comp c) → kept ≠ [] →
      rest.length = (if m.isPackage || m.isNamespacePkg then level - 1 else level) →
      MeansModule nodes m level name (dotted (kept ++ if name = [] then [] else [name]))
  | outside (comps : List Str) (t : Node) : 0 < level → comps ≠ [] → m.ident = dotted comps →
      (∀ c ∈ comps, Comp c) →
      comps.length ≤ (if m.isPackage || m.isNamespacePkg then level - 1 else level) →
      t ∈ nodes → t.isInvalidRel = true → t.ident = List.replicate level '.' ++ name →
      MeansModule nodes m level name t.ident

/-- The names in a `from` list without star that imports from the package called `t`.  They are
submodules of the package, unless the package's code has a global variable of that name (`globals`) or
the importing node is the package itself; `six.moves` is treated specially and left out here. -/
def NamesLinked (g : View) (globals : Str → List Str) (m : Node) (t : Str) (way : List Via)
    (names : List (Str × Option Str)) : Prop :=
  (∀ a, (c!"*", a) ∉ names) →
  ∀ P ∈ g.nodes, P.ident = t → P.isPackage = true ∨ P.isNamespacePkg = true → P.ident ≠ m.ident →
  ¬ IsSixMoves P → ∀ nm ∈ names, P.isNamespacePkg = true ∨ nm.1 ∉ globals t →
    (∃ x ∈ g.nodes, x.ident = t ++ '.' :: nm.1) ∧
    ∃ a d, (nm.1, a) ∈ names ∧ EdgeSays way true a d ∧ (m.ident, t ++ '.' :: nm.1, d) ∈ g.edges

/-- Every import statement in the tree, at any depth, is an edge from `m` to the module it means, and
the submodules that it imports are linked, too. -/
structure StatementsLinked (g : View) (globals : Str → List Str) (m : Node) (tree : Ast) : Prop where
  /-- `import a.b as c, d` -/
  imports : ∀ way names, Nested tree way (.import_ names) → ∀ nm ∈ names,
    ∃ d, EdgeSays way false nm.2 d ∧ (m.ident, nm.1, d) ∈ g.edges
  /-- `from ..a import b, c` -/
  froms : ∀ way name names level, Nested tree way (.importFrom name names level) →
    ∃ t d, MeansModule g.nodes m level (name.getD []) t ∧ EdgeSays way false none d ∧
      (m.ident, t, d) ∈ g.edges ∧ NamesLinked g globals m t way names

end Verif.Spec
