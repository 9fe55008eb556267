import Verif.Spec.EnvSpec
import Verif.Spec.SixSpec
/-!
# Specification: what `from module import name` leads to
-/
namespace Verif.Spec
open Verif
variable {W : Type}

/-- The module that a `from` import takes its names from: the imported module or, for an alias, the
module it stands for. -/
def Source (s : St W) (imported src : Node) : Prop :=
  (imported = src ∧ ∀ t, imported.kind ≠ .alias t) ∨
    (imported.kind = .alias src.ident ∧ s.find src.ident = some src)

/-- `importing` has an edge to `t` that says that it was imported by name `nm` of the statement. -/
def NameEdge (importing : Node) (info : ImportInfo) (nm : ImpName) (t : Str) (s : St W) : Prop :=
  (importing.ident, t,
    ({ isOptional := info.isOptional, isGlobal := info.isGlobal, inFromlist := true,
       importedAs := nm.asname } : DepInfo)) ∈ s.edges

/-- `src` has imported `t` under the name `nm`, or `t` is called `nm`. -/
def Reexports (src : Node) (t nm : Str) (s : St W) : Prop :=
  ∃ d, (src.ident, t, d) ∈ s.edges ∧ (d.importedAs = some nm ∨ t = nm)

/-- The pseudo package `six.moves`. -/
def IsSixMoves (src : Node) : Prop :=
  ∃ a init b c d, src.kind = .package a init b c d ∧ init.name = c!"@@SIX_MOVES@@"

/-- There is a node for the submodule `nm`, linked with its package and the importing module.  Below
`six.moves` this happens for submodules that exist and for names `six` does not know. -/
def SubmoduleLinked (importing src : Node) (info : ImportInfo) (nm : ImpName) (s : St W) : Prop :=
  (∃ m ∈ s.nodes, m.ident = src.ident ++ '.' :: nm.name) ∧
    NameEdge importing info nm (src.ident ++ '.' :: nm.name) s ∧
    (src.ident ++ '.' :: nm.name, src.ident,
      ({ isOptional := false, isGlobal := true, inFromlist := false, importedAs := none } : DepInfo))
      ∈ s.edges ∧
    (IsSixMoves src → (∃ m ∈ s.nodes, m.ident = src.ident ++ '.' :: nm.name ∧ m.isMissing = false) ∨
      ∀ t, ¬ SixName nm.name t)

/-- The submodule `nm` does not exist. -/
def SubmoduleMissing (src : Node) (nm : ImpName) (s : St W) : Prop :=
  ∃ m ∈ s.nodes, m.ident = src.ident ++ '.' :: nm.name ∧ m.isMissing = true

/-- `six.moves` sends the import to another module. -/
def SentElsewhere (importing src : Node) (nm : ImpName) (s : St W) : Prop :=
  IsSixMoves src ∧ SubmoduleMissing src nm s ∧ ∃ t, SixName nm.name t ∧
    (importing.ident, t,
      ({ isOptional := false, isGlobal := true, inFromlist := false, importedAs := none } : DepInfo)) ∈ s.edges

/-- Iterating over the successors of a node gives all of them, in some order. -/
def _root_.Verif.Env.OrderExact (env : Env W) : Prop := ∀ w l x, x ∈ env.outOrder w l ↔ x ∈ l

end Verif.Spec
