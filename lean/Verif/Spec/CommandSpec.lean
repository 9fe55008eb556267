import Verif.Spec.MainSpec
import Verif.Spec.ProjectSpec
/-!
# The command line on a project
-/
namespace Verif.Spec
open Verif
variable {W : Type}

/-- The graph of a project. -/
structure Project.GraphOf (P : Project) (conf : Str → Option Implies) (mods scripts : List Str) (g : View) : Prop where
  nodes : ∀ m, m ∈ g.nodes ↔
    (∃ x, (P.Reached conf mods scripts (.module x) ∨ P.Tried conf mods scripts x) ∧ P.NodeOf conf x m) ∨
      (∃ path ∈ scripts, m = { ident := path, kind := .script, filename := some (P.resolve path) }) ∨
      ∃ y, P.Outside conf mods scripts y ∧ m = { ident := y, kind := .invalidRel }
  edges : ∀ a b d, (a, b, d) ∈ g.edges ↔ P.Edge conf mods scripts a b d
  roots : ∀ x, x ∈ g.roots ↔ x ∈ mods ∨ x ∈ scripts

/-- What the command line asks for: modules, or scripts. -/
inductive Asked (argv : List Arg) : List Str → List Str → Prop where
  | modules {l} : groups argv = [l] → l ≠ [] → (nodeTypes argv).getLast?.getD .module = .module → Asked argv l []
  | scripts {l} : groups argv = [l] → l ≠ [] → l.Nodup → (nodeTypes argv).getLast?.getD .module = .script →
      Asked argv [] l

/-- The place can be written to. -/
def Writable (o : Output W) (f : Files W) : Option Str → Prop
  | none => ∀ t w, (o.stdout t w).1 = .ok ()
  | some file => (∀ w, ∃ h, (o.openFile file w).1 = .ok h) ∧
      (∀ h t w, f.handle w h ≠ none → (o.write h t w).1 = .ok ()) ∧ ∀ h w, f.handle w h ≠ none → (o.close h w).1 = .ok ()

end Verif.Spec
