import Verif.Model.NodeForSpec
import Verif.Spec.EnvSpec
/-! # Specification: which node a loader calls for -/
namespace Verif
variable {W : Type}

/-- What loaders tell about a module does not change while the graph is built. -/
structure Loaders.Stable (L : Loaders W) : Prop where
  source : ∀ s w w', (L.getSource s w).1 = (L.getSource s w').1
  parse : ∀ t f w w', (L.parse t f w).1 = (L.parse t f w').1
  code : ∀ s w w', (L.getCode s w).1 = (L.getCode s w').1
  package : ∀ s w w', (L.isPackage s w).1 = (L.isPackage s w').1

/-- Loaders that find the module itself. -/
def Loader.Plain : Loader → Prop
  | .none_ | .namespace | .builtin | .extension | .inspect | .frozen => True
  | _ => False

/-- Loaders that find the module under another name. -/
def Loader.Moved : Loader → Prop
  | .six | .vendor _ _ | .distutils => True
  | _ => False

namespace Spec

/-- The source or the code of the module has a syntax error. -/
def BadSyntax (L : Loaders W) (w : W) (spec : Verif.Spec) : Prop :=
  (L.getSource spec w).1 = .error .syntaxError ∨
  (∃ src f, (L.getSource spec w).1 = .ok (some src) ∧ spec.origin = some f ∧
    (L.parse src f w).1 = .error .syntaxError) ∨
  (L.getCode spec w).1 = .error .syntaxError

/-- The class of module the loader calls for. -/
inductive ClassOf (L : Loaders W) (w : W) (spec : Verif.Spec) : ModKind → Prop where
  | builtin : spec.loader = .builtin → ClassOf L w spec .builtin
  | extension : spec.loader = .extension → ClassOf L w spec .extension
  | invalid : spec.loader = .inspect ∨ spec.loader = .frozen → BadSyntax L w spec →
      ClassOf L w spec .invalid
  | frozen : spec.loader = .frozen → ¬ BadSyntax L w spec → ClassOf L w spec .frozen
  | source (src) : spec.loader = .inspect → ¬ BadSyntax L w spec →
      (L.getSource spec w).1 = .ok (some src) → ClassOf L w spec .source
  | bytecode : spec.loader = .inspect → ¬ BadSyntax L w spec →
      (L.getSource spec w).1 = .ok none → ClassOf L w spec .bytecode

/-- The class of a module node, or of the `__init__` of a package. -/
def codeClass (n : Node) : Option ModKind :=
  match n.kind with
  | .module k => some k
  | .package _ init _ _ _ => some init.kind
  | _ => none

end Spec
end Verif
