import Verif.Spec.ProjectSpec
/-!
# Modules that are passed on
-/
namespace Verif.Spec
open Verif

/-- The code of the module `u` imports the module `b` and has it under the name `nm`: with `import b` or
`import b as nm`, or from a module that has it. -/
inductive Project.Passes (P : Project) (conf : Str → Option Implies) : Str → Str → Str → Prop where
  | imports {u tree nm way b a} : P.HasText conf u false tree → nm ∈ P.globals u → HasImport tree way b a →
      a = some nm ∨ b = nm → Passes P conf u nm b
  | from {u tree nm way t names v nm' a b} : P.HasText conf u false tree → nm ∈ P.globals u →
      HasFrom u false tree way t names → P.Source conf t v → (nm', a) ∈ names → nm' ≠ c!"*" →
      Passes P conf v nm' b → a = some nm ∨ b = nm → Passes P conf u nm b

end Verif.Spec
