import Verif.Py.Str
/-!
# Specification: dotted names

A dotted name is described by its list of components.  Nothing here refers to the
model; `dotted` is the only function, and it just puts dots between components.
-/
namespace Verif.Spec
open Verif

/-- Components joined by dots: `["a","b","c"]` is `a.b.c`. -/
def dotted : List Str → Str
  | [] => []
  | [c] => c
  | c :: d :: r => c ++ '.' :: dotted (d :: r)

/-- A component contains no dot. -/
def Comp (c : Str) : Prop := '.' ∉ c

instance (c : Str) : Decidable (Comp c) := by unfold Comp; infer_instance

/-- `IsSplit name d pre last`: `name` is `d` leading dots followed by the components
`pre` and a final component `last`.  All components in front of the last are non-empty
(no two adjacent dots), and the name is not made of dots only. -/
structure IsSplit (name : Str) (d : Nat) (pre : List Str) (last : Str) : Prop where
  eq : name = List.replicate d '.' ++ dotted (pre ++ [last])
  comps : ∀ c ∈ pre, Comp c ∧ c ≠ []
  last_comp : Comp last
  nonempty : pre = [] → last ≠ []

/-- The name `x` is below the package `p`; for `d` dots and one component that package is called by the dots. -/
def PackageOf (x p : Str) : Prop :=
  ∃ d pre last, IsSplit x d pre last ∧ (0 < d ∨ pre ≠ []) ∧ p = List.replicate d '.' ++ dotted pre

end Verif.Spec
