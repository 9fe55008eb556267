import Verif.Model.Graph
/-!
# Specification vocabulary: one search for a module

`importlib.util.find_spec` with the work-arounds for odd entries of `sys.modules`.
-/
namespace Verif.Spec
open Verif
variable {W : Type}

/-- A search for the module `x` in the world `w` ends like this, in the world `w'`. -/
inductive Search (env : Env W) (x : Str) (w : W) : Except Exc (Option Verif.Spec) → W → Prop where
  /-- `find_spec` finds the module or finds out that there is none -/
  | plain {r w'} : env.findSpec x w = (.ok r, w') → Search env x w (.ok r) w'
  /-- an `AttributeError` that says that there is no `__path__`: there is no such module -/
  | noPath {w'} : env.findSpec x w = (.error (.attributeError true), w') → Search env x w (.ok none) w'
  /-- a `ValueError` about the `__spec__` of the object that `sys.modules` has for `x`: the search is
  repeated without that object -/
  | odd {w1 o w2 r w3} : env.findSpec x w = (.error (.valueError true), w1) → env.popModule x w1 = (.ok o, w2) →
      env.findSpec x w2 = (r, w3) → env.inSysModules x w3 = false → Search env x w r (env.setModule x o w3)
  /-- the same, but the object cannot be taken out -/
  | stuck {w1 e w2} : env.findSpec x w = (.error (.valueError true), w1) → env.popModule x w1 = (.error e, w2) →
      Search env x w (.error e) w2
  /-- the same, but the search puts something in its place -/
  | replaced {w1 o w2 r w3} : env.findSpec x w = (.error (.valueError true), w1) → env.popModule x w1 = (.ok o, w2) →
      env.findSpec x w2 = (r, w3) → env.inSysModules x w3 = true → Search env x w (.error .assertion) w3
  /-- a `ValueError` about something else -/
  | value {w'} : env.findSpec x w = (.error (.valueError false), w') → Search env x w (.error .assertion) w'
  /-- other exceptions -/
  | failed {e w'} : env.findSpec x w = (.error e, w') → (∀ b, e ≠ .valueError b) → e ≠ .attributeError true →
      Search env x w (.error e) w'

/-- A search for `x` finds a module. -/
def Locates (env : Env W) (x : Str) (w : W) (spec : Verif.Spec) : Prop :=
  ∃ w', Search env x w (.ok (some spec)) w'

end Verif.Spec
