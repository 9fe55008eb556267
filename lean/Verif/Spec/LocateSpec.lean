import Verif.Model.Graph
import Verif.Spec.ExcSpec
import Verif.Spec.SearchSpec
/-!
# Specification vocabulary: searching for a module

`importlib.util.find_spec("p.x")` imports the package `p`, which may go wrong in many ways.
-/
namespace Verif.Spec
open Verif
variable {W : Type}

/-- The package `p` of `x = p.b` is found by a second search, after a search for `x` that failed. -/
structure Second (env : Env W) (x p : Str) (w : W) (isPackage : Bool) (spec : Verif.Spec) (w' : W) : Prop where
  name : ∃ b, '.' ∉ b ∧ x = p ++ '.' :: b
  failed : ∃ e w1 w2, Search env x w (.error e) w1 ∧ IsException e ∧ e ≠ .moduleNotFound false ∧
    env.inSysModules p w1 = false ∧ env.findSpec p w1 = (.ok (some spec), w2) ∧
    env.isInspectLoader spec.loader w2 = true ∧ env.isPackage spec w2 = (.ok isPackage, w')

/-- The file `name` is in the directory `dir`; more than one slash between the two counts as one. -/
def FileIn (dir name file : Str) : Prop :=
  '/' ∉ name ∧ ∃ k, let slashes := List.replicate (k + 1) '/'
    (dir ≠ [] ∧ dir.getLast? ≠ some '/' ∧ file = dir ++ slashes ++ name) ∨ (dir = slashes ∧ file = slashes ++ name)

/-- The package of `x` is found, but cannot be imported: an object with the right `__path__` is put in its place. -/
def Retry (env : Env W) (x : Str) (w w' : W) : Prop :=
  ∃ p spec w1 dir ext file, Second env x p w true spec w1 ∧ FileIn dir (c!"__init__." ++ ext) file ∧
    spec.origin = some file ∧ w' = env.setFake p dir w1

/-- The module is found, at once or with an object in place of its package. -/
def Finds (env : Env W) (x : Str) (w : W) (spec : Verif.Spec) (w' : W) : Prop :=
  Search env x w (.ok (some spec)) w' ∨ ∃ w1, Retry env x w w1 ∧ Search env x w1 (.ok (some spec)) w'

/-- There is no such module: it is not found, or its package is not a package. -/
def Misses (env : Env W) (x : Str) (w : W) (w' : W) : Prop :=
  Search env x w (.ok none) w' ∨ Search env x w (.error (.moduleNotFound false)) w' ∨
    ∃ p spec, Second env x p w false spec w'

/-- There is no such module, also after a second search. -/
def NotThere (env : Env W) (x : Str) (w : W) (w' : W) : Prop :=
  Misses env x w w' ∨ ∃ w1, Retry env x w w1 ∧ Misses env x w1 w'

end Verif.Spec
