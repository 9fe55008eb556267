import Verif.Model.Distributions
import Verif.Model.NodeForSpec
/-!
# The graph builder with the model of `_distributions.py`

`ModuleGraph` and `node_for_spec` use the functions of `_distributions.py`.  Their state, among it the dictionary
of distributions that were read before, is a part of the world.
-/
namespace Verif
variable {V W : Type}

/-- The part of the world `V` that belongs to `_distributions.py`. -/
structure DistPart (V W : Type) where
  get : V → DSt W
  put : DSt W → V → V

/-- A lookup; only the contents of the distribution matter, not the identity of the object. -/
def DistPart.lookup (p : DistPart V W) (f : DSt W → Except Exc (Option DObj) × DSt W) : Ext V (Option Dist) := fun v =>
  let r := f (p.get v)
  (r.1.map (Option.map DObj.dist), p.put r.2 v)

/-- `_modulegraph.py` 224: `distribution_named(distribution)`. -/
def Env.withDists (D : DistEnv W) (p : DistPart V W) (env : Env V) : Env V :=
  { env with distributionNamed := fun x => p.lookup (Verif.distributionNamed D x none) }

/-- `_modulegraph.py` 644 with `_graphbuilder.py` 212, 241, 306, 349: `distribution_for_file(spec.origin, sys.path)`. -/
def Loaders.withDists (D : DistEnv W) (p : DistPart V W) (L : Loaders V) : Loaders V :=
  { L with distributionForFile := fun file => p.lookup fun s => Verif.distributionForFile D file (some (D.sysPath s.world)) s }

end Verif
