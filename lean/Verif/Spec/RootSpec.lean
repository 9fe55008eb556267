import Verif.Model.Graph
/-!
# Which roots an operation asks for
-/
namespace Verif.Spec

/-- The operation asks for `id` to be a root. -/
inductive AsksFor {W : Type} (env : Env W) : ApiOp → Str → Prop where
  | module (name : Str) : AsksFor env (.addModule name) name
  | script (path : Str) : AsksFor env (.addScript path) path
  | root (id : Str) : AsksFor env (.addRoot id) id
  | dist (d : Dist) : AsksFor env (.addDistribution d) d.identifier
  | distNamed {nm : Str} {d : Dist} {w : W} : (env.distributionNamed nm w).1 = .ok (some d) →
      AsksFor env (.addDistributionNamed nm) d.identifier
  | source {src : Str} {w : W} {infos : List ImportInfo} {i : ImportInfo} :
      (env.parseSource src w).1 = .ok infos → i ∈ infos →
      AsksFor env (.addDependenciesForSource src) i.importModule.name
  | sourceName {src : Str} {w : W} {infos : List ImportInfo} {i : ImportInfo} {nm : ImpName} :
      (env.parseSource src w).1 = .ok infos → i ∈ infos → nm ∈ i.importNames →
      AsksFor env (.addDependenciesForSource src) (i.importModule.name ++ '.' :: nm.name)

/-- Operations that ask for modules by name. -/
def _root_.Verif.ApiOp.AsksModules : ApiOp → Prop
  | .addModule _ | .addDependenciesForSource _ => True
  | _ => False

/-- Some operation in `A` asks for `id` to be a root. -/
def RootAsked {W : Type} (env : Env W) (A : ApiOp → Prop) (id : Str) : Prop := ∃ o, A o ∧ AsksFor env o id

end Verif.Spec
