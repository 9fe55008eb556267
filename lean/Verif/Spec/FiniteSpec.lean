import Verif.Spec.EnvSpec
import Verif.Spec.ExplainSpec
import Verif.Spec.BuiltinSpec
/-! # Finite import environments -/
namespace Verif.Spec
open Verif
variable {W : Type}

/-- Finitely many names.  `names`: all module names that play a role; `targets`: the names that import
statements and aliases refer to; `members`: the names in the name lists of `from` imports; `limit`: the
largest number of import statements in one file. -/
structure Universe where
  names : List Str
  targets : List Str
  members : List Str
  limit : Nat

/-- An import statement in module `n` refers to names of the universe. -/
structure ImportOk (U : Universe) (n : Node) (i : ImportInfo) : Prop where
  absolute : ∀ y, Refers n i y → y ∈ U.targets
  outside : PointsOutside n i →
    List.replicate i.importLevel '.' ++ i.importModule.name ∈ U.names
  members : ∀ m ∈ i.importNames, m.name ∈ U.members

/-- All import statements of a file. -/
def ImportsOk (U : Universe) (n : Node) (imports : List ImportInfo) : Prop :=
  imports.length ≤ U.limit ∧ ∀ i ∈ imports, ImportOk U n i

/-- The same for the source file of a module compiled with mypyc, if there is one, and its helper
module. -/
def MypycOk (env : Env W) (U : Universe) (n : Node) : Prop :=
  ∀ file helper, MypycModule n file helper → ∃ source, SourceOf file source ∧
    ((∃ w, (env.isFile source w).1 = .ok true) → helper ∈ U.names ∧
      ∀ w w' code imports, (env.readBytes source w).1 = .ok code → (env.compileAst code w').1 = .ok imports →
        ImportsOk U n imports)

/-- The module found for the name `x`. -/
structure ModuleOk (env : Env W) (U : Universe) (x : Str) (n : Node) (imports : List ImportInfo) :
    Prop where
  loaded : n.isLoaded = true ∨ n.isMissing = true
  renamed : n.ident ≠ x → n.ident ∈ U.targets
  imports : ImportsOk U n imports
  mypyc : MypycOk env U n
  pkgutil : ∀ a b c d, n.kind = .package a b c d (some .pkgutil) → c!"pkgutil" ∈ U.names
  pkgResources : ∀ a b c d, n.kind = .package a b c d (some .pkgResources) → c!"pkg_resources" ∈ U.names

/-- The values of the tables of implied modules. -/
def ImpliesOk (U : Universe) : Implies → Prop
  | .excluded => True
  | .alias t => t ∈ U.targets
  | .virtual t => t ∈ U.names
  | .refs l => ∀ r ∈ l, r ∈ U.names

def TableOk (U : Universe) (l : List (Str × Implies)) : Prop := ∀ p ∈ l, p.1 ∈ U.names → ImpliesOk U p.2

/-- Only the names of the universe are involved. -/
structure FiniteImports (env : Env W) (U : Universe) : Prop where
  targets : ∀ t ∈ U.targets, t ∈ U.names
  parents : ∀ x ∈ U.names, ∀ p, PackageOf x p → p ∈ U.names
  members : ∀ t ∈ U.targets, ∀ m ∈ U.members, t ++ '.' :: m ∈ U.names
  six : ∀ m ∈ U.members, ∀ t, SixName m t → t ∈ U.names
  modules : ∀ x ∈ U.names, ∀ w spec w' n imports, Locates env x w spec →
    (env.nodeForSpec spec w').1 = .ok (n, imports) → ModuleOk env U x n imports

/-- The specification of a module that is found. -/
def _root_.Verif.Env.Finds (env : Env W) (sp : Verif.Spec) : Prop :=
  (∃ x w, Locates env x w sp) ∨ ∃ x p w, (env.findSpecRel x p w).1 = .ok (some sp)

/-- The outside world returns or raises a Python exception. -/
structure _root_.Verif.Env.Returns (env : Env W) : Prop where
  findSpec : ∀ n w, (env.findSpec n w).1 ≠ .error .fuel
  findSpecRel : ∀ n p w, (env.findSpecRel n p w).1 ≠ .error .fuel
  popModule : ∀ n w, (env.popModule n w).1 ≠ .error .fuel
  delModule : ∀ n w, (env.delModule n w).1 ≠ .error .fuel
  isPackage : ∀ sp w, (env.isPackage sp w).1 ≠ .error .fuel
  nodeForSpec : ∀ sp, env.Finds sp → ∀ w, (env.nodeForSpec sp w).1 ≠ .error .fuel
  loadScript : ∀ p w, (env.loadScript p w).1 ≠ .error .fuel
  parseSource : ∀ p w, (env.parseSource p w).1 ≠ .error .fuel
  distributionNamed : ∀ p w, (env.distributionNamed p w).1 ≠ .error .fuel
  isFile : ∀ p w, (env.isFile p w).1 ≠ .error .fuel
  readBytes : ∀ p w, (env.readBytes p w).1 ≠ .error .fuel
  compileAst : ∀ p w, (env.compileAst p w).1 ≠ .error .fuel

/-- The fake packages that `_load_module` puts in `sys.modules` are still there when looking for a
module in the package raises; and there is no module with the empty name. -/
structure _root_.Verif.Env.KeepsFakes (env : Env W) : Prop where
  stays : ∀ pkg b dir w e w', '.' ∉ b → Search env (pkg ++ '.' :: b) (env.setFake pkg dir w) (.error e) w' →
    env.inSysModules pkg w' = true
  empty : ∀ w sp, (env.findSpec [] w).1 ≠ .ok (some sp)

/-- Operations that use names of the universe, and install no hooks. -/
def OpOk (env : Env W) (U : Universe) : ApiOp → Prop
  | .addModule n => n ∈ U.names
  | .addScript p => p ∈ U.names ∧ ∀ w infos f, (env.loadScript p w).1 = .ok (infos, f) →
      ImportsOk U { ident := p, kind := .script, filename := some f } infos
  | .addDependenciesForSource src => ∀ w infos, (env.parseSource src w).1 = .ok infos →
      ∀ i ∈ infos, i.importModule.name ∈ U.names ∧
        ∀ m ∈ i.importNames, i.importModule.name ++ '.' :: m.name ∈ U.names
  | .addDistribution d => ∀ n ∈ d.importNames, n ∈ U.names
  | .addDistributionNamed name => ∀ w d, (env.distributionNamed name w).1 = .ok (some d) →
      ∀ n ∈ d.importNames, n ∈ U.names
  | .importModule _ n => n ∈ U.names
  | .addImplies l => TableOk U l
  | .runStack | .addExcludes _ | .addExcludesStr _ | .addEdge _ _ _ | .addRoot _ => True
  | .importPackage _ _ | .addMissingHook _ | .addPostHook _ | .addNode _ | .processImportList _ _ => False

end Verif.Spec
