import Verif.Spec.ExactSpec
/-!
# When building a graph cannot fail

Conditions on a setup and on the outside world.
-/
namespace Verif.Spec
open Verif

namespace Setup
variable (S : Setup)

/-- What loading the module `x` brings with it, before any import statement is looked at. -/
inductive Brings (x : Str) : Str → Prop where
  | self : Brings x x
  | package {y p} : Brings x y → HasPackage y p → Brings x p
  | alias {y n t} : Brings x y → S.NodeFor y n → (n.kind = .alias t ∨ n.kind = .virtual t) → Brings x t
  | implied {y l r} : Brings x y → S.Open y → S.conf y = some (.refs l) → r ∈ l → Brings x r
  | explicitNamespace {y n fr init sp hd ns} : Brings x y → S.NodeFor y n →
      n.kind = .package fr init sp hd (some ns) → Brings x (nsModule ns)

/-- Nothing that is needed can make the graph builder stumble. -/
structure Safe : Prop where
  /-- names have no empty parts -/
  names : ∀ x, S.NeedsModule x → ∃ pre last, IsSplit x 0 pre last
  /-- namespace packages have no import statements -/
  noCode : ∀ x n infos, S.mods x = some (n, infos) → n.isNamespacePkg = true → infos = []
  /-- loading a missing or excluded package does not bring a module of that package -/
  once : ∀ y p q, S.NeedsModule y → HasPackage y p → S.NodeFor p q →
    (q.isMissing = true ∨ q.isExcluded = true) → ¬ S.Brings p y

/-- `source` would be the source of a module that was compiled with mypyc. -/
def MypycSource (source : Str) : Prop :=
  ∃ n file helper, S.HasNode n ∧ MypycModule n file helper ∧ SourceOf file source

end Setup
end Verif.Spec

namespace Verif
open Spec
variable {W : Type}

/-- The file is there, and its text is a program or has a syntax error. -/
structure Spec.ReadsSource (env : Env W) (source : Str) : Prop where
  read : ∀ w, ∃ code, (env.readBytes source w).1 = .ok code
  parsed : ∀ w w' code, (env.readBytes source w).1 = .ok code →
    (∃ l, (env.compileAst code w').1 = .ok l) ∨ (env.compileAst code w').1 = .error .syntaxError

/-- Searching and reading the needed modules, scripts, distributions and source code works. -/
structure Spec.Setup.Works (S : Setup) (env : Env W) : Prop where
  finds : ∀ x w, S.NeedsModule x → ∃ w', (∃ r, Search env x w (.ok r) w') ∨
    Search env x w (.error (.moduleNotFound false)) w'
  reads : ∀ x spec w w', S.NeedsModule x → Locates env x w spec →
    ∃ p, (env.nodeForSpec spec w').1 = .ok p
  scripts : ∀ path w, S.asksScript path → ∃ p, (env.loadScript path w).1 = .ok p
  distributions : ∀ name d w, S.dists name = some d → S.asksDist d →
    ∃ d', (env.distributionNamed name w).1 = .ok (some d')
  sources : ∀ src infos w, S.sources src = some infos → ∃ l, (env.parseSource src w).1 = .ok l
  compiled : ∀ source w, S.MypycSource source → (env.isFile source w).1 = .ok false ∨
    ((env.isFile source w).1 = .ok true ∧ ReadsSource env source)

/-- Searching and reading the needed modules, scripts, distributions and source code keeps the property `I` of the outside world. -/
structure Spec.Setup.Stays (S : Setup) (env : Env W) (I : W → Prop) : Prop where
  finds : ∀ x w r w', S.NeedsModule x → I w → Search env x w r w' → I w'
  reads : ∀ x spec w w', S.NeedsModule x → Locates env x w spec → I w' →
    I (env.nodeForSpec spec w').2
  scripts : ∀ path w, S.asksScript path → I w → I (env.loadScript path w).2
  distributions : ∀ name d w, S.dists name = some d → S.asksDist d → I w → I (env.distributionNamed name w).2
  sources : ∀ src infos w, S.sources src = some infos → I w → I (env.parseSource src w).2
  looks : ∀ source w, S.MypycSource source → I w → I (env.isFile source w).2
  opens : ∀ source w, S.MypycSource source → (∃ w', (env.isFile source w').1 = .ok true) → I w →
    I (env.readBytes source w).2
  parses : ∀ source w w' code, S.MypycSource source → (∃ w', (env.isFile source w').1 = .ok true) →
    (env.readBytes source w).1 = .ok code → I w' → I (env.compileAst code w').2

theorem Spec.Setup.Stays.trivial (S : Setup) (env : Env W) : S.Stays env fun _ => True :=
  ⟨fun _ _ _ _ _ _ _ => True.intro, fun _ _ _ _ _ _ _ => True.intro, fun _ _ _ _ => True.intro,
    fun _ _ _ _ _ _ => True.intro, fun _ _ _ _ _ => True.intro, fun _ _ _ _ => True.intro, fun _ _ _ _ _ => True.intro, fun _ _ _ _ _ _ _ _ => True.intro⟩

/-- In a world with `I` the operation returns `a`, and that leaves a world with `I`. -/
def Spec.Yields {α : Type} (I : W → Prop) (x : Ext W α) (a : α) : Prop := ∀ w, I w → (x w).1 = .ok a ∧ I (x w).2

/-- `n` is a node of the graph or of a module that is not needed. -/
def Spec.Setup.InSetup (S : Setup) (n : Node) : Prop := S.HasNode n ∨ ∃ x infos, S.mods x = some (n, infos)

/-- Worlds with `I` have what the setup says about the node `n` being compiled with mypyc. -/
inductive Spec.Setup.CompiledShown (S : Setup) (I : W → Prop) (env : Env W) (n : Node) : Prop where
  | no : (∀ file helper, ¬ MypycModule n file helper) → S.compiled n = none → CompiledShown S I env n
  | noSource {file helper source} : MypycModule n file helper → SourceOf file source → S.compiled n = none →
      Yields I (env.isFile source) false → CompiledShown S I env n
  | source {file helper source infos code} : MypycModule n file helper → SourceOf file source →
      S.compiled n = some (helper, infos) → Yields I (env.isFile source) true →
      Yields I (env.readBytes source) code → Yields I (env.compileAst code) infos → CompiledShown S I env n
  /-- the source has a syntax error -/
  | invalid {file helper source code} : MypycModule n file helper → SourceOf file source →
      S.compiled n = some (helper, []) → Yields I (env.isFile source) true → Yields I (env.readBytes source) code →
      (∀ w, I w → (env.compileAst code w).1 = .error .syntaxError ∧ I (env.compileAst code w).2) →
      CompiledShown S I env n

/-- Worlds with `I` have the modules, scripts, distributions and source code of the setup, and searching and reading these leaves a world
with `I`. -/
structure Spec.Setup.ShownIn (S : Setup) (I : W → Prop) (env : Env W) : Prop where
  found : ∀ x p, S.mods x = some p → ∀ w, I w → ∃ spec, (env.findSpec x w).1 = .ok (some spec) ∧
    I (env.findSpec x w).2 ∧ Yields I (env.nodeForSpec spec) p
  absent : ∀ x, S.NeedsModule x → S.mods x = none → ∀ w, I w → ((env.findSpec x w).1 = .ok none ∨
    (env.findSpec x w).1 = .error (.moduleNotFound false)) ∧ I (env.findSpec x w).2
  script : ∀ path, S.asksScript path → ∃ r, S.scripts path = some r ∧ Yields I (env.loadScript path) r
  distribution : ∀ name d, S.dists name = some d → S.asksDist d → Yields I (env.distributionNamed name) (some d)
  source : ∀ src infos, S.sources src = some infos → Yields I (env.parseSource src) infos
  compiled : ∀ n, S.InSetup n → S.CompiledShown I env n

/-- No script is added twice. -/
def ScriptsOnce (ops : List ApiOp) : Prop :=
  ops.Pairwise fun o o' => ∀ path, o = .addScript path → o' ≠ .addScript path

end Verif
