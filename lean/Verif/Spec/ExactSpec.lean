import Verif.Spec.BuiltinSpec
import Verif.Spec.ExplainSpec
import Verif.Spec.FromSpec
/-!
# What a graph should contain

A declarative description of the graph for a fixed set of modules: which nodes and which edges are
needed by what the client asked for.  Nothing here depends on an order of work: the description
does not use the queue, the state or any of the functions of the model that load modules.
-/
namespace Verif.Spec
open Verif

/-- `x` is `p.last`. -/
def HasPackage (x p : Str) : Prop := ∃ last, x = p ++ '.' :: last ∧ '.' ∉ last

/-- What the client configured: `excludes`, and a list of implied modules, the later ones overrule the
earlier ones, nothing overrules an exclude.  `__main__` is always excluded. -/
def configured (excludes : List Str) (implies : List (Str × Implies)) (x : Str) : Option Implies :=
  if x = c!"__main__" ∨ x ∈ excludes ∨ (x, .excluded) ∈ implies then some .excluded
  else (implies.reverse.find? fun p => p.1 = x).map Prod.snd

/-- Everything that determines a graph: what is configured, the modules that can be found (a node and
the import statements in the module), the scripts (their import statements and the file), the
distributions by name, pieces of source code, modules compiled with mypyc, and what the client asks
for. -/
structure Setup where
  conf : Str → Option Implies
  mods : Str → Option (Node × List ImportInfo)
  scripts : Str → Option (List ImportInfo × Str)
  asksModule : Str → Prop
  asksScript : Str → Prop
  /-- the installed distributions -/
  dists : Str → Option Dist := fun _ => none
  /-- the import statements in pieces of source code -/
  sources : Str → Option (List ImportInfo) := fun _ => none
  asksDist : Dist → Prop := fun _ => False
  /-- for the modules compiled with mypyc that have their source next to them: the helper module and
  the import statements in the source -/
  compiled : Node → Option (Str × List ImportInfo) := fun _ => none

/-- A piece of source code with these import statements asks for the module `x`. -/
def InSource (infos : List ImportInfo) (x : Str) : Prop :=
  ∃ i ∈ infos, x = i.importModule.name ∨ ∃ nm ∈ i.importNames, x = i.importModule.name ++ '.' :: nm.name

namespace Setup
variable (S : Setup)

/-- The node for `x`, if nothing is wrong with its package. -/
inductive Own : Str → Node → Prop where
  | excluded {x} : S.conf x = some .excluded → Own x { ident := x, kind := .excluded }
  | alias {x t} : S.conf x = some (.alias t) → Own x { ident := x, kind := .alias t }
  | virtual {x t} : S.conf x = some (.virtual t) → Own x { ident := x, kind := .virtual t }
  | found {x n infos} : (S.conf x = none ∨ ∃ l, S.conf x = some (.refs l)) →
      S.mods x = some (n, infos) → n.ident = x → Own x n
  | foundAs {x n infos} : (S.conf x = none ∨ ∃ l, S.conf x = some (.refs l)) →
      S.mods x = some (n, infos) → n.ident ≠ x → Own x { ident := x, kind := .alias n.ident }
  | absent {x} : (S.conf x = none ∨ ∃ l, S.conf x = some (.refs l)) → S.mods x = none →
      Own x { ident := x, kind := .missing }

/-- The node for `x`. -/
inductive NodeFor : Str → Node → Prop where
  | top {x n} : '.' ∉ x → S.Own x n → NodeFor x n
  | sub {x p q n} : HasPackage x p → NodeFor p q → q.isMissing = false → q.isExcluded = false →
      S.Own x n → NodeFor x n
  | inMissing {x p q} : HasPackage x p → NodeFor p q → q.isMissing = true →
      NodeFor x { ident := x, kind := .missing }
  | inExcluded {x p q} : HasPackage x p → NodeFor p q → q.isExcluded = true →
      NodeFor x { ident := x, kind := .excluded }

/-- The package of `x`, if it has one, is neither missing nor excluded. -/
def Open (x : Str) : Prop :=
  '.' ∉ x ∨ ∃ p q, HasPackage x p ∧ S.NodeFor p q ∧ q.isMissing = false ∧ q.isExcluded = false

/-- The module from which a `from` import that leads to `b` takes its names. -/
def Source (b c : Node) : Prop :=
  (c = b ∧ ∀ t, b.kind ≠ .alias t) ∨ (b.kind = .alias c.ident ∧ S.NodeFor c.ident c)

/-- `c` is `six.moves` and it has no submodule `nm`, so who imports that name is sent to the module `r`. -/
def Sent (c : Node) (nm r : Str) : Prop :=
  IsSixMoves c ∧ SixName nm r ∧ ∃ n, S.NodeFor (c.ident ++ '.' :: nm) n ∧ n.isMissing = true

/-- The module that implements the kind of namespace package. -/
def nsModule : NsType → Str
  | .pkgutil => c!"pkgutil"
  | .pkgResources => c!"pkg_resources"

/-- The node of a script. -/
def scriptNode (path file : Str) : Node := { ident := path, kind := .script, filename := some file }

/-- The node of a distribution. -/
def distributionNode (d : Dist) : Node := { ident := d.identifier, kind := .dist d }

/-- What the graph has to deal with: module names and import statements. -/
inductive Thing where
  /-- the module `x`; `tried`: it is only a submodule that a `from` import may mean -/
  | module (x : Str) (tried : Bool)
  /-- the statement `i` in `m` -/
  | statement (m : Node) (i : ImportInfo)

/-- What is needed, by what the client asked for. -/
inductive Needs : Thing → Prop where
  | asked {x} : S.asksModule x → Needs (.module x false)
  | distribution {d x} : S.asksDist d → x ∈ d.importNames → Needs (.module x false)
  | package {x p tr} : Needs (.module x tr) → HasPackage x p → Needs (.module p false)
  | alias {x n t tr} : Needs (.module x tr) → S.NodeFor x n →
      (n.kind = .alias t ∨ n.kind = .virtual t) → Needs (.module t false)
  | implied {x l r tr} : Needs (.module x tr) → S.Open x → S.conf x = some (.refs l) →
      r ∈ l → Needs (.module r false)
  | implying {x l} : Needs (.module x true) → S.Open x → S.conf x = some (.refs l) → Needs (.module x false)
  | explicitNamespace {x n fr init sp hd ns tr} : Needs (.module x tr) → S.NodeFor x n →
      n.kind = .package fr init sp hd (some ns) → Needs (.module (nsModule ns) false)
  | inScript {path infos file i} : S.asksScript path → S.scripts path = some (infos, file) →
      i ∈ infos → Needs (.statement (scriptNode path file) i)
  | inModule {x n infos i tr} : Needs (.module x tr) → S.NodeFor x n →
      S.mods n.ident = some (n, infos) → i ∈ infos → Needs (.statement n i)
  | helper {x n h infos tr} : Needs (.module x tr) → S.NodeFor x n → S.compiled n = some (h, infos) →
      Needs (.module h false)
  | inCompiled {x n h infos i tr} : Needs (.module x tr) → S.NodeFor x n → S.compiled n = some (h, infos) →
      i ∈ infos → Needs (.statement n i)
  | target {m i t} : Needs (.statement m i) → Refers m i t → Needs (.module t false)
  | name {m i t b c nm} : Needs (.statement m i) → Refers m i t → S.NodeFor t b → S.Source b c →
      (c.isPackage = true ∨ c.isNamespacePkg = true) → i.starImport = false → nm ∈ i.importNames →
      Needs (.module (c.ident ++ '.' :: nm.name) true)
  | sixMoves {m i t b c nm r} : Needs (.statement m i) → Refers m i t → S.NodeFor t b → S.Source b c →
      i.starImport = false → nm ∈ i.importNames → S.Sent c nm.name r → Needs (.module r false)

/-- The module `x` is needed. -/
def NeedsModule (x : Str) : Prop := ∃ tr, S.Needs (.module x tr)

/-- The statement `i` in `m` imports the name `nm` from `c`. -/
def FromImport (m : Node) (i : ImportInfo) (c : Node) (nm : ImpName) : Prop :=
  S.Needs (.statement m i) ∧ i.starImport = false ∧ nm ∈ i.importNames ∧
    ∃ t b, Refers m i t ∧ S.NodeFor t b ∧ S.Source b c

/-- The name `nm` in `c` is taken to be a submodule: there is such a module, or `c` does not define
the name.  In `six.moves`: there is such a module, or the name is not in its table. -/
def IsSubmodule (c : Node) (nm : Str) : Prop :=
  (∃ n, S.NodeFor (c.ident ++ '.' :: nm) n ∧ n.isMissing = false) ∨
  (IsSixMoves c ∧ ∀ r, ¬ SixName nm r) ∨
  (¬ IsSixMoves c ∧ (c.isNamespacePkg = true ∨ nm ∉ c.globalsWritten))

/-- By an edge to `b` that says `d`, a module has `b` under the name `nm`. -/
def Called (nm b : Str) (d : DepInfo) : Prop := d.importedAs = some nm ∨ b = nm

/-- The nodes of the graph. -/
inductive HasNode : Node → Prop where
  | module {x n} : S.NeedsModule x → S.NodeFor x n → HasNode n
  | script {path infos file} : S.asksScript path → S.scripts path = some (infos, file) →
      HasNode (scriptNode path file)
  | distribution {d} : S.asksDist d → HasNode (distributionNode d)
  | invalid {m i} : S.Needs (.statement m i) → PointsOutside m i →
      HasNode { ident := List.replicate i.importLevel '.' ++ i.importModule.name, kind := .invalidRel }

/-- The edges of the graph. -/
inductive HasEdge : Str → Str → DepInfo → Prop where
  | statement {m i t} : S.Needs (.statement m i) → Refers m i t →
      HasEdge m.ident t ⟨i.isOptional, i.isGlobal, false, i.importModule.asname⟩
  | invalid {m i} : S.Needs (.statement m i) → PointsOutside m i →
      HasEdge m.ident (List.replicate i.importLevel '.' ++ i.importModule.name)
        ⟨i.isOptional, i.isGlobal, false, none⟩
  | distribution {d x} : S.asksDist d → x ∈ d.importNames → HasEdge d.identifier x defaultDep
  | package {x p} : S.Needs (.module x false) → HasPackage x p → HasEdge x p defaultDep
  | packageOfFound {x p n} : S.Needs (.module x true) → S.NodeFor x n → n.isMissing = false →
      HasPackage x p → HasEdge x p defaultDep
  | alias {x n t} : S.NeedsModule x → S.NodeFor x n → (n.kind = .alias t ∨ n.kind = .virtual t) →
      HasEdge x t defaultDep
  | implied {x l r} : S.NeedsModule x → S.Open x → S.conf x = some (.refs l) → r ∈ l →
      HasEdge x r defaultDep
  | explicitNamespace {x n fr init sp hd ns} : S.NeedsModule x → S.NodeFor x n →
      n.kind = .package fr init sp hd (some ns) → HasEdge x (nsModule ns) defaultDep
  | helper {x n h infos} : S.NeedsModule x → S.NodeFor x n → S.compiled n = some (h, infos) →
      HasEdge x h defaultDep
  | fromName {m i c nm} : S.FromImport m i c nm → (c.isPackage = true ∨ c.isNamespacePkg = true) →
      S.IsSubmodule c nm.name →
      HasEdge m.ident (c.ident ++ '.' :: nm.name) ⟨i.isOptional, i.isGlobal, true, nm.asname⟩
  | fromPackage {m i c nm} : S.FromImport m i c nm →
      (c.isPackage = true ∨ c.isNamespacePkg = true) → S.IsSubmodule c nm.name →
      HasEdge (c.ident ++ '.' :: nm.name) c.ident defaultDep
  /-- a name that `six.moves` has from another module -/
  | sixMoves {m i c nm r} : S.FromImport m i c nm → S.Sent c nm.name r → HasEdge m.ident r defaultDep
  /-- a module that the module `c` imports, imported from `c` -/
  | passedOn {m i c nm b d} : S.FromImport m i c nm → c.isModule = true → nm.name ∈ c.globalsWritten →
      HasEdge c.ident b d → Called nm.name b d → HasEdge m.ident b ⟨i.isOptional, i.isGlobal, true, nm.asname⟩

/-- The roots that were asked for. -/
def AsksRoot (x : Str) : Prop :=
  S.asksModule x ∨ S.asksScript x ∨ ∃ d, S.asksDist d ∧ x = d.identifier

/-- The roots of the graph. -/
def HasRoot (x : Str) : Prop := S.AsksRoot x ∨ ∃ n infos, S.HasNode n ∧ S.compiled n = some (x, infos)

/-- There is a module compiled with mypyc. -/
def HasMypyc : Prop := ∃ n file helper, S.HasNode n ∧ MypycModule n file helper

/-- Names that the module `x` may define: by its own code or by `from` imports. -/
inductive MayDefine : Str → Str → Prop where
  | own {n nm} : S.HasNode n → nm ∈ n.globalsWritten → MayDefine n.ident nm
  | byName {m i nm} : S.Needs (.statement m i) → nm ∈ i.importNames → MayDefine m.ident nm.name
  | byStar {m i t nm} : S.Needs (.statement m i) → i.starImport = true → Refers m i t →
      MayDefine t nm → MayDefine m.ident nm

/-- There is a path from `x` to `y` in the graph. -/
inductive Leads : Str → Str → Prop where
  | here {x} : Leads x x
  | on {x y z d} : Leads x y → S.HasEdge y z d → Leads x z

/-- The edges that are made for the statement `j` in `m`. -/
inductive ByStatement (m : Node) (j : ImportInfo) : Str → DepInfo → Prop where
  | target {t} : Refers m j t → ByStatement m j t ⟨j.isOptional, j.isGlobal, false, j.importModule.asname⟩
  | submodule {c nm} : S.FromImport m j c nm → (c.isPackage = true ∨ c.isNamespacePkg = true) →
      S.IsSubmodule c nm.name → ByStatement m j (c.ident ++ '.' :: nm.name) ⟨j.isOptional, j.isGlobal, true, nm.asname⟩
  | sixMoves {c nm r} : S.FromImport m j c nm → S.Sent c nm.name r → ByStatement m j r defaultDep
  | passedOn {c nm b d} : S.FromImport m j c nm → c.isModule = true → nm.name ∈ c.globalsWritten →
      S.HasEdge c.ident b d → Called nm.name b d → ByStatement m j b ⟨j.isOptional, j.isGlobal, true, nm.asname⟩

/-- The module `x` does not only stand for itself. -/
def Linked (x : Str) : Prop :=
  S.conf x ≠ none ∨ ∃ n infos, S.mods x = some (n, infos) ∧
    (n.ident ≠ x ∨ ∃ fr init sp hd ns, n.kind = .package fr init sp hd (some ns))

/-- What may come with the module `x` before any import statement is looked at. -/
inductive Draws (x : Str) : Str → Prop where
  | self : Draws x x
  | package {y p} : Draws x y → InPackage y p → Draws x p
  | alias {y t} : Draws x y → (S.conf y = some (.alias t) ∨ S.conf y = some (.virtual t)) → Draws x t
  | implied {y l r} : Draws x y → S.conf y = some (.refs l) → r ∈ l → Draws x r
  | foundAs {y n infos} : Draws x y → S.mods y = some (n, infos) → Draws x n.ident
  | explicitNamespace {y n infos fr init sp hd ns} : Draws x y → S.mods y = some (n, infos) →
      n.kind = .package fr init sp hd (some ns) → Draws x (nsModule ns)

/-- What may come with the module `x` when its package is already there. -/
def DrawsIn (x z : Str) : Prop := z = x ∨ (S.Linked x ∧ S.Draws x z)

/-- What may come with the name `nm` that is imported from `e`. -/
def DrawsFrom (e : Node) (nm z : Str) : Prop :=
  S.DrawsIn (e.ident ++ '.' :: nm) z ∨ ∃ r, S.Sent e nm r ∧ S.Draws r z

/-- The statements of `y` may be looked at while those of `c` are waiting, because both modules came
with the same module, with the same distribution, or with names in the same statement. -/
inductive Over (c : Str) : Str → Prop where
  | self : Over c c
  | linked {y} : S.Linked c → S.Draws c y → Over c y
  | together {r y} : S.NeedsModule r → r ≠ c → S.Draws r c → S.Draws r y → Over c y
  | distribution {d a b y} : S.asksDist d → a ∈ d.importNames → b ∈ d.importNames → S.Draws a c →
      S.Draws b y → Over c y
  | names {m i e nm nm' y} : S.FromImport m i e nm → S.FromImport m i e nm' →
      (e.isPackage = true ∨ e.isNamespacePkg = true) → S.DrawsFrom e nm.name c →
      S.DrawsFrom e nm'.name y → Over c y

/-- The statements of `m` may be looked at while those of `c` are waiting.  The statements in the
sources of modules compiled with mypyc are found late. -/
def Behind (c m : Str) : Prop := (∃ y, S.Over c y ∧ S.Leads y m) ∨ S.HasMypyc

/-- The conditions under which the description is exact. -/
structure Tame : Prop where
  /-- `mods` has modules, packages and namespace packages -/
  loaded : ∀ x n infos, S.mods x = some (n, infos) → n.isLoaded = true
  /-- extension modules have no import statements -/
  extension : ∀ x n infos, S.mods x = some (n, infos) → n.isExtension = true → infos = []
  /-- a module that is found under another name can be found under its own name, nothing is
  configured for it, and it is no explicit namespace package -/
  otherName : ∀ x n infos, S.mods x = some (n, infos) → n.ident ≠ x →
    S.conf n.ident = none ∧ S.mods n.ident = some (n, infos) ∧ S.NodeFor n.ident n ∧
    ∀ fr init sp hd ns, n.kind ≠ .package fr init sp hd (some ns)
  /-- no name starts with a dot -/
  noDot : ∀ x, S.NeedsModule x → x.head? ≠ some '.'
  /-- imported names have no dots -/
  plain : ∀ m i nm, S.Needs (.statement m i) → nm ∈ i.importNames → '.' ∉ nm.name
  /-- no script is called like a module -/
  scriptName : ∀ path, S.asksScript path → ¬ S.NeedsModule path ∧ path.head? ≠ some '.'
  /-- no distribution is called like a module or script, and no two distributions are in the same place -/
  distName : ∀ d, S.asksDist d → ¬ S.NeedsModule d.identifier ∧ d.identifier.head? ≠ some '.' ∧
      ¬ S.asksScript d.identifier := by intro d h; exact h.elim
  distSame : ∀ d d', S.asksDist d → S.asksDist d' → d.identifier = d'.identifier → d = d' := by
    intro d d' h; exact h.elim
  /-- a module that is imported from a module `c` that only imports it: `c` has but one module of that
  name, by one of its statements, and does not wait for the importing module -/
  passedOn : ∀ m i c nm, S.FromImport m i c nm → S.MayDefine c.ident nm.name →
    c.isNamespacePkg = false → ∀ b d, S.HasEdge c.ident b d → Called nm.name b d →
    c.isModule = true ∧ nm.name ∈ c.globalsWritten ∧
    (∀ b' d', S.HasEdge c.ident b' d' → Called nm.name b' d' → b' = b) ∧
    (∃ j d', S.Needs (.statement c j) ∧ S.ByStatement c j b d' ∧ Called nm.name b d') ∧
    ¬ S.Behind c.ident m.ident
  /-- names that a package has only by its `from` imports, and that others import from it, are
  submodules -/
  static : ∀ m i c nm, S.FromImport m i c nm → c.isPackage = true → ¬ IsSixMoves c →
    S.MayDefine c.ident nm.name →
    nm.name ∈ c.globalsWritten ∨
      ∃ n, S.NodeFor (c.ident ++ '.' :: nm.name) n ∧ n.isMissing = false
  /-- a missing submodule is not both imported and tried in vain -/
  notBoth : ∀ m i c nm, S.FromImport m i c nm → (c.isPackage = true ∨ c.isNamespacePkg = true) →
    ¬ S.IsSubmodule c nm.name → ¬ S.Needs (.module (c.ident ++ '.' :: nm.name) false)
  /-- no modules made by SWIG -/
  noSwig : ∀ x, ¬ S.MayDefine x c!"swig_import_helper"
  /-- modules compiled with mypyc are extension modules or packages, and not called like the C half
  of a module made by SWIG -/
  compiledNode : ∀ x n, S.NeedsModule x → S.NodeFor x n → S.compiled n ≠ none →
      (n.isExtension = true ∨ n.isPackage = true) ∧ ¬ SwigNode n := by
    intro x n _ _ h; exact absurd rfl h

end Setup
end Verif.Spec

namespace Verif
open Spec
variable {W : Type}

/-- The world has what the setup says about the node `n` being compiled with mypyc: if it is, and its
source is there, the source has the import statements of the setup (none if it is not valid). -/
inductive Spec.Setup.CompiledIn (S : Setup) (env : Env W) (n : Node) : Prop where
  | no : (∀ file helper, ¬ MypycModule n file helper) → S.compiled n = none → CompiledIn S env n
  | noSource {file helper source} : MypycModule n file helper → SourceOf file source → S.compiled n = none →
      (∀ w, (env.isFile source w).1 ≠ .ok true) → CompiledIn S env n
  | source {file helper source infos} : MypycModule n file helper → SourceOf file source →
      S.compiled n = some (helper, infos) → (∀ w, (env.isFile source w).1 ≠ .ok false) →
      (∀ w w' code l, (env.readBytes source w).1 = .ok code → (env.compileAst code w').1 = .ok l → l = infos) →
      (∀ w w' code, (env.readBytes source w).1 = .ok code →
        (env.compileAst code w').1 = .error .syntaxError → infos = []) → CompiledIn S env n

/-- The world contains the modules, scripts and distributions of the setup, and that does not change. -/
structure Spec.Setup.Describes (S : Setup) (env : Env W) : Prop where
  found : ∀ x spec w w' p, Locates env x w spec →
    (env.nodeForSpec spec w').1 = .ok p → S.mods x = some p
  absent : ∀ x w, (∀ spec, ¬ Locates env x w spec) → S.mods x = none
  script : ∀ path w r, (env.loadScript path w).1 = .ok r → S.scripts path = some r
  distribution : ∀ name w d, (env.distributionNamed name w).1 = .ok (some d) → S.dists name = some d
  source : ∀ src w infos, (env.parseSource src w).1 = .ok infos → S.sources src = some infos
  compiled : ∀ n, S.HasNode n → S.CompiledIn env n

/-- The operations that ask for the modules, scripts and distributions of the setup. -/
def Spec.Setup.Asks (S : Setup) : ApiOp → Prop
  | .addModule x => S.asksModule x
  | .addScript path => S.asksScript path
  | .addDistribution d => S.asksDist d
  | .addDistributionNamed name => ∀ d, S.dists name = some d → S.asksDist d
  | .addDependenciesForSource src => ∀ infos, S.sources src = some infos → ∀ x, InSource infos x → S.asksModule x
  | .runStack => True
  | _ => False

/-- First configure, then run `p`. -/
def configureThen (excludes : List Str) (implies : List (Str × Implies)) (p : Hook W) : Hook W :=
  .call (.addExcludes excludes) fun _ => .call (.addImplies implies) fun _ => p

/-- Do this, in this order, whatever the results. -/
def doAll : List ApiOp → Hook W
  | [] => .ret none
  | o :: l => .call o fun _ => doAll l

/-- Adding a module, a script, a known distribution or what a known piece of source code needs. -/
def Spec.Setup.Adds (S : Setup) : ApiOp → Prop
  | .addModule _ | .addScript _ | .addDistribution _ => True
  | .addDistributionNamed name => ∃ d, S.dists name = some d
  | .addDependenciesForSource src => ∃ infos, S.sources src = some infos
  | _ => False

/-- The operations ask for exactly the modules, scripts and distributions of the setup. -/
structure Spec.Setup.AskedBy (S : Setup) (ops : List ApiOp) : Prop where
  module : ∀ x, S.asksModule x ↔ .addModule x ∈ ops ∨
    ∃ src infos, .addDependenciesForSource src ∈ ops ∧ S.sources src = some infos ∧ InSource infos x
  script : ∀ x, S.asksScript x ↔ .addScript x ∈ ops
  dist : ∀ d, S.asksDist d ↔ .addDistribution d ∈ ops ∨
    ∃ name, .addDistributionNamed name ∈ ops ∧ S.dists name = some d
  only : ∀ o ∈ ops, S.Adds o

end Verif
