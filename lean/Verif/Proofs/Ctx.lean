import Verif.Proofs.Drain
import Verif.Spec.EnvSpec
import Verif.Proofs.Search
import Verif.Spec.RootSpec
/-!
# Contextual closure theorem

Like the closure theorem, but for invariants that depend on where in the code a state change
happens.  `J O s` is the invariant when the obligations `O` (of calls in progress) are open;
`E s` is what remains when a method ends with an exception.  User's missing hooks are passive
here (they do not call the graph and supply no node).
-/
namespace Verif
open M Spec
variable {W : Type}

/-- What a call in progress still has to do. -/
inductive Obl where
  /-- `_find_or_load_module(name)`, after its package was dealt with -/
  | load (name : Str) (pkg : Option Str) (link : Bool)
  /-- an alias (or virtual) node was made, its edge to the target not yet -/
  | alias (name target : Str)
  /-- edges for the implied references `rest` are still missing -/
  | refs (name : Str) (all rest : List Str)
  /-- the node is in the graph, but its imports were not yet scheduled -/
  | node (n : Node) (imports : List ImportInfo)
  /-- the node was added under its own name as target of an alias, not yet linked -/
  | target (n : Node)
  /-- edges from the distribution to `rest` are still missing -/
  | dist (d : Dist) (rest : List Str)

/-- A node with this identifier is in the graph. -/
def Has (s : St W) (id : Str) : Prop := ∃ n ∈ s.nodes, n.ident = id

/-- Why a missing module may be created for `name` in package `p`. -/
def MissCtx (s : St W) (name : Str) (p : Option Str) : Prop :=
  (∃ parent ∈ s.nodes, p = some parent.ident ∧ parent.isMissing = true) ∨ s.lazy name = none

/-- The node and imports come from a spec that was found for `name`. -/
def FromSpec (env : Env W) (name : Str) (n : Node) (imports : List ImportInfo) : Prop :=
  ∃ spec w w', (resolveSpec env name w).1 = .ok (some spec) ∧
    (env.nodeForSpec spec w').1 = .ok (n, imports)

/-- The module that a `from` import of `imported0` looks at. -/
def NlTarget (s : St W) (imported0 imported : Node) : Prop :=
  (imported = imported0 ∧ imported0.isAlias = false) ∨
    (imported0.kind = .alias imported.ident ∧ imported ∈ s.nodes)

/-- An explicit namespace package has its edge to the module that implements it. -/
def NsLinked (s : St W) (n : Node) : Prop :=
  ∀ fr init sp hd ns, n.kind = .package fr init sp hd (some ns) →
    (n.ident, (match ns with | .pkgutil => c!"pkgutil" | .pkgResources => c!"pkg_resources"),
      defaultDep) ∈ s.edges

/-- The stand-in for `six.moves`. -/
def SixMoves (c : Node) : Prop :=
  ∃ fr init sp hd ns, c.kind = .package fr init sp hd ns ∧ init.name = c!"@@SIX_MOVES@@"

structure Ctx (env : Env W) (A : ApiOp → Prop) (J : List Obl → St W → Prop) (E : St W → Prop) :
    Prop where
  aAddModule : ∀ name, endsWith c!"__mypyc" name = true → A (.addModule name)
  toE : ∀ {O s}, J O s → E s
  world : ∀ {O s} w, J O s → J O { s with world := w }
  looked : ∀ {O s}, J O s → J O (s.event (.looked s.nodes s.edges s.roots))
  asked : ∀ {O s} h n i, J O s → J O (s.event (.asked h n i))
  called : ∀ {s} h n, J [] s → J [] (s.event (.called h n))
  failed : ∀ {s}, E s → J [] (s.event .failed)
  -- loading
  pushLoad : ∀ {O s name p b} lm, J O s → splitPackage name = .ok (p, b) →
    (∀ q, p = some q → Has s q) → J (.load name p lm :: O) s
  popLoad : ∀ {O s name lm}, J (.load name none lm :: O) s → Has s name → J O s
  popLoadLink : ∀ {O s name p lm}, J (.load name (some p) lm :: O) s → Has s name → Has s p →
    J O (s.addEdge name p defaultDep)
  popLoadMissing : ∀ {O s p n}, J (.load n.ident (some p) false :: O) s → n ∈ s.nodes →
    n.isMissing = true → Tried s.nodes s.log n.ident → J O s
  addExcludedSub : ∀ {O s name p lm parent}, J (.load name p lm :: O) s → parent ∈ s.nodes →
    p = some parent.ident → parent.isExcluded = true → s.has name = false →
    J (.load name p lm :: O) ((s.addNode (excludedNode name)).schedule (excludedNode name) [])
  addMissing : ∀ {O s name p lm}, J (.load name p lm :: O) s → s.has name = false →
    MissCtx s name p → (∀ h ∈ s.missHooks, ∃ i, Event.asked h name i ∈ s.log) →
    J (.load name p lm :: O) ((s.addNode (missingNode name)).schedule (missingNode name) [])
  addSwig : ∀ {O s p lm} n imp, J (.load n.ident p lm :: O) s → s.has n.ident = false →
    MissCtx s n.ident p → n.isExtension = true → n.ident = '_' :: (rpartition '.' imp).2.2 →
    J (.load n.ident p lm :: O) (s.addNode n)
  popExcluded : ∀ {O s name p lm}, J (.load name p lm :: O) s → s.has name = false →
    s.lazy name = some .excluded →
    J (.load name p lm :: O)
      (((s.popLazy name).addNode (excludedNode name)).schedule (excludedNode name) [])
  popAlias : ∀ {O s name p lm t}, J (.load name p lm :: O) s → s.has name = false →
    s.lazy name = some (.alias t) →
    J (.alias name t :: .load name p lm :: O)
      (((s.popLazy name).addNode (aliasNode name t)).schedule (aliasNode name t) [])
  popVirtual : ∀ {O s name p lm t}, J (.load name p lm :: O) s → s.has name = false →
    s.lazy name = some (.virtual t) →
    J (.alias name t :: .load name p lm :: O)
      (((s.popLazy name).addNode (virtualNode name t)).schedule (virtualNode name t) [])
  doneAlias : ∀ {O s name t}, J (.alias name t :: O) s → Has s name → Has s t →
    J O (s.addEdge name t defaultDep)
  popRefs : ∀ {O s name p lm names}, J (.load name p lm :: O) s → s.has name = false →
    s.lazy name = some (.refs names) →
    J (.refs name names names :: .load name p lm :: O) (s.popLazy name)
  doneRef : ∀ {O s name all r rest}, J (.refs name all (r :: rest) :: O) s → Has s name → Has s r →
    J (.refs name all rest :: O) (s.addEdge name r defaultDep)
  doneRefs : ∀ {O s name all}, J (.refs name all [] :: O) s → Has s name → J O s
  addAlias : ∀ {O s name p lm n imports}, J (.load name p lm :: O) s → s.has name = false →
    s.lazy name = none → FromSpec env name n imports → n.ident ≠ name →
    J (.alias name n.ident :: .load name p lm :: O)
      ((s.addNode (aliasNode name n.ident)).schedule (aliasNode name n.ident) [])
  addTarget : ∀ {O s name n imports}, J (.alias name n.ident :: O) s → s.has n.ident = false →
    FromSpec env name n imports → n.ident ≠ name →
    J (.target n :: .alias name n.ident :: O) ((s.addNode n).schedule n imports)
  doneTarget : ∀ {O s n b}, J (.target n :: O) s → splitPackage n.ident = .ok (none, b) →
    n ∈ s.nodes → J O s
  doneTargetLink : ∀ {O s n p b}, J (.target n :: O) s → splitPackage n.ident = .ok (some p, b) →
    n ∈ s.nodes → Has s p → J O (s.addEdge n.ident p defaultDep)
  addLoaded : ∀ {O s p lm n imports}, J (.load n.ident p lm :: O) s → s.has n.ident = false →
    s.lazy n.ident = none → FromSpec env n.ident n imports →
    J (.node n imports :: .load n.ident p lm :: O) (s.addNode n)
  nsEdge : ∀ {O s n imports fr init sp hd ns}, J (.node n imports :: O) s →
    n.kind = .package fr init sp hd (some ns) → n ∈ s.nodes →
    Has s (match ns with | .pkgutil => c!"pkgutil" | .pkgResources => c!"pkg_resources") →
    J (.node n imports :: O) (s.addEdge n.ident
      (match ns with | .pkgutil => c!"pkgutil" | .pkgResources => c!"pkg_resources") defaultDep)
  schedNode : ∀ {O s n imports}, J (.node n imports :: O) s → n ∈ s.nodes →
    NsLinked s n → J O (s.schedule n imports)
  -- import statements
  addInvalid : ∀ {s m i}, J [] s → Event.started (.imp m i) ∈ s.log →
    absoluteName m i = .ok none →
    s.has (List.replicate i.importLevel '.' ++ i.importModule.name) = false →
    J [] ((s.addNode (invalidRelNode (List.replicate i.importLevel '.' ++ i.importModule.name))).schedule
      (invalidRelNode (List.replicate i.importLevel '.' ++ i.importModule.name)) [])
  finishInvalid : ∀ {s m i n}, J [] s → Event.started (.imp m i) ∈ s.log →
    absoluteName m i = .ok none → n ∈ s.nodes → n.isInvalidRel = true →
    n.ident = List.replicate i.importLevel '.' ++ i.importModule.name → s.has m.ident = true →
    J [] ((s.addEdge m.ident n.ident (fromImportInfo i false none)).event
      (.imported m.ident i n.ident))
  finishImp : ∀ {s m i n} (offset : Nat), J [] s → Event.started (.imp m i) ∈ s.log →
    absoluteName m i = .ok (some n.ident) → n ∈ s.nodes → s.has m.ident = true →
    J [] (let s' := s.addEdge m.ident n.ident (fromImportInfo i false i.importModule.asname)
      { s' with stack := s'.stack.take offset ++ [.nl m n i] ++ s'.stack.drop offset,
                log := s'.log ++ [.imported m.ident i n.ident] })
  -- from imports
  globals : ∀ {s a b i} names, J [] s → Event.started (.nl a b i) ∈ s.log →
    J [] (s.addGlobals a.ident names)
  reexport : ∀ {s a b c i nm t}, J [] s → Event.started (.nl a b i) ∈ s.log → NlTarget s b c →
    nm ∈ i.importNames → reexported env s c nm.name = some t → s.has a.ident = true →
    s.has t = true → J [] (s.addEdge a.ident t (fromImportInfo i true nm.asname))
  subLink : ∀ {s a b c i nm}, J [] s → Event.started (.nl a b i) ∈ s.log → NlTarget s b c →
    nm ∈ i.importNames → Has s (c.ident ++ '.' :: nm.name) → s.has c.ident = true →
    J [] (s.addEdge (c.ident ++ '.' :: nm.name) c.ident defaultDep)
  subEdge : ∀ {s a b c i nm}, J [] s → Event.started (.nl a b i) ∈ s.log → NlTarget s b c →
    nm ∈ i.importNames → Has s (c.ident ++ '.' :: nm.name) → s.has a.ident = true →
    J [] (s.addEdge a.ident (c.ident ++ '.' :: nm.name) (fromImportInfo i true nm.asname))
  sixEdge : ∀ {s a b c i nm t}, J [] s → Event.started (.nl a b i) ∈ s.log → NlTarget s b c →
    nm ∈ i.importNames → sixMove nm.name = some t → Has s t → s.has a.ident = true →
    SixMoves c → J [] (s.addEdge a.ident t defaultDep)
  -- packages
  pkgEdge : ∀ {s a name}, J [] s →
    (Event.started (.pkg a name) ∈ s.log ∨ A (.importPackage a name)) → Has s name →
    s.has a.ident = true → J [] (s.addEdge a.ident name defaultDep)
  pkgSub : ∀ {s n stem a}, J [] s → n ∈ s.nodes → n.isPackage = true →
    (Event.started (.pkg a n.ident) ∈ s.log ∨ A (.importPackage a n.ident)) →
    Has s (n.ident ++ '.' :: stem) →
    J [] (s.addEdge n.ident (n.ident ++ '.' :: stem) defaultDep)
  pushPkg : ∀ {s n stem a}, J [] s → n ∈ s.nodes → n.isPackage = true →
    (Event.started (.pkg a n.ident) ∈ s.log ∨ A (.importPackage a n.ident)) →
    J [] { s with stack := s.stack ++ [.pkg n (n.ident ++ '.' :: stem)] }
  pop : ∀ {s st it}, J [] s → s.stack = st ++ [it] →
    J [] { s with stack := st, log := s.log ++ [.started it] }
  enter : ∀ {s}, J [] s → J [] { s with stack := [], hidden := s.hidden ++ s.stack }
  exit : ∀ {s0 s}, J [] s0 → J [] s → s.hidden = s0.hidden ++ s0.stack →
    J [] { s with stack := s0.stack ++ s.stack, hidden := s0.hidden }
  exitE : ∀ {s0 s}, J [] s0 → E s → s.hidden = s0.hidden ++ s0.stack →
    E { s with stack := s0.stack ++ s.stack, hidden := s0.hidden }
  -- API
  script : ∀ {s path infos file}, J [] s → A (.addScript path) → s.has path = false →
    (∃ w, (env.loadScript path w).1 = .ok (infos, file)) →
    J [] ((s.addNode { ident := path, kind := .script, filename := some file }).schedule
      { ident := path, kind := .script, filename := some file } infos)
  addRoot : ∀ {O s id}, J O s → RootAsked env A id → s.has id = true → J O (s.addRoot id)
  addDist : ∀ {s} d, J [] s → s.has d.identifier = false →
    (A (.addDistribution d) ∨
      ∃ nm, A (.addDistributionNamed nm) ∧ ∃ w, (env.distributionNamed nm w).1 = .ok (some d)) →
    J [.dist d d.importNames] (s.addNode (distNode d))
  distEdge : ∀ {s d r rest}, J [.dist d (r :: rest)] s → Has s d.identifier → Has s r →
    J [.dist d rest] (s.addEdge d.identifier r defaultDep)
  doneDist : ∀ {s d}, J [.dist d []] s → d.identifier ∈ s.roots → J [] s
  importModule : ∀ {s i name}, J [] s → A (.importModule i name) → s.has i.ident = true →
    Has s name → J [] (s.addEdge i.ident name defaultDep)
  exclude : ∀ {s} names, A (.addExcludes names) → J [] s → J [] (names.foldl addExclude s)
  imply : ∀ {s} l, A (.addImplies l) → J [] s → J [] (l.foldl addImply s)
  missHook : ∀ {s} h, A (.addMissingHook h) → J [] s → J [] { s with missHooks := h :: s.missHooks }
  postHook : ∀ {s} h, A (.addPostHook h) → J [] s → J [] { s with postHooks := h :: s.postHooks }
  apiAddNode : ∀ {s} n, A (.addNode n) → J [] s → s.has n.ident = false → J [] (s.addNode n)
  apiAddEdge : ∀ {s} a b d, A (.addEdge a b d) → J [] s → s.has a = true → s.has b = true →
    J [] (s.addEdge a b d)
  apiSchedule : ∀ {s} n infos, A (.processImportList n infos) → J [] s → J [] (s.schedule n infos)
  -- mypyc
  mypycEdge : ∀ {s n d helper}, J [] s → Event.started (.pp n) ∈ s.log → n.distribution = some d →
    d.importNames.find? (endsWith c!"__mypyc") = some helper → s.has n.ident = true → Has s helper →
    J [] (s.addEdge n.ident helper defaultDep)
  mypycSched : ∀ {s n imports}, J [] s → Event.started (.pp n) ∈ s.log →
    (∃ src w, (env.compileAst src w).1 = .ok imports) →
    (n.isExtension = true ∨ n.isPackage = true) → J [] (s.schedule n imports)

/-- The package of a name (if it has one) is neither missing nor excluded. -/
def Free (s : St W) (p : Option Str) : Prop :=
  p = none ∨ ∃ q ∈ s.nodes, p = some q.ident ∧ q.isMissing = false ∧ q.isExcluded = false

/-- Why a missing module may be created for `name` in package `p`, with all that is known. -/
def MissR (env : Env W) (s : St W) (name : Str) (p : Option Str) : Prop :=
  (∃ parent ∈ s.nodes, p = some parent.ident ∧ parent.isMissing = true) ∨
    (s.lazy name = none ∧ Free s p ∧ ∃ w, ∀ spec, (resolveSpec env name w).1 ≠ .ok (some spec))

theorem MissR.ctx {env : Env W} {s : St W} {name p} (h : MissR env s name p) : MissCtx s name p :=
  h.imp id And.left

/-- The submodule `nm` of `c` that a `from` import is linked to. -/
def SubLinked (s : St W) (c : Node) (nm : Str) : Prop :=
  ∃ sub ∈ s.nodes, sub.ident = c.ident ++ '.' :: nm ∧
    (sub.isMissing = true → (SixMoves c ∧ sixMove nm = none) ∨
      (¬ SixMoves c ∧ (c.isPackage = false ∨ nm ∉ s.gw c.ident)))

/-- The submodule `nm` of `c` is missing. -/
def SubMissing (s : St W) (c : Node) (nm : Str) : Prop :=
  ∃ sub ∈ s.nodes, sub.ident = c.ident ++ '.' :: nm ∧ sub.isMissing = true

theorem SubLinked.has {s : St W} {c nm} (h : SubLinked s c nm) : Has s (c.ident ++ '.' :: nm) := by
  obtain ⟨sub, h1, h2, _⟩ := h
  exact ⟨sub, h1, h2⟩

/-- The node is a module compiled with mypyc, and its source is there. -/
structure MypycAt (env : Env W) (n : Node) (file helper : Str) : Prop where
  compiled : mypycFile n = some (some file)
  dist : ∃ d, n.distribution = some d ∧ d.importNames.find? (endsWith c!"__mypyc") = some helper
  source : ∃ w, (env.isFile (sourceNextTo file) w).1 = .ok true

/-- Like `Ctx`, with all that is known when a change is made; `Why name lm` is the reason why
`_find_or_load_module(name, link_missing_to_parent=lm)` is called. -/
structure RCtx (env : Env W) (A : ApiOp → Prop) (Why : Str → Bool → Prop)
    (J : List Obl → St W → Prop) (E : St W → Prop) : Prop where
  aAddModule : ∀ {s n file helper}, J [] s → Event.started (.pp n) ∈ s.log → MypycAt env n file helper →
    A (.addModule helper)
  -- reasons to look for a module
  whyPackage : ∀ {name lm p b}, Why name lm → splitPackage name = .ok (some p, b) → Why p true
  whyAlias : ∀ {O s name t}, J (.alias name t :: O) s → Why t true
  whySelf : ∀ {O s name all rest}, J (.refs name all rest :: O) s → Why name true
  whyRef : ∀ {O s name all r rest}, J (.refs name all (r :: rest) :: O) s → Why r true
  whyNs : ∀ {O s n imports fr init sp hd ns}, J (.node n imports :: O) s →
    n.kind = .package fr init sp hd (some ns) →
    Why (match ns with | .pkgutil => c!"pkgutil" | .pkgResources => c!"pkg_resources") true
  whyTarget : ∀ {O s n p b}, J (.target n :: O) s → splitPackage n.ident = .ok (some p, b) →
    Why p true
  whyDist : ∀ {s d r rest}, J [.dist d (r :: rest)] s → Why r true
  whyImport : ∀ {s m i name}, J [] s → Event.started (.imp m i) ∈ s.log →
    absoluteName m i = .ok (some name) → Why name true
  whyFrom : ∀ {s a b c i nm}, J [] s → Event.started (.nl a b i) ∈ s.log → NlTarget s b c →
    i.starImport = false → (c.isPackage = true ∨ c.isNamespacePkg = true) → nm ∈ i.importNames →
    Why (c.ident ++ '.' :: nm.name) false
  whySix : ∀ {s a b c i nm t}, J [] s → Event.started (.nl a b i) ∈ s.log → NlTarget s b c →
    i.starImport = false → nm ∈ i.importNames → SixMoves c → sixMove nm.name = some t →
    SubMissing s c nm.name → Why t true
  whyAsked : ∀ {o name}, A o → AsksFor env o name → o.AsksModules → Why name true
  whyModule : ∀ {i name}, A (.importModule i name) → Why name true
  whyPkg : ∀ {s a name}, J [] s →
    (Event.started (.pkg a name) ∈ s.log ∨ A (.importPackage a name)) → Why name true
  whyPkgSub : ∀ {s n stem a}, J [] s → n ∈ s.nodes → n.isPackage = true →
    (Event.started (.pkg a n.ident) ∈ s.log ∨ A (.importPackage a n.ident)) →
    Why (n.ident ++ '.' :: stem) true
  toE : ∀ {O s}, J O s → E s
  world : ∀ {O s} w, J O s → J O { s with world := w }
  looked : ∀ {O s}, J O s → J O (s.event (.looked s.nodes s.edges s.roots))
  asked : ∀ {O s} h n i, J O s → J O (s.event (.asked h n i))
  called : ∀ {s} h n, J [] s → J [] (s.event (.called h n))
  failed : ∀ {s}, E s → J [] (s.event .failed)
  -- loading
  pushLoad : ∀ {O s name p b} lm, J O s → splitPackage name = .ok (p, b) →
    (∀ q, p = some q → Has s q) → Why name lm → J (.load name p lm :: O) s
  popLoad : ∀ {O s name lm}, J (.load name none lm :: O) s → Has s name → J O s
  popLoadLink : ∀ {O s name p lm}, J (.load name (some p) lm :: O) s → Has s name → Has s p →
    (lm = true ∨ ∃ n ∈ s.nodes, n.ident = name ∧ n.isMissing = false) →
    J O (s.addEdge name p defaultDep)
  popLoadMissing : ∀ {O s p n}, J (.load n.ident (some p) false :: O) s → n ∈ s.nodes →
    n.isMissing = true → Tried s.nodes s.log n.ident → J O s
  addExcludedSub : ∀ {O s name p lm parent}, J (.load name p lm :: O) s → parent ∈ s.nodes →
    p = some parent.ident → parent.isExcluded = true → s.has name = false →
    J (.load name p lm :: O) ((s.addNode (excludedNode name)).schedule (excludedNode name) [])
  addMissing : ∀ {O s name p lm}, J (.load name p lm :: O) s → s.has name = false →
    MissR env s name p → (∀ h ∈ s.missHooks, ∃ i, Event.asked h name i ∈ s.log) →
    J (.load name p lm :: O) ((s.addNode (missingNode name)).schedule (missingNode name) [])
  addSwig : ∀ {O s p lm} n imp, J (.load n.ident p lm :: O) s → s.has n.ident = false →
    MissR env s n.ident p → n.isExtension = true → n.ident = '_' :: (rpartition '.' imp).2.2 →
    (∃ s0, J (.load n.ident p lm :: O) s0 ∧ c!"swig_import_helper" ∈ s0.gw imp) →
    J (.load n.ident p lm :: O) (s.addNode n)
  popExcluded : ∀ {O s name p lm}, J (.load name p lm :: O) s → s.has name = false →
    s.lazy name = some .excluded → Free s p →
    J (.load name p lm :: O)
      (((s.popLazy name).addNode (excludedNode name)).schedule (excludedNode name) [])
  popAlias : ∀ {O s name p lm t}, J (.load name p lm :: O) s → s.has name = false →
    s.lazy name = some (.alias t) → Free s p →
    J (.alias name t :: .load name p lm :: O)
      (((s.popLazy name).addNode (aliasNode name t)).schedule (aliasNode name t) [])
  popVirtual : ∀ {O s name p lm t}, J (.load name p lm :: O) s → s.has name = false →
    s.lazy name = some (.virtual t) → Free s p →
    J (.alias name t :: .load name p lm :: O)
      (((s.popLazy name).addNode (virtualNode name t)).schedule (virtualNode name t) [])
  doneAlias : ∀ {O s name t}, J (.alias name t :: O) s → Has s name → Has s t →
    J O (s.addEdge name t defaultDep)
  popRefs : ∀ {O s name p lm names}, J (.load name p lm :: O) s → s.has name = false →
    s.lazy name = some (.refs names) → Free s p →
    J (.refs name names names :: .load name p lm :: O) (s.popLazy name)
  doneRef : ∀ {O s name all r rest}, J (.refs name all (r :: rest) :: O) s → Has s name → Has s r →
    J (.refs name all rest :: O) (s.addEdge name r defaultDep)
  doneRefs : ∀ {O s name all}, J (.refs name all [] :: O) s → Has s name → J O s
  addAlias : ∀ {O s name p lm n imports}, J (.load name p lm :: O) s → s.has name = false →
    s.lazy name = none → Free s p → FromSpec env name n imports → n.ident ≠ name →
    J (.alias name n.ident :: .load name p lm :: O)
      ((s.addNode (aliasNode name n.ident)).schedule (aliasNode name n.ident) [])
  addTarget : ∀ {O s name n imports}, J (.alias name n.ident :: O) s → s.has n.ident = false →
    FromSpec env name n imports → n.ident ≠ name →
    J (.target n :: .alias name n.ident :: O) ((s.addNode n).schedule n imports)
  doneTarget : ∀ {O s n b}, J (.target n :: O) s → splitPackage n.ident = .ok (none, b) →
    n ∈ s.nodes → J O s
  doneTargetLink : ∀ {O s n p b}, J (.target n :: O) s → splitPackage n.ident = .ok (some p, b) →
    n ∈ s.nodes → Has s p → J O (s.addEdge n.ident p defaultDep)
  addLoaded : ∀ {O s p lm n imports}, J (.load n.ident p lm :: O) s → s.has n.ident = false →
    s.lazy n.ident = none → Free s p → FromSpec env n.ident n imports →
    J (.node n imports :: .load n.ident p lm :: O) (s.addNode n)
  nsEdge : ∀ {O s n imports fr init sp hd ns}, J (.node n imports :: O) s →
    n.kind = .package fr init sp hd (some ns) → n ∈ s.nodes →
    Has s (match ns with | .pkgutil => c!"pkgutil" | .pkgResources => c!"pkg_resources") →
    J (.node n imports :: O) (s.addEdge n.ident
      (match ns with | .pkgutil => c!"pkgutil" | .pkgResources => c!"pkg_resources") defaultDep)
  schedNode : ∀ {O s n imports}, J (.node n imports :: O) s → n ∈ s.nodes →
    NsLinked s n → J O (s.schedule n imports)
  -- import statements
  addInvalid : ∀ {s m i}, J [] s → Event.started (.imp m i) ∈ s.log →
    absoluteName m i = .ok none →
    s.has (List.replicate i.importLevel '.' ++ i.importModule.name) = false →
    J [] ((s.addNode (invalidRelNode (List.replicate i.importLevel '.' ++ i.importModule.name))).schedule
      (invalidRelNode (List.replicate i.importLevel '.' ++ i.importModule.name)) [])
  finishInvalid : ∀ {s m i n}, J [] s → Event.started (.imp m i) ∈ s.log →
    absoluteName m i = .ok none → n ∈ s.nodes → n.isInvalidRel = true →
    n.ident = List.replicate i.importLevel '.' ++ i.importModule.name → s.has m.ident = true →
    J [] ((s.addEdge m.ident n.ident (fromImportInfo i false none)).event
      (.imported m.ident i n.ident))
  finishImp : ∀ {s m i n} (offset : Nat), J [] s → Event.started (.imp m i) ∈ s.log →
    absoluteName m i = .ok (some n.ident) → n ∈ s.nodes → s.has m.ident = true →
    J [] (let s' := s.addEdge m.ident n.ident (fromImportInfo i false i.importModule.asname)
      { s' with stack := s'.stack.take offset ++ [.nl m n i] ++ s'.stack.drop offset,
                log := s'.log ++ [.imported m.ident i n.ident] })
  -- from imports
  globals : ∀ {s a b i} names, J [] s → Event.started (.nl a b i) ∈ s.log →
    (names = i.importNames.map ImpName.name ∨
      (i.starImport = true ∧ (b.isPackage = true ∨ b.isModule = true) ∧ names = s.gw b.ident)) →
    J [] (s.addGlobals a.ident names)
  reexport : ∀ {s a b c i nm t}, J [] s → Event.started (.nl a b i) ∈ s.log → NlTarget s b c →
    i.starImport = false → nm ∈ i.importNames → nm.name ∈ s.globalsWritten c →
    reexported env s c nm.name = some t → s.has a.ident = true →
    s.has t = true → J [] (s.addEdge a.ident t (fromImportInfo i true nm.asname))
  subLink : ∀ {s a b c i nm}, J [] s → Event.started (.nl a b i) ∈ s.log → NlTarget s b c →
    i.starImport = false → (c.isPackage = true ∨ c.isNamespacePkg = true) → nm ∈ i.importNames →
    SubLinked s c nm.name → s.has c.ident = true →
    J [] (s.addEdge (c.ident ++ '.' :: nm.name) c.ident defaultDep)
  subEdge : ∀ {s a b c i nm}, J [] s → Event.started (.nl a b i) ∈ s.log → NlTarget s b c →
    i.starImport = false → (c.isPackage = true ∨ c.isNamespacePkg = true) → nm ∈ i.importNames →
    SubLinked s c nm.name → s.has a.ident = true →
    J [] (s.addEdge a.ident (c.ident ++ '.' :: nm.name) (fromImportInfo i true nm.asname))
  sixEdge : ∀ {s a b c i nm t}, J [] s → Event.started (.nl a b i) ∈ s.log → NlTarget s b c →
    i.starImport = false → nm ∈ i.importNames → sixMove nm.name = some t → Has s t → s.has a.ident = true →
    SixMoves c → SubMissing s c nm.name → J [] (s.addEdge a.ident t defaultDep)
  -- packages
  pkgEdge : ∀ {s a name}, J [] s →
    (Event.started (.pkg a name) ∈ s.log ∨ A (.importPackage a name)) → Has s name →
    s.has a.ident = true → J [] (s.addEdge a.ident name defaultDep)
  pkgSub : ∀ {s n stem a}, J [] s → n ∈ s.nodes → n.isPackage = true →
    (Event.started (.pkg a n.ident) ∈ s.log ∨ A (.importPackage a n.ident)) →
    Has s (n.ident ++ '.' :: stem) →
    J [] (s.addEdge n.ident (n.ident ++ '.' :: stem) defaultDep)
  pushPkg : ∀ {s n stem a}, J [] s → n ∈ s.nodes → n.isPackage = true →
    (Event.started (.pkg a n.ident) ∈ s.log ∨ A (.importPackage a n.ident)) →
    J [] { s with stack := s.stack ++ [.pkg n (n.ident ++ '.' :: stem)] }
  pop : ∀ {s st it}, J [] s → s.stack = st ++ [it] →
    J [] { s with stack := st, log := s.log ++ [.started it] }
  enter : ∀ {s}, J [] s → J [] { s with stack := [], hidden := s.hidden ++ s.stack }
  exit : ∀ {s0 s}, J [] s0 → J [] s → s.hidden = s0.hidden ++ s0.stack →
    J [] { s with stack := s0.stack ++ s.stack, hidden := s0.hidden }
  exitE : ∀ {s0 s}, J [] s0 → E s → s.hidden = s0.hidden ++ s0.stack →
    E { s with stack := s0.stack ++ s.stack, hidden := s0.hidden }
  -- API
  script : ∀ {s path infos file}, J [] s → A (.addScript path) → s.has path = false →
    (∃ w, (env.loadScript path w).1 = .ok (infos, file)) →
    J [] ((s.addNode { ident := path, kind := .script, filename := some file }).schedule
      { ident := path, kind := .script, filename := some file } infos)
  addRoot : ∀ {O s id}, J O s → RootAsked env A id → s.has id = true → J O (s.addRoot id)
  addDist : ∀ {s} d, J [] s → s.has d.identifier = false →
    (A (.addDistribution d) ∨
      ∃ nm, A (.addDistributionNamed nm) ∧ ∃ w, (env.distributionNamed nm w).1 = .ok (some d)) →
    J [.dist d d.importNames] (s.addNode (distNode d))
  distEdge : ∀ {s d r rest}, J [.dist d (r :: rest)] s → Has s d.identifier → Has s r →
    J [.dist d rest] (s.addEdge d.identifier r defaultDep)
  doneDist : ∀ {s d}, J [.dist d []] s → d.identifier ∈ s.roots → J [] s
  importModule : ∀ {s i name}, J [] s → A (.importModule i name) → s.has i.ident = true →
    Has s name → J [] (s.addEdge i.ident name defaultDep)
  exclude : ∀ {s} names, A (.addExcludes names) → J [] s → J [] (names.foldl addExclude s)
  imply : ∀ {s} l, A (.addImplies l) → J [] s → J [] (l.foldl addImply s)
  missHook : ∀ {s} h, A (.addMissingHook h) → J [] s → J [] { s with missHooks := h :: s.missHooks }
  postHook : ∀ {s} h, A (.addPostHook h) → J [] s → J [] { s with postHooks := h :: s.postHooks }
  apiAddNode : ∀ {s} n, A (.addNode n) → J [] s → s.has n.ident = false → J [] (s.addNode n)
  apiAddEdge : ∀ {s} a b d, A (.addEdge a b d) → J [] s → s.has a = true → s.has b = true →
    J [] (s.addEdge a b d)
  apiSchedule : ∀ {s} n infos, A (.processImportList n infos) → J [] s → J [] (s.schedule n infos)
  -- mypyc
  mypycEdge : ∀ {s n file helper}, J [] s → Event.started (.pp n) ∈ s.log → MypycAt env n file helper →
    s.has n.ident = true → Has s helper →
    J [] (s.addEdge n.ident helper defaultDep)
  mypycSched : ∀ {s n file helper imports}, J [] s → Event.started (.pp n) ∈ s.log →
    MypycAt env n file helper →
    (∃ code w w', (env.readBytes (sourceNextTo file) w).1 = .ok code ∧ (env.compileAst code w').1 = .ok imports) →
    (n.isExtension = true ∨ n.isPackage = true) → J [] (s.schedule n imports)

/-- Ignoring what `Ctx` does not ask for. -/
theorem Ctx.rich {env : Env W} {A J E} (h : Ctx env A J E) :
    RCtx env A (fun _ _ => True) J E where
  aAddModule := fun _ _ hm => h.aAddModule _ (List.find?_some hm.dist.choose_spec.2)
  whyPackage := by intros; trivial
  whyAlias := by intros; trivial
  whySelf := by intros; trivial
  whyRef := by intros; trivial
  whyNs := by intros; trivial
  whyTarget := by intros; trivial
  whyDist := by intros; trivial
  whyImport := by intros; trivial
  whyFrom := by intros; trivial
  whySix := by intros; trivial
  whyAsked := by intros; trivial
  whyModule := by intros; trivial
  whyPkg := by intros; trivial
  whyPkgSub := by intros; trivial
  toE := h.toE
  world := h.world
  looked := h.looked
  asked := h.asked
  called := h.called
  failed := h.failed
  pushLoad := fun lm h1 h2 h3 _ => h.pushLoad lm h1 h2 h3
  popLoad := h.popLoad
  popLoadLink := fun h1 h2 h3 _ => h.popLoadLink h1 h2 h3
  popLoadMissing := h.popLoadMissing
  addExcludedSub := h.addExcludedSub
  addMissing := fun h1 h2 h3 h4 => h.addMissing h1 h2 h3.ctx h4
  addSwig := fun n imp h1 h2 h3 h4 h5 _ => h.addSwig n imp h1 h2 h3.ctx h4 h5
  popExcluded := fun h1 h2 h3 _ => h.popExcluded h1 h2 h3
  popAlias := fun h1 h2 h3 _ => h.popAlias h1 h2 h3
  popVirtual := fun h1 h2 h3 _ => h.popVirtual h1 h2 h3
  doneAlias := h.doneAlias
  popRefs := fun h1 h2 h3 _ => h.popRefs h1 h2 h3
  doneRef := h.doneRef
  doneRefs := h.doneRefs
  addAlias := fun h1 h2 h3 _ h4 h5 => h.addAlias h1 h2 h3 h4 h5
  addTarget := h.addTarget
  doneTarget := h.doneTarget
  doneTargetLink := h.doneTargetLink
  addLoaded := fun h1 h2 h3 _ h4 => h.addLoaded h1 h2 h3 h4
  nsEdge := h.nsEdge
  schedNode := h.schedNode
  addInvalid := h.addInvalid
  finishInvalid := h.finishInvalid
  finishImp := h.finishImp
  globals := fun names h1 h2 _ => h.globals names h1 h2
  reexport := fun h1 h2 h3 _ h4 _ h5 h6 h7 => h.reexport h1 h2 h3 h4 h5 h6 h7
  subLink := fun h1 h2 h3 _ _ h4 h5 h6 => h.subLink h1 h2 h3 h4 h5.has h6
  subEdge := fun h1 h2 h3 _ _ h4 h5 h6 => h.subEdge h1 h2 h3 h4 h5.has h6
  sixEdge := fun h1 h2 h3 _ h4 h5 h6 h7 h8 _ => h.sixEdge h1 h2 h3 h4 h5 h6 h7 h8
  pkgEdge := h.pkgEdge
  pkgSub := h.pkgSub
  pushPkg := h.pushPkg
  pop := h.pop
  enter := h.enter
  exit := h.exit
  exitE := h.exitE
  script := h.script
  addRoot := h.addRoot
  addDist := h.addDist
  distEdge := h.distEdge
  doneDist := h.doneDist
  importModule := h.importModule
  exclude := h.exclude
  imply := h.imply
  missHook := h.missHook
  postHook := h.postHook
  apiAddNode := h.apiAddNode
  apiAddEdge := h.apiAddEdge
  apiSchedule := h.apiSchedule
  mypycEdge := fun h1 h2 hm h5 h6 => by
    obtain ⟨d, h3, h4⟩ := hm.dist
    exact h.mypycEdge h1 h2 h3 h4 h5 h6
  mypycSched := fun h1 h2 _ h3 h4 => by
    obtain ⟨code, _, w, _, h3⟩ := h3
    exact h.mypycSched h1 h2 ⟨code, w, h3⟩ h4

/-- What every method keeps. -/
structure Later (s s' : St W) : Prop where
  nodes : s.nodes <+: s'.nodes
  log : s.log <+: s'.log
  hidden : s'.hidden = s.hidden
  roots : s.roots ⊆ s'.roots

theorem Later.refl (s : St W) : Later s s := ⟨List.prefix_rfl, List.prefix_rfl, rfl, fun _ h => h⟩
theorem Later.trans {a b c : St W} (h : Later a b) (h' : Later b c) : Later a c :=
  ⟨h.nodes.trans h'.nodes, h.log.trans h'.log, h'.hidden.trans h.hidden, fun _ hr => h'.roots (h.roots hr)⟩
theorem Later.node {a b : St W} (h : Later a b) {n : Node} (hn : n ∈ a.nodes) : n ∈ b.nodes :=
  h.nodes.subset hn
theorem Later.has {a b : St W} (h : Later a b) {id} (hn : Has a id) : Has b id :=
  hn.imp fun _ hn => ⟨h.node hn.1, hn.2⟩
theorem Later.ev {a b : St W} (h : Later a b) {e} (he : e ∈ a.log) : e ∈ b.log := h.log.subset he

theorem Tried.later {a b : St W} (h : Later a b) {n} (ht : Tried a.nodes a.log n) : Tried b.nodes b.log n := by
  obtain ⟨i, m, src, inf, nm, h1, h2, h3, h4, h5⟩ := ht
  exact ⟨i, m, src, inf, nm, h.ev h1, h2, h3, h4.imp id fun h' => ⟨h'.1, h.node h'.2⟩, h5⟩

theorem has_of_Has {s : St W} {id} (h : Has s id) : s.has id = true := by
  obtain ⟨n, hn, rfl⟩ := h
  simp only [St.has, List.any_eq_true, beq_iff_eq]
  exact ⟨n, hn, rfl⟩

theorem Has_of_has {s : St W} {id} (h : s.has id = true) : Has s id := by
  simp only [St.has, List.any_eq_true, beq_iff_eq] at h
  exact h

theorem find_some {s : St W} {id n} (h : s.find id = some n) : n ∈ s.nodes ∧ n.ident = id := by
  unfold St.find at h
  exact ⟨List.mem_of_find?_eq_some h, by simpa using List.find?_some h⟩

theorem find_none {s : St W} {id} (h : s.find id = none) : s.has id = false := by
  unfold St.find at h
  unfold St.has
  simpa using h

theorem later_addNode (s : St W) (n) : Later s (s.addNode n) :=
  ⟨by simp [St.addNode], List.prefix_rfl, rfl, fun _ h => h⟩
theorem later_addEdge (s : St W) (a b d) : Later s (s.addEdge a b d) := by
  unfold St.addEdge; split
  · exact .refl _
  · exact ⟨List.prefix_rfl, List.prefix_rfl, rfl, fun _ h => h⟩
theorem later_addRoot (s : St W) (a) : Later s (s.addRoot a) := by
  unfold St.addRoot; split
  · exact .refl _
  · exact ⟨List.prefix_rfl, List.prefix_rfl, rfl, fun _ h => List.mem_append_left _ h⟩
theorem later_schedule (s : St W) (n i) : Later s (s.schedule n i) := by
  refine ⟨?_, by rw [log_schedule]; simp, ?_, ?_⟩ <;> (unfold St.schedule; simp only []; split)
  · exact List.prefix_rfl
  · exact List.prefix_rfl
  · rfl
  · rfl
  · exact fun _ h => h
  · exact fun _ h => h
theorem later_popLazy (s : St W) (n) : Later s (s.popLazy n) := ⟨List.prefix_rfl, List.prefix_rfl, rfl, fun _ h => h⟩
theorem later_event (s : St W) (e) : Later s (s.event e) := ⟨List.prefix_rfl, by simp [St.event], rfl, fun _ h => h⟩
theorem later_world (s : St W) (w) : Later s { s with world := w } :=
  ⟨List.prefix_rfl, List.prefix_rfl, rfl, fun _ h => h⟩

section
variable (J : List Obl → St W → Prop) (E : St W → Prop)

/-- The outcome `r` of a method that was started in `s`. -/
def Ret {α : Type} (O : List Obl) (Q : α → St W → Prop) (s : St W) (r : Except Exc α × St W) : Prop :=
  match r.1 with
  | .ok a => J O r.2 ∧ Later s r.2 ∧ Q a r.2
  | .error _ => E r.2 ∧ Later s r.2

/-- The same for methods that keep the invariant (and nodes, lazy nodes) when they raise. -/
def RetM {α : Type} (O : List Obl) (Q : α → St W → Prop) (s : St W) (r : Except Exc α × St W) : Prop :=
  match r.1 with
  | .ok a => J O r.2 ∧ Later s r.2 ∧ Q a r.2
  | .error _ => J O r.2 ∧ Later s r.2 ∧ r.2.nodes = s.nodes ∧ r.2.lazy = s.lazy
end

section
variable {env : Env W} {A : ApiOp → Prop} {Why : Str → Bool → Prop} {J : List Obl → St W → Prop} {E : St W → Prop}
  {α γ : Type} {O O1 O2 : List Obl} {Q : α → St W → Prop} {Q1 : α → St W → Prop}
  {Q2 : γ → St W → Prop} {s : St W}

theorem Ret.ok {a s'} (h : J O s') (hl : Later s s') (hq : Q a s') : Ret J E O Q s (.ok a, s') :=
  ⟨h, hl, hq⟩
theorem Ret.error {e s'} (h : E s') (hl : Later s s') :
    Ret J E O Q s ((.error e, s') : Except Exc α × St W) := ⟨h, hl⟩

theorem Ret.bind {m : M W α} {f : α → M W γ} (h : Ret J E O1 Q1 s (m s))
    (k : ∀ a s1, J O1 s1 → Later s s1 → Q1 a s1 → Ret J E O2 Q2 s1 (f a s1)) :
    Ret J E O2 Q2 s (M.bind m f s) := by
  unfold M.bind
  cases hm : m s with
  | mk r s1 =>
    rw [hm] at h
    cases r with
    | error e => exact h
    | ok a =>
      obtain ⟨h1, h2, h3⟩ := h
      have := k a s1 h1 h2 h3
      show Ret J E O2 Q2 s (f a s1)
      cases hf : f a s1 with
      | mk r2 s2 =>
        rw [hf] at this
        cases r2 with
        | ok b => exact ⟨this.1, h2.trans this.2.1, this.2.2⟩
        | error e => exact ⟨this.1, h2.trans this.2⟩

theorem Ret.weaken {r} (h : Ret J E O Q s r) (hq : ∀ a s', J O s' → Later s s' → Q a s' → Q1 a s') :
    Ret J E O Q1 s r := by
  cases r with
  | mk r s1 =>
    cases r with
    | ok a => exact ⟨h.1, h.2.1, hq _ _ h.1 h.2.1 h.2.2⟩
    | error e => exact h

theorem Ret.pure {a : α} (h : J O s) (hq : Q a s) : Ret J E O Q s (M.pure a s) :=
  ⟨h, .refl s, hq⟩
theorem Ret.throw (hC : RCtx env A Why J E) {e} (h : J O1 s) : Ret J E O Q s (M.throw e s) :=
  ⟨hC.toE h, .refl s⟩
theorem Ret.get {Q : St W → St W → Prop} (h : J O s) (hq : Q s s) : Ret J E O Q s (M.get s) :=
  ⟨h, .refl s, hq⟩
theorem Ret.modify {f : St W → St W} {Q : Unit → St W → Prop} (h : J O (f s)) (hl : Later s (f s))
    (hq : Q () (f s)) : Ret J E O Q s (M.modify f s) := ⟨h, hl, hq⟩
theorem Ret.assert (hC : RCtx env A Why J E) {b : Bool} {Q : Unit → St W → Prop} (h : J O s)
    (hq : b = true → Q () s) : Ret J E O Q s (M.assert b s) := by
  unfold M.assert
  split
  · exact ⟨h, .refl s, hq (by assumption)⟩
  · exact ⟨hC.toE h, .refl s⟩
theorem Ret.ofExcept (hC : RCtx env A Why J E) {x : Except Exc α} (h : J O s)
    (hq : ∀ a, x = .ok a → Q a s) : Ret J E O Q s (M.ofExcept x s) := by
  cases x with
  | ok a => exact ⟨h, .refl s, hq a rfl⟩
  | error e => exact ⟨hC.toE h, .refl s⟩
/-- Using the outside world changes nothing else. -/
theorem Ret.ext (hC : RCtx env A Why J E) {x : Ext W α} (h : J O s)
    (hq : ∀ a w, (x w).1 = .ok a → ∀ w', Q a { s with world := w' }) :
    Ret J E O Q s (M.ext x s) := by
  cases hx : x s.world with
  | mk r w =>
    have he : M.ext x s = (r, { s with world := w }) := by unfold M.ext; rw [hx]
    rw [he]
    cases r with
    | ok a => exact ⟨hC.world w h, later_world s w, hq a s.world (by rw [hx]) w⟩
    | error e => exact ⟨hC.toE (hC.world w h), later_world s w⟩
theorem Ret.findModule (hC : RCtx env A Why J E) {name : Str} {Q : Option Node → St W → Prop} (h : J O s)
    (hs : ∀ n, s.find name = some n → n ∈ s.nodes → n.ident = name → Q (some n) s)
    (hn : s.find name = none → Q none s) : Ret J E O Q s (M.findModule name s) := by
  unfold M.findModule
  cases hf : s.find name with
  | none => exact ⟨h, .refl s, hn hf⟩
  | some n =>
    simp only []
    split
    · exact ⟨h, .refl s, hs n hf (find_some hf).1 (find_some hf).2⟩
    · exact ⟨hC.toE h, .refl s⟩
theorem Ret.findNode {name : Str} {Q : Option Node → St W → Prop} (h : J O s)
    (hs : ∀ n, s.find name = some n → n ∈ s.nodes → n.ident = name → Q (some n) s)
    (hn : s.find name = none → Q none s) : Ret J E O Q s (M.findNode name s) := by
  unfold M.findNode
  refine ⟨h, .refl s, ?_⟩
  cases hf : s.find name with
  | none => exact hn hf
  | some n => exact hs n hf (find_some hf).1 (find_some hf).2

theorem Ret.addNode (hC : RCtx env A Why J E) {n : Node} {Q : Unit → St W → Prop} (h : J O1 s)
    (hj : s.has n.ident = false → J O (s.addNode n)) (hq : Q () (s.addNode n)) :
    Ret J E O Q s (M.addNode n s) := by
  unfold M.addNode
  split
  · exact ⟨hC.toE h, .refl s⟩
  · rename_i hh
    exact ⟨hj (by simpa using hh), later_addNode s n, hq⟩

theorem Ret.addEdge (hC : RCtx env A Why J E) {a b : Str} {d} {Q : Unit → St W → Prop} (h : J O1 s)
    (hj : s.has a = true → s.has b = true → J O (s.addEdge a b d)) (hq : Q () (s.addEdge a b d)) :
    Ret J E O Q s (M.addEdge a b d s) := by
  unfold M.addEdge
  split
  · rename_i hh
    simp only [Bool.and_eq_true] at hh
    exact ⟨hj hh.1 hh.2, later_addEdge s a b d, hq⟩
  · exact ⟨hC.toE h, .refl s⟩

/-- `add_edge` directly followed by another change. -/
theorem Ret.addEdgeMod (hC : RCtx env A Why J E) {a b : Str} {d} {f : St W → St W}
    {Q : Unit → St W → Prop} (h : J O1 s)
    (hj : s.has a = true → s.has b = true → J O (f (s.addEdge a b d)))
    (hl : Later (s.addEdge a b d) (f (s.addEdge a b d))) (hq : Q () (f (s.addEdge a b d))) :
    Ret J E O Q s (M.bind (M.addEdge a b d) (fun _ => M.modify f) s) := by
  cases hh : (s.has a && s.has b) with
  | true =>
    rw [M.bind_of_ok (a := ()) (s' := s.addEdge a b d) (by unfold M.addEdge; rw [if_pos hh])]
    simp only [Bool.and_eq_true] at hh
    exact ⟨hj hh.1 hh.2, (later_addEdge s a b d).trans hl, hq⟩
  | false =>
    rw [M.bind_of_error (e := .keyError) (s' := s) (by unfold M.addEdge; rw [if_neg (by simp [hh])])]
    exact ⟨hC.toE h, .refl s⟩

theorem Ret.addRoot (hC : RCtx env A Why J E) {a : Str} {Q : Unit → St W → Prop} (h : J O s)
    (hr : RootAsked env A a) (hq : Q () (s.addRoot a)) : Ret J E O Q s (M.addRoot a s) := by
  unfold M.addRoot
  split
  · rename_i hh
    exact ⟨hC.addRoot h hr hh, later_addRoot s a, hq⟩
  · exact ⟨hC.toE h, .refl s⟩

theorem Ret.shift {s1 : St W} {r} (hl : Later s s1) (h : Ret J E O Q s1 r) : Ret J E O Q s r := by
  cases r with
  | mk r s2 =>
    cases r with
    | ok a => exact ⟨h.1, hl.trans h.2.1, h.2.2⟩
    | error e => exact ⟨h.1, hl.trans h.2⟩

theorem Ret.addSched' {n : Node} {i} {f : M W γ} (hh : s.has n.ident = false)
    (hj : J O ((s.addNode n).schedule n i))
    (k : ∀ s1, J O s1 → Later s s1 → n ∈ s1.nodes → s1 = (s.addNode n).schedule n i →
      Ret J E O2 Q2 s1 (f s1)) :
    Ret J E O2 Q2 s (M.bind (M.addNode n) (fun _ => M.bind (M.schedule n i) fun _ => f) s) := by
  rw [M.bind_of_ok (a := ()) (s' := s.addNode n) (by unfold M.addNode; rw [if_neg (by simp [hh])])]
  have hl := (later_addNode s n).trans (later_schedule (s.addNode n) n i)
  show Ret J E O2 Q2 s (f ((s.addNode n).schedule n i))
  exact .shift hl (k _ hj hl ((later_schedule (s.addNode n) n i).node (by simp [St.addNode])) rfl)

/-- `add_node` directly followed by `_process_import_list`. -/
theorem Ret.addSched (hC : RCtx env A Why J E) {n : Node} {i} {f : M W γ} (h : J O1 s)
    (hj : s.has n.ident = false → J O ((s.addNode n).schedule n i))
    (k : ∀ s1, J O s1 → Later s s1 → n ∈ s1.nodes → s1 = (s.addNode n).schedule n i →
      Ret J E O2 Q2 s1 (f s1)) :
    Ret J E O2 Q2 s (M.bind (M.addNode n) (fun _ => M.bind (M.schedule n i) fun _ => f) s) := by
  cases hh : s.has n.ident with
  | true =>
    rw [M.bind_of_error (e := .valueError false) (s' := s) (by unfold M.addNode; rw [if_pos hh])]
    exact ⟨hC.toE h, .refl s⟩
  | false =>
    rw [M.bind_of_ok (a := ()) (s' := s.addNode n) (by unfold M.addNode; rw [if_neg (by simp [hh])])]
    have hl := (later_addNode s n).trans (later_schedule (s.addNode n) n i)
    show Ret J E O2 Q2 s (f ((s.addNode n).schedule n i))
    have := k ((s.addNode n).schedule n i) (hj hh) hl
      ((later_schedule (s.addNode n) n i).node (by simp [St.addNode])) rfl
    cases hf : f ((s.addNode n).schedule n i) with
    | mk r2 s2 =>
      rw [hf] at this
      cases r2 with
      | ok b => exact ⟨this.1, hl.trans this.2.1, this.2.2⟩
      | error e => exact ⟨this.1, hl.trans this.2⟩

theorem Ret.forEach {l : List α} {f : α → M W Unit} {P : St W → Prop} {Q : Unit → St W → Prop}
    (hst : ∀ s s', Later s s' → P s → P s')
    (hf : ∀ a ∈ l, ∀ s, J O s → P s → Ret J E O (fun _ _ => True) s (f a s))
    (h : J O s) (hp : P s) (hq : ∀ s', P s' → Q () s') : Ret J E O Q s (M.forEach l f s) := by
  induction l generalizing s with
  | nil => exact ⟨h, .refl s, hq s hp⟩
  | cons x l ih =>
    refine Ret.bind (hf x (by simp) s h hp) ?_
    intro _ s1 h1 hl _
    exact ih (fun a ha => hf a (by simp [ha])) h1 (hst _ _ hl hp)

/-- Leaving the obligations as they are. -/
theorem RetM.toRet (hC : RCtx env A Why J E) {r} (h : RetM J O Q s r) : Ret J E O Q s r := by
  cases r with
  | mk r s1 =>
    cases r with
    | ok a => exact h
    | error e => exact ⟨hC.toE h.1, h.2.1⟩

/-- Leaving nodes, lazy nodes and missing hooks as they are. -/
structure Quiet (s s' : St W) : Prop where
  later : Later s s'
  nodes : s'.nodes = s.nodes
  lazy : s'.lazy = s.lazy
  hooks : s'.missHooks = s.missHooks

theorem Quiet.refl (s : St W) : Quiet s s := ⟨.refl s, rfl, rfl, rfl⟩
theorem Quiet.trans {a b c : St W} (h : Quiet a b) (h' : Quiet b c) : Quiet a c :=
  ⟨h.later.trans h'.later, h'.nodes.trans h.nodes, h'.lazy.trans h.lazy, h'.hooks.trans h.hooks⟩

/-- A part of a method that keeps the invariant and is quiet. -/
def RetQ {α : Type} (J : List Obl → St W → Prop) (O : List Obl) (Q : α → St W → Prop) (s : St W)
    (r : Except Exc α × St W) : Prop :=
  J O r.2 ∧ Quiet s r.2 ∧ ∀ a, r.1 = .ok a → Q a r.2

theorem RetQ.bind {m : M W α} {f : α → M W γ} (h : RetQ J O Q1 s (m s))
    (k : ∀ a s1, J O s1 → Quiet s s1 → Q1 a s1 → RetM J O Q2 s1 (f a s1)) :
    RetM J O Q2 s (M.bind m f s) := by
  unfold M.bind
  cases hm : m s with
  | mk r s1 =>
    rw [hm] at h
    obtain ⟨h1, h2, h3⟩ := h
    cases r with
    | error e => exact ⟨h1, h2.later, h2.nodes, h2.lazy⟩
    | ok a =>
      have := k a s1 h1 h2 (h3 a rfl)
      show RetM J O Q2 s (f a s1)
      cases hf : f a s1 with
      | mk r2 s2 =>
        rw [hf] at this
        cases r2 with
        | ok b => exact ⟨this.1, h2.later.trans this.2.1, this.2.2⟩
        | error e => exact ⟨this.1, h2.later.trans this.2.1, this.2.2.1.trans h2.nodes,
            this.2.2.2.trans h2.lazy⟩

theorem RetQ.bindQ {m : M W α} {f : α → M W γ} (h : RetQ J O Q1 s (m s))
    (k : ∀ a s1, J O s1 → Quiet s s1 → Q1 a s1 → RetQ J O Q2 s1 (f a s1)) :
    RetQ J O Q2 s (M.bind m f s) := by
  unfold M.bind
  cases hm : m s with
  | mk r s1 =>
    rw [hm] at h
    obtain ⟨h1, h2, h3⟩ := h
    cases r with
    | error e => exact ⟨h1, h2, by intro a ha; simp at ha⟩
    | ok a =>
      obtain ⟨h4, h5, h6⟩ := k a s1 h1 h2 (h3 a rfl)
      exact ⟨h4, h2.trans h5, h6⟩

theorem RetM.bind {s0 : St W} {m : M W α} {f : α → M W γ} (h : RetM J O Q1 s0 (m s))
    (k : ∀ a s1, J O s1 → Later s0 s1 → Q1 a s1 → RetM J O Q2 s0 (f a s1)) :
    RetM J O Q2 s0 (M.bind m f s) := by
  unfold M.bind
  cases hm : m s with
  | mk r s1 =>
    rw [hm] at h
    cases r with
    | error e => exact h
    | ok a => exact k a s1 h.1 h.2.1 h.2.2

theorem RetM.shift {s0 : St W} {r} (hq : Quiet s0 s) (h : RetM J O Q s r) : RetM J O Q s0 r := by
  cases r with
  | mk r s1 =>
    cases r with
    | error e => exact ⟨h.1, hq.later.trans h.2.1, h.2.2.1.trans hq.nodes, h.2.2.2.trans hq.lazy⟩
    | ok a => exact ⟨h.1, hq.later.trans h.2.1, h.2.2⟩

theorem RetM.weaken {r} (h : RetM J O Q s r) (hq : ∀ a s', J O s' → Later s s' → Q a s' → Q1 a s') :
    RetM J O Q1 s r := by
  cases r with
  | mk r s1 =>
    cases r with
    | ok a => exact ⟨h.1, h.2.1, hq _ _ h.1 h.2.1 h.2.2⟩
    | error e => exact h

theorem RetQ.toRetM {r} (h : RetQ J O Q s r) (hq : ∀ a s', Quiet s s' → Q a s' → Q1 a s') :
    RetM J O Q1 s r := by
  cases r with
  | mk r s1 =>
    cases r with
    | ok a => exact ⟨h.1, h.2.1.later, hq _ _ h.2.1 (h.2.2 a rfl)⟩
    | error e => exact ⟨h.1, h.2.1.later, h.2.1.nodes, h.2.1.lazy⟩

theorem RetQ.ext (hC : RCtx env A Why J E) {x : Ext W α} (h : J O s)
    (hq : ∀ a w, (x w).1 = .ok a → ∀ w', Q a { s with world := w' }) :
    RetQ J O Q s (M.ext x s) := by
  refine ⟨hC.world _ h, ⟨later_world _ _, rfl, rfl, rfl⟩, ?_⟩
  intro a ha
  exact hq a s.world ha _

theorem RetQ.pure {a : α} (h : J O s) (hq : Q a s) : RetQ J O Q s (M.pure a s) :=
  ⟨h, .refl s, by intro b hb; simp [M.pure] at hb; exact hb ▸ hq⟩
theorem RetQ.throw {e} (h : J O s) : RetQ J O Q s (M.throw e s) :=
  ⟨h, .refl s, by intro b hb; simp [M.throw] at hb⟩
theorem RetQ.modify {f : St W → St W} {Q : Unit → St W → Prop} (h : J O (f s)) (hl : Quiet s (f s))
    (hq : Q () (f s)) : RetQ J O Q s (M.modify f s) := ⟨h, hl, fun _ _ => hq⟩
theorem RetM.pure {a : α} (h : J O s) (hq : Q a s) : RetM J O Q s (M.pure a s) :=
  ⟨h, .refl s, hq⟩
theorem RetM.throw {e} (h : J O s) : RetM J O Q s (M.throw e s) := ⟨h, .refl s, rfl, rfl⟩

theorem M.attempt_cases {m : M W α} {s s1 : St W} {r} (hm : m s = (r, s1)) :
    (r = .error .fuel ∧ M.attempt m s = (.error .fuel, s1)) ∨ M.attempt m s = (.ok r, s1) := by
  unfold M.attempt
  rw [hm]
  cases r with
  | ok a => exact .inr rfl
  | error e => cases e <;> simp

theorem RetQ.attempt {m : M W α} {Q : Except Exc α → St W → Prop}
    (h : RetQ J O (fun _ _ => True) s (m s))
    (hq : ∀ r s', (m s) = (r, s') → Q r s') : RetQ J O Q s (M.attempt m s) := by
  cases hm : m s with
  | mk r s1 =>
    rw [hm] at h
    have := hq r s1 hm
    rcases M.attempt_cases hm with ⟨_, ha⟩ | ha <;> rw [ha]
    · exact ⟨h.1, h.2.1, by intro x hx; simp at hx⟩
    · exact ⟨h.1, h.2.1, by intro x hx; simp at hx; exact hx ▸ this⟩

end
end Verif
