import Verif.Model.State
import Verif.Model.Utilities
import Verif.Model.SixMoves
import Verif.Model.Paths
/-!
# Model of `modulegraph2/_modulegraph.py`, `_callback_list.py` (calls), `_swig_support.py`,
`_mypyc_support.py`

The methods call each other recursively and call user hooks, which may call back into the
graph.  Every method is a function `...Body` of a record `Calls` holding the methods it calls
recursively; `calls env n` closes the recursion with depth `n`.
-/
namespace Verif

/-- Loaders, as far as `node_for_spec` and `_load_module` distinguish them. -/
inductive Loader where
  | none_                                    -- `spec.loader is None`
  | namespace                                -- `_NamespaceLoader`, `NamespaceLoader`
  | builtin                                  -- `BuiltinImporter`
  | extension                                -- `ExtensionFileLoader`
  | inspect                                  -- other `InspectLoader` or `zipimporter`
  | frozen                                   -- `FrozenImporter`
  | six                                      -- `_SixMetaPathImporter`
  | vendor (rootName vendorPkg : Str)        -- `VendorImporter`
  | distutils                                -- `DistutilsLoader`
  | unknown
deriving DecidableEq

/-- `importlib.machinery.ModuleSpec`. -/
structure Spec where
  name : Str
  loader : Loader
  origin : Option Str := none
  searchLocations : Option (List Str) := none
deriving DecidableEq

/-- The public interface of `ModuleGraph` (plus `_process_import_list` and `_run_stack`, which
hooks of the library itself use; leaving a `hook_context` is `runStack`). -/
inductive ApiOp where
  | addScript (path : Str)
  | addModule (name : Str)
  | addDependenciesForSource (source : Str)
  | addDistribution (d : Dist)
  | addDistributionNamed (name : Str)
  | importModule (importing : Node) (name : Str)
  | importPackage (importing : Node) (name : Str)
  | runStack
  | addMissingHook (h : MissHook)
  | addPostHook (h : PostHook)
  | addExcludes (names : List Str)
  | addExcludesStr (name : Str)
  | addImplies (implies : List (Str × Implies))
  | addNode (n : Node)
  | addEdge (src dst : Str) (d : DepInfo)
  | addRoot (id : Str)
  | processImportList (n : Node) (infos : List ImportInfo)

/-- Code of hooks and clients: an arbitrary interaction with the graph.  It can inspect the
state, change the outside world, call the API any number of times, look at the results (also
catch exceptions), and finish with a value or an exception. -/
inductive Hook (W : Type) where
  | ret (r : Option Node)
  | raise (e : Exc)
  | look (k : St W → Hook W)
  | setWorld (w : W) (k : Hook W)
  | call (op : ApiOp) (k : Except Exc (Option Node) → Hook W)

/-- The outside world's operations.  Nothing is assumed about them except where a theorem says
so.  -/
structure Env (W : Type) where
  /-- `importlib.util.find_spec(name)` -/
  findSpec : Str → Ext W (Option Spec)
  /-- `importlib.util.find_spec("." + name, package)` -/
  findSpecRel : Str → Str → Ext W (Option Spec)
  /-- `name in sys.modules` -/
  inSysModules : Str → W → Bool
  /-- `sys.modules.pop(name)`; the popped object is a number -/
  popModule : Str → Ext W Nat
  /-- `sys.modules[name] = obj` -/
  setModule : Str → Nat → W → W
  /-- `sys.modules[name] = FakePackage([path])` -/
  setFake : Str → Str → W → W
  /-- `del sys.modules[name]` -/
  delModule : Str → Ext W Unit
  /-- `isinstance(loader, importlib.abc.InspectLoader)` -/
  isInspectLoader : Loader → W → Bool
  /-- `spec.loader.is_package(spec.name)` -/
  isPackage : Spec → Ext W Bool
  /-- `node_for_spec(spec, sys.path)`, modelled in `NodeForSpec.lean` -/
  nodeForSpec : Spec → Ext W (Node × List ImportInfo)
  /-- `_load_script` 701-721: open, decode, parse, scan, compile; gives the imports and the
  resolved file name -/
  loadScript : Str → Ext W (List ImportInfo × Str)
  /-- `add_dependencies_for_source` 198-205: parse and scan -/
  parseSource : Str → Ext W (List ImportInfo)
  /-- `distribution_named(name)` -/
  distributionNamed : Str → Ext W (Option Dist)
  /-- stems of `path.glob("*.py")` -/
  globPy : Str → Ext W (List Str)
  /-- names of the directories in `path.iterdir()` -/
  subdirs : Str → Ext W (List Str)
  /-- `str.isidentifier` -/
  isIdentifier : Str → Bool
  /-- iteration order of the successors of a node -/
  outOrder : W → List Str → List Str
  /-- `path.is_file()` -/
  isFile : Str → Ext W Bool
  /-- `path.read_bytes()` -/
  readBytes : Str → Ext W Str
  /-- `list(extract_ast_info(compile(source, ..., PyCF_ONLY_AST)))` -/
  compileAst : Str → Ext W (List ImportInfo)
  /-- the user's hooks -/
  userPost : Nat → Node → Hook W
  userMissing : Nat → Option Node → Str → Hook W

/-- The methods that are called recursively. -/
structure Calls (W : Type) where
  findOrLoad : Option Node → Str → Bool → M W Node
  implied : Option Node → Str → M W (Option Node)
  loadModule : Option Node → Str → M W Node
  createMissing : Option Node → Str → M W Node
  importPackage : Node → Str → M W Node
  runStack : M W Unit
  callPost : Nat → Node → M W Unit
  callMissing : Nat → Option Node → Str → M W (Option Node)
  op : ApiOp → M W (Option Node)

section
variable {W : Type} (env : Env W) (rec : Calls W)

/-- Run hook or client code.  Looking at the state records the ghost event `looked`. -/
def interp : Hook W → M W (Option Node)
  | .ret r => M.pure r
  | .raise e => M.throw e
  | .look k => fun s => interp (k s) (s.event (.looked s.nodes s.edges s.roots))
  | .setWorld w k => fun s => interp k { s with world := w }
  | .call op k => M.bind (M.attempt (rec.op op)) fun r => interp (k r)

/-- `_swig_support.py` 31-112, `swig_missing_hook`.  The package directory
`sp.origin.rpartition(os.sep)[0]` uses the separator `/`. -/
def swigHook (importing : Option Node) (missing : Str) : M W (Option Node) :=
  match importing with
  | none => M.pure none
  | some imp =>
    if !(imp.isModule || imp.isPackage) then M.pure none
    else if missing ≠ '_' :: (rpartition '.' imp.ident).2.2 then M.pure none
    else
      M.bind M.get fun s =>
      if !(s.globalsWritten imp).contains c!"swig_import_helper" then M.pure none
      else
        let toImport := if imp.isPackage then imp.ident else (rpartition '.' imp.ident).1
        M.bind (M.attempt (M.ext (env.findSpecRel missing toImport))) fun r =>
        M.bind (match r with
          | .ok spec => M.pure spec
          | .error e =>
            if e.isImportError then
              M.bind (M.ext (env.findSpec toImport)) fun sp =>
              match sp with
              | none => M.throw .assertion
              | some sp =>
                match sp.origin with
                | none => M.throw .assertion
                | some origin =>
                  M.bind (M.modify fun s =>
                    { s with world := env.setFake toImport (rpartition '/' origin).1 s.world }) fun _ =>
                  M.bind (M.ext (env.findSpecRel missing toImport)) fun spec =>
                  M.bind (M.ext (env.delModule toImport)) fun _ => M.pure spec
            else M.throw e) fun spec =>
        match spec with
        | none => M.pure none
        | some spec =>
          M.bind (M.ext (env.nodeForSpec spec)) fun p =>
          if !p.1.isExtension then M.pure none
          else
            M.bind (M.assert p.2.isEmpty) fun _ =>
            let node := { p.1 with ident := missing }
            M.bind (M.addNode node) fun _ => M.pure (some node)

/-- `pathlib`: `filename.parent / (filename.stem.split(".", 1)[0] + ".py")`
(`_mypyc_support.py` 52-54, 62-64), for absolute file names with separator `/`.
`stem` drops the last suffix of the final component. -/
def sourceNextTo (filename : Str) : Str :=
  let p := rpartition '/' filename
  let base := p.2.2
  let stem := match rfindSplit '.' base with
    | some (a, b) => if a = [] ∨ b = [] then base else a
    | none => base
  p.1 ++ p.2.1 ++ beforeFirst '.' stem ++ c!".py"

/-- `_mypyc_support.py` 32-36, 47-60: `none` when the node is neither an extension module nor a
package around one, else the file name of the extension. -/
def mypycFile (node : Node) : Option (Option Str) :=
  match node.kind with
  | .package _ init _ _ _ => if init.kind = .extension then some init.filename else none
  | .module .extension => some node.filename
  | _ => none

/-- `_mypyc_support.py` 29-110, `mypyc_post_processing_hook`. -/
def mypycHook (node : Node) : M W Unit :=
  match mypycFile node with
  | none => M.pure ()                                   -- 32-36
  | some file =>
    match node.distribution with
    | none => M.pure ()                                 -- 40-41
    | some dist =>
      match file with
      | none => M.pure ()                               -- 47-60
      | some file =>
        let source := sourceNextTo file
        match dist.importNames.find? (endsWith c!"__mypyc") with
        | none => M.pure ()                             -- 71-78
        | some helper =>
          M.bind (M.ext (env.isFile source)) fun b =>
          if !b then M.pure ()                          -- 85-86
          else
            M.bind (rec.op (.addModule helper)) fun h =>
            match h with
            | none => M.throw .assertion                -- cannot happen: add_module returns a node
            | some h =>
              M.bind (M.addEdge node.ident h.ident defaultDep) fun _ =>
              M.bind (M.ext (env.readBytes source)) fun code =>
              M.bind (M.attempt (M.ext (env.compileAst code))) fun r =>
              match r with
              | .error .syntaxError => M.pure ()
              | .error e => M.throw e
              | .ok imports =>
                if imports.isEmpty then M.pure ()
                else M.bind (M.schedule node imports) fun _ => rec.runStack

/-- `_callback_list.py` 52-68, `CallbackList.__call__`, from position `idx` on.  Python iterates
over the live list, which hooks may extend at the front while it is being iterated. -/
def callPostBody (idx : Nat) (node : Node) : M W Unit :=
  M.bind M.get fun s =>
  match s.postHooks[idx]? with
  | none => M.pure ()
  | some h =>
    M.bind (M.modify fun s => s.event (.called h node.ident)) fun _ =>
    M.bind (match h with
      | .mypyc => mypycHook env rec node
      | .user k => M.bind (interp rec (env.userPost k node)) fun _ => M.pure ()) fun _ =>
    rec.callPost (idx + 1) node

/-- `_callback_list.py` 102-121, `FirstNotNone.__call__`, from position `idx` on. -/
def callMissingBody (idx : Nat) (importing : Option Node) (name : Str) : M W (Option Node) :=
  M.bind M.get fun s =>
  match s.missHooks[idx]? with
  | none => M.pure none
  | some h =>
    M.bind (M.modify fun s => s.event (.asked h name importing)) fun _ =>
    M.bind (match h with
      | .swig => swigHook env importing name
      | .user k => interp rec (env.userMissing k importing name)) fun r =>
    match r with
    | some n => M.pure (some n)
    | none => rec.callMissing (idx + 1) importing name

/-- `_modulegraph.py` 383-407, `_create_missing_module`. -/
def createMissingBody (importing : Option Node) (name : Str) : M W Node :=
  M.bind (rec.callMissing 0 importing name) fun r =>
  match r with
  | some n => M.pure n
  | none =>
    let node := missingNode name
    M.bind (M.addNode node) fun _ =>
    M.bind (M.schedule node []) fun _ => M.pure node

/-- `_modulegraph.py` 482-543, `_implied_references`.  The iterable of an implied dependency list
is iterated in order. -/
def impliedBody (importing : Option Node) (name : Str) : M W (Option Node) :=
  M.bind (M.findNode name) fun r =>
  match r with
  | some _ => M.pure none
  | none =>
    M.bind M.get fun s =>
    match s.lazy name with
    | none => M.pure none
    | some implied =>
      M.bind (M.modify fun s =>
        { s with lazy := fun k => if k = name then none else s.lazy k }) fun _ =>
      match implied with
      | .excluded =>
        let node := excludedNode name
        M.bind (M.addNode node) fun _ =>
        M.bind (M.schedule node []) fun _ => M.pure (some node)
      | .alias target =>
        let node := aliasNode name target
        M.bind (M.addNode node) fun _ =>
        M.bind (M.schedule node []) fun _ =>
        M.bind (rec.findOrLoad (some node) target true) fun other =>
        M.bind (M.addEdge node.ident other.ident defaultDep) fun _ => M.pure (some node)
      | .virtual target =>
        let node := virtualNode name target
        M.bind (M.addNode node) fun _ =>
        M.bind (M.schedule node []) fun _ =>
        M.bind (rec.findOrLoad (some node) target true) fun other =>
        M.bind (M.addEdge node.ident other.ident defaultDep) fun _ => M.pure (some node)
      | .refs names =>
        M.bind (rec.findOrLoad importing name true) fun node =>
        M.bind (M.forEach names fun ref =>
          M.bind (rec.findOrLoad (some node) ref true) fun other =>
          M.addEdge node.ident other.ident defaultDep) fun _ =>
        M.pure (some node)

/-- `_modulegraph.py` 576-602: locating the spec, with the work-arounds for odd entries in
`sys.modules`.  The graph is not involved. -/
def resolveSpec (name : Str) : Ext W (Option Spec) := fun w =>
  match env.findSpec name w with
  | (.ok r, w) => (.ok r, w)
  | (.error (.valueError specMsg), w) =>
    if !specMsg then (.error .assertion, w)
    else
      match env.popModule name w with
      | (.error e, w) => (.error e, w)
      | (.ok orig, w) =>
        match env.findSpec name w with
        | (r, w) =>
          if env.inSysModules name w then (.error .assertion, w)
          else (r, env.setModule name orig w)
  | (.error (.attributeError pathMsg), w) =>
    if pathMsg then (.ok none, w) else (.error (.attributeError pathMsg), w)
  | (.error e, w) => (.error e, w)

/-- `_modulegraph.py` 609-642: the handler for exceptions raised while locating the spec. -/
def loadFallback (importing : Option Node) (name : Str) (e : Exc) : M W Node :=
  if e ≠ .moduleNotFound false then                            -- 609-611
    let parent := (rpartition '.' name).1
    M.bind M.get fun s =>
    if env.inSysModules parent s.world then M.throw .assertion
    else
      M.bind (M.ext (env.findSpec parent)) fun sp =>
      match sp with
      | none => M.throw .assertion
      | some spec =>
        M.bind M.get fun s =>
        if !env.isInspectLoader spec.loader s.world then M.throw .assertion
        else
          M.bind (M.ext (env.isPackage spec)) fun isPkg =>
          if isPkg then
            match spec.origin with
            | none => M.throw .assertion
            | some path =>
              if !startsWith c!"__init__." (rpartition '/' path).2.2 then M.throw .assertion
              else
                M.bind (M.modify fun s =>
                  { s with world := env.setFake parent (dirname path) s.world }) fun _ =>
                rec.loadModule importing name
          else rec.createMissing importing name
  else rec.createMissing importing name

/-- `_modulegraph.py` 644-679: adding the node for a located spec. -/
def addLoaded (name : Str) (spec : Spec) : M W Node :=
  M.bind (M.ext (env.nodeForSpec spec)) fun p =>
  let node := p.1
  let imports := p.2
  if node.ident ≠ name then
    let aliasN := aliasNode name node.ident
    M.bind (M.addNode aliasN) fun _ =>
    M.bind (M.schedule aliasN []) fun _ =>
    M.bind (M.findNode node.ident) fun found =>
    M.bind (match found with
      | some _ => M.pure ()
      | none =>
        M.bind (M.addNode node) fun _ =>
        M.bind (M.schedule node imports) fun _ =>
        M.bind (M.ofExcept (splitPackage node.ident)) fun sp =>
        match sp.1 with
        | none => M.pure ()
        | some pkg =>
          M.bind (rec.findOrLoad none pkg true) fun parent =>
          M.addEdge node.ident parent.ident defaultDep) fun _ =>
    M.bind (M.addEdge aliasN.ident node.ident defaultDep) fun _ => M.pure aliasN
  else
    M.bind (M.addNode node) fun _ =>
    M.bind (match node.kind with
      | .package _ _ _ _ (some ns) =>
        M.bind (rec.findOrLoad none
          (match ns with | .pkgutil => c!"pkgutil" | .pkgResources => c!"pkg_resources") true)
          fun nspkg => M.addEdge node.ident nspkg.ident defaultDep
      | _ => M.pure ()) fun _ =>
    M.bind (M.schedule node imports) fun _ => M.pure node

/-- `_modulegraph.py` 545-679, `_load_module`. -/
def loadModuleBody (importing : Option Node) (name : Str) : M W Node :=
  if startsWith c!"." name then M.throw .assertion
  else
    M.bind (M.findNode name) fun r =>
    match r with
    | some n => M.pure n
    | none =>
      M.bind (M.attempt
        (M.bind (M.ext (resolveSpec env name)) fun sp =>
          match sp with
          | none => M.bind (rec.createMissing importing name) fun n => M.pure (Sum.inl n)
          | some spec => M.pure (Sum.inr spec))) fun r =>
      match r with
      | .ok (.inl node) => M.pure node
      | .ok (.inr spec) => addLoaded env rec name spec
      | .error e => if e.isException then loadFallback env rec importing name e else M.throw e

/-- `_modulegraph.py` 775-831, `_find_or_load_module`. -/
def findOrLoadBody (importing : Option Node) (name : Str) (linkMissing : Bool) : M W Node :=
  M.bind (M.findModule name) fun r =>
  match r with
  | some n => M.pure n
  | none =>
    M.bind (M.ofExcept (splitPackage name)) fun sp =>
    M.bind (match sp.1 with
      | none => M.pure (none, none)
      | some pkg =>
        M.bind (rec.findOrLoad importing pkg true) fun parent =>
        if parent.isMissing then
          M.bind (rec.createMissing importing name) fun n => M.pure (some parent, some n)
        else if parent.isExcluded then
          let node := excludedNode name
          M.bind (M.addNode node) fun _ =>
          M.bind (M.schedule node []) fun _ => M.pure (some parent, some node)
        else M.pure (some parent, none)) fun pn =>
    M.bind (match pn.2 with
      | some n => M.pure n
      | none =>
        M.bind (rec.implied importing name) fun i =>
        match i with
        | some n => M.pure n
        | none => rec.loadModule importing name) fun node =>
    match pn.1 with
    | some parent =>
      if linkMissing || !node.isMissing then
        M.bind (M.addEdge node.ident parent.ident defaultDep) fun _ => M.pure node
      else M.pure node
    | none => M.pure node

/-- `_modulegraph.py` 852-890: the absolute name an import statement refers to; `none` for a
relative import outside of the top-level package. -/
def absoluteName (importing : Node) (info : ImportInfo) : Except Exc (Option Str) :=
  if info.importLevel = 0 then .ok (some info.importModule.name)
  else
    match relativePackage importing info.importLevel with
    | .error e => .error e
    | .ok none => .ok none
    | .ok (some pkg) =>
      let name := if info.importModule.name ≠ [] then pkg ++ '.' :: info.importModule.name else pkg
      if name = [] || name.head? = some '.' then .error .assertion else .ok (some name)

/-- `_modulegraph.py` 833-918, `_process_import`.  The final step records the ghost event
`imported`. -/
def processImport (importing : Node) (info : ImportInfo) : M W Unit :=
  M.bind (M.ofExcept (absoluteName importing info)) fun a =>
  match a with
  | none =>
    let name := List.replicate info.importLevel '.' ++ info.importModule.name
    M.bind (M.findModule name) fun r =>
    M.bind (match r with
      | none =>
        let node := invalidRelNode name
        M.bind (M.addNode node) fun _ =>
        M.bind (M.schedule node []) fun _ => M.pure node
      | some n => M.bind (M.assert n.isInvalidRel) fun _ => M.pure n) fun node =>
    M.bind (M.addEdge importing.ident node.ident (fromImportInfo info false none)) fun _ =>
    M.modify fun s => s.event (.imported importing.ident info node.ident)
  | some name =>
    M.bind M.get fun s =>
    let offset := s.stack.length
    M.bind (rec.findOrLoad (some importing) name true) fun node =>
    M.bind (M.addEdge importing.ident node.ident
      (fromImportInfo info false info.importModule.asname)) fun _ =>
    M.modify fun s =>
      { s with stack := s.stack.take offset ++ [.nl importing node info] ++ s.stack.drop offset,
               log := s.log ++ [.imported importing.ident info node.ident] }

/-- `_modulegraph.py` 967-979: looking for a module that the imported module re-exports as
`nm`: the first successor (in iteration order) reached by an edge imported under that name, or
named like that. -/
def reexported (s : St W) (imported : Node) (nm : Str) : Option Str :=
  (env.outOrder s.world (s.succs imported.ident)).find? fun t =>
    (s.attrs imported.ident t).any (fun d => d.importedAs == some nm) || t == nm

/-- `_modulegraph.py` 963-1037: the loop over the imported names, one name. -/
def processName (importing imported : Node) (info : ImportInfo) (nm : ImpName) : M W Unit :=
  M.bind M.get fun s =>
  let dep := fromImportInfo info true nm.asname
  let submodule : M W Unit :=
    M.bind (rec.findOrLoad (some importing) (imported.ident ++ '.' :: nm.name) false) fun sub =>
    M.bind M.get fun s =>
    let link : M W Unit :=
      M.bind (M.addEdge sub.ident imported.ident defaultDep) fun _ =>
      M.addEdge importing.ident sub.ident dep
    if sub.isMissing then
      match imported.kind with
      | .package _ init _ _ _ =>
        if init.name = c!"@@SIX_MOVES@@" then
          match sixMove nm.name with
          | some target =>
            M.bind (rec.findOrLoad (some importing) target true) fun depNode =>
            M.addEdge importing.ident depNode.ident defaultDep
          | none => link
        else if (s.globalsWritten imported).contains nm.name then M.pure ()
        else link
      | _ => link
    else link
  if (s.globalsWritten imported).contains nm.name then
    match reexported env s imported nm.name with
    | some t => M.addEdge importing.ident t dep
    | none => if imported.isModule then M.pure () else submodule
  else if imported.isModule then M.pure ()
  else submodule

/-- `_modulegraph.py` 962-1037: the names of an import list, for a module or package. -/
def processNames (importing imported : Node) (info : ImportInfo) : M W Unit :=
  M.bind (M.modify fun s =>
    s.addGlobals importing.ident (info.importNames.map ImpName.name)) fun _ =>
  M.forEach info.importNames fun nm => processName env rec importing imported info nm

/-- `_modulegraph.py` 920-1038, `_process_namelist`. -/
def processNamelist (importing imported : Node) (info : ImportInfo) : M W Unit :=
  M.bind (M.assert (importing.isModule || importing.isPackage || importing.isScript)) fun _ =>
  if info.starImport then
    if imported.isPackage || imported.isModule then
      M.modify fun s => s.addGlobals importing.ident (s.gw imported.ident)
    else M.pure ()
  else if !info.importNames.isEmpty &&
      (imported.isPackage || imported.isNamespacePkg || imported.isAlias || imported.isModule) then
    match imported.kind with
    | .alias actual =>
      M.bind (M.modify fun s =>
        s.addGlobals importing.ident (info.importNames.map ImpName.name)) fun _ =>
      M.bind (M.findModule actual) fun r =>
      match r with
      | none => M.throw .assertion
      | some node =>
        if node.isPackage || node.isNamespacePkg || node.isModule then
          processNames env rec importing node info
        else M.pure ()
    | _ => processNames env rec importing imported info
  else M.pure ()

/-- `_modulegraph.py` 289-351, `import_package`.  The directory listings are taken when the loop
over them starts. -/
def importPackageBody (importing : Node) (name : Str) : M W Node :=
  M.bind (M.findModule name) fun r =>
  M.bind (M.savedStack
    (M.bind (match r with
      | some n => M.pure n
      | none => rec.findOrLoad none name true) fun node =>
    M.bind rec.runStack fun _ => M.pure node)) fun node =>
  M.bind (M.addEdge importing.ident node.ident defaultDep) fun _ =>
  if !node.isPackage then M.pure node
  else
    M.bind (M.ext (env.findSpec name)) fun spec =>
    match spec with
    | none => M.throw .assertion
    | some spec =>
      M.bind (M.forEach (spec.searchLocations.getD []) fun path =>
        M.bind (M.ext (env.globPy path)) fun stems =>
        M.bind (M.forEach stems fun stem =>
          if !env.isIdentifier stem then M.pure ()
          else
            M.bind (rec.findOrLoad (some node) (name ++ '.' :: stem) true) fun m =>
            M.bind (M.addEdge node.ident m.ident defaultDep) fun _ =>
            M.modify fun s => { s with stack := s.stack ++ [.pkg node (name ++ '.' :: stem)] }) fun _ =>
        M.bind (M.ext (env.subdirs path)) fun dirs =>
        M.forEach dirs fun d =>
          if !env.isIdentifier d then M.pure ()
          else M.modify fun s => { s with stack := s.stack ++ [.pkg node (name ++ '.' :: d)] }) fun _ =>
      M.pure node

/-- Running a work item: `func(*args)` at `_modulegraph.py` 480. -/
def runItem : Item → M W Unit
  | .pp node => rec.callPost 0 node
  | .imp node info => processImport rec node info
  | .nl importing imported info => processNamelist env rec importing imported info
  | .pkg node name => M.bind (rec.importPackage node name) fun _ => M.pure ()

/-- `_work_stack.pop()`: the last item, with the ghost event `started`. -/
def popItem : M W (Option Item) := fun s =>
  match s.stack.getLast? with
  | none => (.ok none, s)
  | some it => (.ok (some it), { s with stack := s.stack.dropLast, log := s.log ++ [.started it] })

/-- `_modulegraph.py` 473-480, `_run_stack`. -/
def runStackBody : M W Unit :=
  M.bind popItem fun it =>
  match it with
  | none => M.pure ()
  | some it => M.bind (runItem env rec it) fun _ => rec.runStack

/-- `_modulegraph.py` 145-169, `add_script` with `_load_script` 681-724. -/
def addScript (path : Str) : M W Node :=
  M.bind (M.findModule path) fun r =>
  match r with
  | some _ => M.throw (.valueError false)
  | none =>
    M.bind (M.ext (env.loadScript path)) fun p =>
    let node : Node := { ident := path, kind := .script, filename := some p.2 }
    M.bind (M.addNode node) fun _ =>
    M.bind (M.schedule node p.1) fun _ =>
    M.bind (M.addRoot node.ident) fun _ =>
    M.bind rec.runStack fun _ => M.pure node

/-- `_modulegraph.py` 171-186, `add_module`. -/
def addModule (name : Str) : M W Node :=
  M.bind (M.findModule name) fun r =>
  M.bind (match r with
    | some n => M.pure n
    | none => rec.findOrLoad none name true) fun node =>
  M.bind (M.addRoot node.ident) fun _ =>
  M.bind rec.runStack fun _ => M.pure node

/-- `_modulegraph.py` 188-208, `add_dependencies_for_source`. -/
def addDependenciesForSource (source : Str) : M W Unit :=
  M.bind (M.ext (env.parseSource source)) fun infos =>
  M.forEach infos fun info =>
    M.bind (addModule rec info.importModule.name) fun _ =>
    M.forEach info.importNames fun nm =>
      M.bind (addModule rec (info.importModule.name ++ '.' :: nm.name)) fun _ => M.pure ()

/-- `_modulegraph.py` 230-243: `add_distribution` for a distribution object. -/
def addDistribution (d : Dist) : M W Node :=
  M.bind (M.findNode d.identifier) fun r =>
  match r with
  | some n => M.bind (M.assert !n.isBaseNode) fun _ => M.pure n
  | none =>
    M.bind (M.addNode (distNode d)) fun _ =>
    M.bind (M.addRoot d.identifier) fun _ =>
    M.bind (M.forEach d.importNames fun name =>
      M.bind (rec.findOrLoad none name true) fun node =>
      M.addEdge d.identifier node.ident defaultDep) fun _ =>
    M.bind rec.runStack fun _ => M.pure (distNode d)

/-- `_modulegraph.py` 210-243, `add_distribution` for a name. -/
def addDistributionNamed (name : Str) : M W Node :=
  M.bind (M.ext (env.distributionNamed name)) fun r =>
  match r with
  | none => M.throw (.valueError false)
  | some d => addDistribution rec d

/-- `_modulegraph.py` 267-287, `import_module`. -/
def importModule (importing : Node) (name : Str) : M W Node :=
  M.bind (M.findModule name) fun r =>
  M.bind (match r with
    | some n => M.pure n
    | none => rec.findOrLoad (some importing) name true) fun node =>
  M.bind (M.addEdge importing.ident node.ident defaultDep) fun _ => M.pure node

/-- `_modulegraph.py` 421-422: one iteration of `add_excludes`. -/
def addExclude (s : St W) (name : Str) : St W :=
  { s with lazy := fun k => if k = name then some .excluded else s.lazy k }

/-- `_modulegraph.py` 454-458: one iteration of `add_implies`. -/
def addImply (s : St W) (p : Str × Implies) : St W :=
  if s.lazy p.1 = some .excluded then s
  else { s with lazy := fun k => if k = p.1 then some p.2 else s.lazy k }

/-- The API operations. -/
def apiBody : ApiOp → M W (Option Node)
  | .addScript p => M.bind (addScript env rec p) fun n => M.pure (some n)
  | .addModule n => M.bind (addModule rec n) fun n => M.pure (some n)
  | .addDependenciesForSource s => M.bind (addDependenciesForSource env rec s) fun _ => M.pure none
  | .addDistribution d => M.bind (addDistribution rec d) fun n => M.pure (some n)
  | .addDistributionNamed n => M.bind (addDistributionNamed env rec n) fun n => M.pure (some n)
  | .importModule i n => M.bind (importModule rec i n) fun n => M.pure (some n)
  | .importPackage i n => M.bind (rec.importPackage i n) fun n => M.pure (some n)
  | .runStack => M.bind rec.runStack fun _ => M.pure none
  | .addMissingHook h =>
    M.bind (M.modify fun s => { s with missHooks := h :: s.missHooks }) fun _ => M.pure none
  | .addPostHook h =>
    M.bind (M.modify fun s => { s with postHooks := h :: s.postHooks }) fun _ => M.pure none
  | .addExcludes names =>
    M.bind (M.modify fun s => names.foldl addExclude s) fun _ => M.pure none
  | .addExcludesStr _ => M.throw .typeError
  | .addImplies l => M.bind (M.modify fun s => l.foldl addImply s) fun _ => M.pure none
  | .addNode n => M.bind (M.addNode n) fun _ => M.pure none
  | .addEdge a b d => M.bind (M.addEdge a b d) fun _ => M.pure none
  | .addRoot id => M.bind (M.addRoot id) fun _ => M.pure none
  | .processImportList n infos => M.bind (M.schedule n infos) fun _ => M.pure none

/-- An API call; if it ends with an exception the ghost event `failed` is recorded. -/
def opBody (op : ApiOp) : M W (Option Node) := fun s =>
  match apiBody env rec op s with
  | (.ok r, s') => (.ok r, s')
  | (.error e, s') => (.error e, s'.event .failed)

/-- One level of the recursion. -/
def callsStep : Calls W where
  findOrLoad := findOrLoadBody rec
  implied := impliedBody rec
  loadModule := loadModuleBody env rec
  createMissing := createMissingBody rec
  importPackage := importPackageBody env rec
  runStack := runStackBody env rec
  callPost := callPostBody env rec
  callMissing := callMissingBody env rec
  op := opBody env rec

end

/-- Out of recursion depth. -/
def callsZero (W : Type) : Calls W where
  findOrLoad _ _ _ := M.throw .fuel
  implied _ _ := M.throw .fuel
  loadModule _ _ := M.throw .fuel
  createMissing _ _ := M.throw .fuel
  importPackage _ _ := M.throw .fuel
  runStack := M.throw .fuel
  callPost _ _ := M.throw .fuel
  callMissing _ _ _ := M.throw .fuel
  op _ := M.throw .fuel

/-- The methods with recursion depth `n`. -/
def calls {W : Type} (env : Env W) : Nat → Calls W
  | 0 => callsZero W
  | n + 1 => callsStep env (calls env n)

/-- `_modulegraph.py` 69-89, `__init__`.  `stdlib` is the table used when `use_stdlib_implies`
is set (else empty), `builtin` is `use_builtin_hooks`. -/
def initState {W : Type} (w : W) (stdlib : List (Str × Implies)) (builtin : Bool) : St W :=
  let s : St W :=
    { world := w, lazy := fun k => if k = c!"__main__" then some .excluded else none }
  let s := stdlib.foldl addImply s
  if builtin then { s with missHooks := [.swig], postHooks := [.mypyc] } else s

/-- The state after a client program `p` ran (to whatever end) against a new graph. -/
def runClient {W : Type} (env : Env W) (n : Nat) (p : Hook W) (s : St W) :
    Except Exc (Option Node) × St W := interp (calls env n) p s

end Verif
