import Verif.Model.Graph
import Verif.Model.Ast
import Verif.Model.Bytecode
/-!
# Model of `node_for_spec` in `modulegraph2/_graphbuilder.py`

The recursion (a module that is found under another name) is limited by a number `n`; it ends in
the model exception `fuel`.  `pathlib.Path(x)` is `x`.  The attributes `loader`, `code` and
`extension_attributes` of nodes are left out, as in `Nodes.lean`.
-/
namespace Verif
variable {W : Type}

namespace Ext
variable {α β : Type}

/-- Sequencing. -/
def bind (x : Ext W α) (f : α → Ext W β) : Ext W β := fun w =>
  match x w with
  | (.ok a, w') => f a w'
  | (.error e, w') => (.error e, w')

/-- A value. -/
def pure (a : α) : Ext W α := fun w => (.ok a, w)
/-- `raise`. -/
def throw (e : Exc) : Ext W α := fun w => (.error e, w)
/-- `try: x except p: h`. -/
def catching (x : Ext W α) (p : Exc → Bool) (h : Ext W α) : Ext W α := fun w =>
  match x w with
  | (.ok a, w') => (.ok a, w')
  | (.error e, w') => if p e then h w' else (.error e, w')

end Ext

/-- What `node_for_spec` asks of the outside world. -/
structure Loaders (W : Type) where
  /-- `importlib.util.find_spec(name)` -/
  findSpec : Str → Ext W (Option Spec)
  /-- `spec.loader.get_source(spec.name)` -/
  getSource : Spec → Ext W (Option Str)
  /-- `compile(source, filename, "exec", flags=PyCF_ONLY_AST, ...)` -/
  parse : Str → Str → Ext W Ast
  /-- `spec.loader.get_code(spec.name)` -/
  getCode : Spec → Ext W (Option Code)
  /-- `spec.loader.is_package(spec.name)` -/
  isPackage : Spec → Ext W Bool
  /-- `distribution_for_file(filename, path)`, see `Distributions.lean` -/
  distributionForFile : Str → Ext W (Option Dist)
  /-- `_contains_datafiles(directory)`, see `DataFiles.lean` -/
  containsDatafiles : Str → Ext W Bool
  /-- `getattr(importlib.import_module(name), "__path__", [])` -/
  importPath : Str → Ext W (Option (List Str))
  /-- `del sys.modules[name]` -/
  delModule : Str → Ext W Unit
  /-- `importlib.invalidate_caches()` -/
  invalidate : Ext W Unit
  /-- `path.parent` -/
  parent : Str → Str
  /-- the interpreter is 3.11 or newer (for the bytecode scan) -/
  new : Bool
  /-- the order of the sets in import information -/
  order : SetOrder

section
variable (L : Loaders W)

/-- `distribution_for_file(spec.origin, path) if spec.origin is not None else None`. -/
def distFor (origin : Option Str) : Ext W (Option Dist) :=
  match origin with
  | some o => L.distributionForFile o
  | none => Ext.pure none

/-- `s.find(sub)`, `none` is -1. -/
def strFind (sub : Str) : Str → Option Nat
  | [] => if sub.isEmpty then some 0 else none
  | x :: xs => if sub.isPrefixOf (x :: xs) then some 0 else (strFind sub xs).map (· + 1)

/-- `_graphbuilder.py` 366: `spec.name[spec.name.find(".moves.") + 7:]`. -/
def sixRelative (name : Str) : Str :=
  match strFind c!".moves." name with
  | some k => name.drop (k + 7)
  | none => name.drop 6

/-- What the branch for loaders with an `InspectLoader` interface finds out. -/
structure Inspected where
  node : Node
  kind : ModKind
  source : Option Str
  imports : List ImportInfo

/-- `_graphbuilder.py` 262-281: the syntax tree, as imports; `none` is `ast_imports = None`, the
flag tells whether `node_type` became `InvalidModule`. -/
def astPart (spec : Spec) (source : Option Str) : Ext W (Option (List ImportInfo) × Bool) :=
  match source with
  | none => Ext.pure (none, false)
  | some src =>
    match spec.origin with
    | none => Ext.throw .assertion
    | some f =>
      Ext.catching
        (Ext.bind (L.parse src f) fun a => Ext.pure (some (extractAstInfo L.order a), false))
        (· == .syntaxError) (Ext.pure (none, true))

/-- `_graphbuilder.py` 283-292: the code object and its scan; `none` is the handler for
`SyntaxError`. -/
def codePart (spec : Spec) : Ext W (Option (List ImportInfo × List Str × List Str)) :=
  Ext.catching
    (Ext.bind (L.getCode spec) fun c =>
      match c with
      | none => Ext.throw .assertion
      | some code =>
        match extractBytecodeInfo L.new code with
        | .ok r => Ext.pure (some r)
        | .error e => Ext.throw e)
    (· == .syntaxError) (Ext.pure none)

/-- `_graphbuilder.py` 224-326.  `none` for the source with a result is the early return
of 236-257, which is the first component. -/
def inspectPart (spec : Spec) : Ext W (Bool × Inspected) :=
  let origin := if spec.loader = .frozen then none else spec.origin
  Ext.bind
    (Ext.catching (Ext.bind (L.getSource spec) fun s => Ext.pure (some s))
      (· == .syntaxError) (Ext.pure none)) fun got =>
  match got with
  | none =>
    Ext.bind (distFor L origin) fun d =>
    Ext.pure (true,
      { node := { ident := spec.name, kind := .module .invalid, distribution := d,
                  filename := origin }
        kind := .invalid, source := none, imports := [] })
  | some source =>
    Ext.bind (astPart L spec source) fun ast =>
    Ext.bind (codePart L spec) fun code =>
    let kind : ModKind :=
      if ast.2 || code.isNone then .invalid
      else if spec.loader = .frozen then .frozen
      else if source.isSome then .source
      else .bytecode
    let found := code.getD ([], [], [])
    Ext.bind (distFor L origin) fun d =>
    Ext.pure (false,
      { node := { ident := spec.name, kind := .module kind, distribution := d, filename := origin,
                  globalsWritten := found.2.1, globalsRead := found.2.2 }
        kind := kind, source := source, imports := ast.1.getD found.1 })

/-- `_graphbuilder.py` 468-489: recognise a package that extends its `__path__`. -/
def namespaceType (spec : Spec) (node : Node) (source : Option Str) :
    Ext W (Option NsType × Option (List Str)) :=
  match source with
  | none => Ext.pure (none, spec.searchLocations)
  | some src =>
    if decide (c!"__import__" ∈ node.globalsRead) &&
        (contains c!"pkg_resources" src || contains c!"pkgutil" src) then
      Ext.bind
        (Ext.catching (L.importPath node.ident) Exc.isImportError
          (Ext.pure spec.searchLocations)) fun locs =>
      Ext.pure (some (if contains c!"pkg_resources" src then .pkgResources else .pkgutil), locs)
    else Ext.pure (none, spec.searchLocations)

/-- `_graphbuilder.py` 463-511: put a package around the node of its `__init__`. -/
def wrapPackage (spec : Spec) (node : Node) (kind : ModKind) (source : Option Str)
    (imports : List ImportInfo) : Ext W (Node × List ImportInfo) :=
  Ext.bind (L.isPackage spec) fun isPkg =>
  if isPkg then
    let dir := node.filename.map L.parent
    Ext.bind (namespaceType L spec node source) fun ns =>
    match ns.2 with
    | none => Ext.throw .assertion
    | some locs =>
      Ext.bind
        (match dir with
         | some d => L.containsDatafiles d
         | none => Ext.pure false) fun data =>
      Ext.pure
        ({ ident := node.ident
           kind := .package (decide (spec.loader = .frozen))
             { name := node.ident, kind := kind, filename := node.filename } locs data ns.1
           distribution := node.distribution
           filename := dir
           globalsWritten := node.globalsWritten
           globalsRead := node.globalsRead }, imports)
  else Ext.pure (node, imports)

/-- `_graphbuilder.py` 372-383 and 422-428: look up a name, and do so again without the entry in
`sys.modules` when that gives back the module itself. -/
def findAgain (self actual : Str) : Ext W (Option Spec) :=
  Ext.bind (L.findSpec actual) fun sp =>
  match sp with
  | none => Ext.pure none
  | some m =>
    if m.name = self then
      Ext.bind (L.delModule actual) fun _ =>
      Ext.bind L.invalidate fun _ => L.findSpec actual
    else Ext.pure (some m)

/-- `_graphbuilder.py` 160-511, `node_for_spec`. -/
def nodeForSpec : Nat → Spec → Ext W (Node × List ImportInfo)
  | 0, _ => Ext.throw .fuel
  | n + 1, spec =>
    match spec.loader with
    | .none_ | .namespace =>
      match spec.searchLocations with
      | none => Ext.throw .assertion
      | some locs =>
        Ext.pure ({ ident := spec.name, kind := .namespacePkg locs, filename := spec.origin }, [])
    | .builtin =>
      wrapPackage L spec { ident := spec.name, kind := .module .builtin } .builtin none []
    | .extension =>
      Ext.bind (distFor L spec.origin) fun d =>
      wrapPackage L spec { ident := spec.name, kind := .module .extension, distribution := d,
                           filename := spec.origin } .extension none []
    | .inspect | .frozen =>
      Ext.bind (inspectPart L spec) fun r =>
      if r.1 then Ext.pure (r.2.node, r.2.imports)
      else wrapPackage L spec r.2.node r.2.kind r.2.source r.2.imports
    | .six =>
      if endsWith c!".moves" spec.name then
        Ext.bind (distFor L spec.origin) fun _ =>
        Ext.pure
          ({ ident := spec.name
             kind := .package false { name := c!"@@SIX_MOVES@@", kind := .frozen } [] false none
             globalsWritten := sixMovesGlobals }, [])
      else
        match sixMove (sixRelative spec.name) with
        | none => Ext.pure (missingNode spec.name, [])
        | some actual =>
          Ext.bind (findAgain L spec.name actual) fun sp =>
          match sp with
          | none => Ext.pure (missingNode actual, [])
          | some moved =>
            if spec.name = moved.name then Ext.throw .assertion else nodeForSpec n moved
    | .vendor root vendorPkg =>
      let relative := spec.name.drop (root.length + 1)
      let full := vendorPkg ++ '.' :: relative
      Ext.bind
        (Ext.catching (findAgain L spec.name full)
          (fun e => match e with | .moduleNotFound _ => true | _ => false)
          (L.findSpec relative)) fun sp =>
      match sp with
      | none => Ext.pure (missingNode full, [])
      | some moved =>
        if spec.name = moved.name then Ext.throw .assertion else nodeForSpec n moved
    | .distutils =>
      if spec.name ≠ c!"distutils" then Ext.throw .assertion
      else
        Ext.bind (L.delModule c!"setuptools._distutils") fun _ =>
        Ext.bind L.invalidate fun _ =>
        Ext.bind (L.findSpec c!"setuptools._distutils") fun sp =>
        match sp with
        | none => Ext.pure (missingNode c!"distutils", [])
        | some moved =>
          if spec.name = moved.name then Ext.throw .assertion else nodeForSpec n moved
    | .unknown => Ext.throw .runtimeError

/-- The graph builder with this `node_for_spec` (the other operations are those of `env`). -/
def Env.withLoaders (env : Env W) (n : Nat) : Env W := { env with nodeForSpec := Verif.nodeForSpec L n }

end
end Verif
