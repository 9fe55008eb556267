import Verif.Model.ImportInfo
/-!
# Model of `modulegraph2/_nodes.py` and of the class `PyPIDistribution`

Nodes are values.  The only attribute the library mutates after a node was put in the
graph is the set `globals_written`; the graph state keeps that set separately (see
`Graph.lean`), the `globalsWritten` field here is its initial value.  The attributes
`loader`, `code` and `extension_attributes` are not modelled: no modelled function
reads them.
-/
namespace Verif

/-- `_distributions.py` 15-60, `PyPIDistribution`.  `importNames` and `files` are Python sets,
the lists are their iteration order. -/
structure Dist where
  identifier : Str
  name : Str
  version : Str := []
  files : List Str := []
  importNames : List Str := []
deriving DecidableEq, Repr

/-- The subclasses of `Module` (`_nodes.py` 132-188). -/
inductive ModKind where
  | source | frozen | bytecode | extension | builtin | invalid
deriving DecidableEq, Repr

/-- The values of `Package.namespace_type` other than `None` (`_nodes.py` 240-247). -/
inductive NsType where
  | pkgutil | pkgResources
deriving DecidableEq, Repr

/-- The attributes of `Package.init_module` that are used elsewhere. -/
structure InitModule where
  name : Str
  kind : ModKind
  filename : Option Str := none
deriving DecidableEq, Repr

/-- The class of a node, with the attributes specific to that class. -/
inductive Kind where
  | script                                   -- `Script`, `_nodes.py` 52-90
  | module (m : ModKind)                     -- `Module` subclasses, 93-188
  | namespacePkg (searchPath : List Str)     -- `NamespacePackage`, 191-215
  | package (frozen : Bool) (init : InitModule) (searchPath : List Str) (hasData : Bool)
      (ns : Option NsType)                   -- `Package`/`FrozenPackage`, 218-268
  | excluded                                 -- `ExcludedModule`, 271-285
  | missing                                  -- `MissingModule`, 288-302
  | invalidRel                               -- `InvalidRelativeImport`, 305-322
  | virtual (providing : Str)                -- `VirtualNode`, 325-348
  | alias (actual : Str)                     -- `AliasNode`, 351-372
  | dist (d : Dist)                          -- `PyPIDistribution` (not a `BaseNode`)
deriving DecidableEq, Repr

/-- A graph node.  For `BaseNode`s the identifier is the name (`_nodes.py` 43-49); for
distributions it is the path of the dist-info directory. -/
structure Node where
  ident : Str
  kind : Kind
  distribution : Option Dist := none
  filename : Option Str := none
  globalsWritten : List Str := []
  globalsRead : List Str := []
deriving DecidableEq, Repr

namespace Node

/-- `isinstance(node, BaseNode)`. -/
def isBaseNode (n : Node) : Bool := match n.kind with | .dist _ => false | _ => true
/-- `isinstance(node, Script)`. -/
def isScript (n : Node) : Bool := match n.kind with | .script => true | _ => false
/-- `isinstance(node, Module)`. -/
def isModule (n : Node) : Bool := match n.kind with | .module _ => true | _ => false
/-- `isinstance(node, Package)`. -/
def isPackage (n : Node) : Bool := match n.kind with | .package .. => true | _ => false
/-- `isinstance(node, NamespacePackage)`. -/
def isNamespacePkg (n : Node) : Bool := match n.kind with | .namespacePkg _ => true | _ => false
/-- `isinstance(node, MissingModule)`. -/
def isMissing (n : Node) : Bool := match n.kind with | .missing => true | _ => false
/-- `isinstance(node, ExcludedModule)`. -/
def isExcluded (n : Node) : Bool := match n.kind with | .excluded => true | _ => false
/-- `isinstance(node, InvalidRelativeImport)`. -/
def isInvalidRel (n : Node) : Bool := match n.kind with | .invalidRel => true | _ => false
/-- `isinstance(node, AliasNode)`. -/
def isAlias (n : Node) : Bool := match n.kind with | .alias _ => true | _ => false
/-- `isinstance(node, ExtensionModule)`. -/
def isExtension (n : Node) : Bool := match n.kind with | .module .extension => true | _ => false

/-- `_nodes.py` 115-121, the property `Module.uses_dunder_import`. -/
def usesDunderImport (n : Node) : Bool := n.globalsRead.contains c!"__import__"
/-- `_nodes.py` 123-129, the property `Module.uses_dunder_file`. -/
def usesDunderFile (n : Node) : Bool := n.globalsRead.contains c!"__file__"

end Node

/-- `MissingModule(name)`, `_nodes.py` 295-302. -/
def missingNode (name : Str) : Node := { ident := name, kind := .missing }
/-- `ExcludedModule(name)`, `_nodes.py` 278-285. -/
def excludedNode (name : Str) : Node := { ident := name, kind := .excluded }
/-- `InvalidRelativeImport(name)`, `_nodes.py` 315-322. -/
def invalidRelNode (name : Str) : Node := { ident := name, kind := .invalidRel }
/-- `AliasNode(name, actual)`, `_nodes.py` 364-372. -/
def aliasNode (name actual : Str) : Node := { ident := name, kind := .alias actual }
/-- `VirtualNode(name, providing)`, `_nodes.py` 340-348. -/
def virtualNode (name providing : Str) : Node := { ident := name, kind := .virtual providing }
/-- A distribution as a graph node. -/
def distNode (d : Dist) : Node := { ident := d.identifier, kind := .dist d }

/-- `_graphbuilder.py` 513-526, `relative_package`.  The assertion `import_level > 0` is the
first branch. -/
def relativePackage (importing : Node) (level : Nat) : Except Exc (Option Str) :=
  if level = 0 then .error .assertion
  else
    let level := if importing.isPackage || importing.isNamespacePkg then level - 1 else level
    let bits := rsplit '.' level importing.ident
    if bits.length < level + 1 then .ok none
    else
      match bits with
      | [] => .error .indexError
      | b :: _ => .ok (some b)

end Verif
