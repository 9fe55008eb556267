import Verif.Model.NodeForSpec
/-!
# Model of how source texts are read

`_load_script` in `modulegraph2/_modulegraph.py`, the parsing in `add_dependencies_for_source` and in the
hook for mypyc.  Code objects are left out, as in `Nodes.lean`: `compile` for its own sake only counts
because it may raise.
-/
namespace Verif
variable {W : Type}

/-- Files, decoding and the compiler. -/
structure Texts (W : Type) where
  /-- `open(path, "rb")`, `read()` -/
  readFile : Str → Ext W Str
  /-- `importlib.util.decode_source` -/
  decode : Str → Ext W Str
  /-- `compile(source, filename, "exec", flags=PyCF_ONLY_AST, ...)` -/
  parse : Str → Str → Ext W Ast
  /-- `compile(source, filename, "exec", ...)` -/
  compile : Str → Str → Ext W Unit
  /-- `pathlib.Path(filename).resolve()` -/
  resolve : Str → Ext W Str
  /-- the order of the sets in import information -/
  order : SetOrder

variable (T : Texts W)

/-- `_modulegraph.py` 701-721, the part of `_load_script` before the node is added (with the
constructor of `Script`, `_nodes.py` 77-79). -/
def loadScript (path : Str) : Ext W (List ImportInfo × Str) :=
  Ext.bind (T.readFile path) fun bytes =>
  Ext.bind (T.decode bytes) fun source =>
  Ext.bind (T.parse source path) fun tree =>
  Ext.bind (T.compile source path) fun _ =>
  Ext.bind (T.resolve path) fun file =>
  Ext.pure (extractAstInfo T.order tree, file)

/-- `_modulegraph.py` 198-205, in `add_dependencies_for_source`. -/
def parseSource (source : Str) : Ext W (List ImportInfo) :=
  Ext.bind (T.parse source c!"-source-code-") fun tree =>
  Ext.pure (extractAstInfo T.order tree)

/-- The graph builder with these texts. -/
def Env.withTexts (env : Env W) : Env W :=
  { env with loadScript := Verif.loadScript T, parseSource := Verif.parseSource T }

end Verif
