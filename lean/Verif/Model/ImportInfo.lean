import Verif.Py.Str
/-!
# Model of `modulegraph2/_importinfo.py` and `modulegraph2/_depinfo.py`
-/
namespace Verif

/-- `_importinfo.py` 5-23, `import_name`: a `str` with an `asname` attribute.
Python equality and hashing of these values look at the string only, which is why
`dedupNames` compares `name`. -/
structure ImpName where
  name : Str
  asname : Option Str := none
deriving DecidableEq, Repr

/-- `_importinfo.py` 26-81, the frozen dataclass `ImportInfo`.  `import_names` is a
Python set; the list is its iteration order. -/
structure ImportInfo where
  importModule : ImpName
  importLevel : Nat
  importNames : List ImpName
  starImport : Bool
  inFunction : Bool
  inConditional : Bool
  inTryExcept : Bool
deriving DecidableEq, Repr

/-- `_importinfo.py` 67-73. -/
def ImportInfo.isOptional (i : ImportInfo) : Bool :=
  i.inFunction || i.inConditional || i.inTryExcept

/-- `_importinfo.py` 75-81. -/
def ImportInfo.isGlobal (i : ImportInfo) : Bool := !i.inFunction

/-- Building a Python set of `import_name` values from an iteration: an element whose
string is already present is not added again (`_importinfo.py` 114). -/
def dedupNames : List ImpName → List ImpName
  | [] => []
  | x :: xs => x :: (dedupNames xs).filter (fun y => y.name != x.name)

/-- `_importinfo.py` 84-127, `create_importinfo`.  `fromlist` is given in the order in
which Python iterates over it. -/
def createImportInfo (name : Str × Option Str) (fromlist : Option (List (Str × Option Str)))
    (level : Nat) (inDef inIf inTry : Bool) : ImportInfo :=
  let names := match fromlist with
    | none => []
    | some l => dedupNames (l.map fun t => { name := t.1, asname := t.2 })
  let haveStar := names.any (fun n => n.name == c!"*")
  { importModule := { name := name.1, asname := name.2 }
    importLevel := level
    importNames := if haveStar then names.filter (fun n => n.name != c!"*") else names
    starImport := haveStar
    inFunction := inDef
    inConditional := inIf
    inTryExcept := inTry }

/-- `_depinfo.py` 6-31, the frozen dataclass `DependencyInfo`. -/
structure DepInfo where
  isOptional : Bool
  isGlobal : Bool
  inFromlist : Bool
  importedAs : Option Str
deriving DecidableEq, Repr

/-- `_depinfo.py` 34-53, `from_importinfo`. -/
def fromImportInfo (i : ImportInfo) (inFromlist : Bool) (name : Option Str) : DepInfo :=
  { isOptional := i.isOptional, isGlobal := i.isGlobal, inFromlist := inFromlist,
    importedAs := name }

/-- `_modulegraph.py` 44, `DEFAULT_DEPENDENCY`. -/
def defaultDep : DepInfo :=
  { isOptional := false, isGlobal := true, inFromlist := false, importedAs := none }

end Verif
