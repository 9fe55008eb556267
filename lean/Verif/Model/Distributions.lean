import Verif.Model.Nodes
import Verif.Model.Paths
import Verif.Model.Metadata
/-!
# Model of `modulegraph2/_distributions.py`

Distribution objects have an identity (a number), so that "the same object" can be stated.
-/
namespace Verif

/-- `_distributions.py` 97-101: the path in a line of RECORD. -/
def recordPath (ln : Str) : Str :=
  let rel := (rsplit ',' 2 ln).headD []
  if startsWith ['"'] rel && endsWith ['"'] rel then undouble '"' (dropEnd 1 (rel.drop 1)) else rel

/-- `_distributions.py` 106-121: the name to import a file by, if any.  `suffixes` is the list
`[".py", ".pyc"] + EXTENSION_SUFFIXES`. -/
def importName (suffixes : List Str) (rel : Str) : Option Str :=
  if contains c!"/__pycache__/" rel || startsWith c!"__pycache__/" rel then none
  else
    match suffixes.find? (fun suffix => endsWith suffix rel) with
    | none => none
    | some suffix =>
      if endsWith (c!"/__init__" ++ suffix) rel then
        some (replaceChar '/' '.' (dropEnd (9 + suffix.length) rel))
      else some (replaceChar '/' '.' (dropEnd suffix.length rel))

/-- `_distributions.py` 76, 103: a path in RECORD as an absolute path. -/
def absPath (distFile rel : Str) : Str := normpath (pathJoin (dirname distFile) rel)

/-- What the functions in this module use of the world. -/
structure DistEnv (W : Type) where
  /-- `sys.path` -/
  sysPath : W → List Str
  /-- `os.listdir` -/
  listdir : Str → W → Except Exc (List Str) × W
  /-- the contents of METADATA (78); characters from 128 on stand for bytes -/
  metadata : Str → W → Except Exc Str × W
  /-- the decoded contents of RECORD (86) -/
  record : Str → W → Except Exc Str × W
  /-- `importlib.machinery.EXTENSION_SUFFIXES` -/
  extSuffixes : List Str

section
variable {W : Type} (env : DistEnv W)

/-- `_distributions.py` 87-121: the contents of RECORD as lists of files and import names. -/
def recordFiles (distFile text : Str) : List Str :=
  (fileLines (universal text)).map fun ln => absPath distFile (recordPath ln)

def recordNames (text : Str) : List Str :=
  (fileLines (universal text)).filterMap fun ln =>
    importName ([c!".py", c!".pyc"] ++ env.extSuffixes) (recordPath ln)

/-- `_distributions.py` 63-125, `create_distribution`. -/
def createDistribution (distFile : Str) (w : W) : Except Exc Dist × W :=
  match env.metadata distFile w with
  | (.error e, w) => (.error e, w)
  | (.ok info, w) =>
    match strHeader c!"Name" (headers info), strHeader c!"Version" (headers info) with
    | none, _ => (.error .assertion, w)                              -- 82
    | some _, none => (.error .assertion, w)                         -- 84
    | some name, some version =>
      match env.record distFile w with
      | (.error e, w) => (.error e, w)
      | (.ok text, w) =>
        (.ok { identifier := distFile, name := name, version := version,
               files := (recordFiles distFile text).eraseDups,
               importNames := (recordNames env text).eraseDups }, w)

/-- A `PyPIDistribution` object; `id` is its identity. -/
structure DObj where
  id : Nat
  dist : Dist
deriving DecidableEq

/-- The state: the world, the dictionary `_cached_distributions` (128) and the number of objects
created.  `created` and `yielded` are ghosts: what `create_distribution` returned and what
`all_distributions` yielded, with the directory. -/
structure DSt (W : Type) where
  world : W
  cache : List (Str × DObj) := []
  next : Nat := 0
  created : List (Str × DObj) := []
  yielded : List (Str × DObj) := []

/-- `_distributions.py` 151-156. -/
def cachedDistribution (name : Str) (s : DSt W) : Except Exc DObj × DSt W :=
  match s.cache.lookup name with
  | some o => (.ok o, s)
  | none =>
    match createDistribution env name s.world with
    | (.error e, w) => (.error e, { s with world := w })
    | (.ok d, w) =>
      let o : DObj := ⟨s.next, d⟩
      (.ok o, { s with world := w, cache := (name, o) :: s.cache, next := s.next + 1,
                       created := s.created ++ [(name, o)] })

/-- `_distributions.py` 145-158: the loop over one directory.  The consumer of the generator stops
at the first distribution with `stop`. -/
def scanDir (stop : Dist → Bool) (entry : Str) : List Str → DSt W → Except Exc (Option DObj) × DSt W
  | [], s => (.ok none, s)
  | fname :: rest, s =>
    if !endsWith c!".dist-info" fname then scanDir stop entry rest s
    else
      match cachedDistribution env (pathJoin entry fname) s with
      | (.error e, s) => (.error e, s)
      | (.ok o, s) =>
        let s := { s with yielded := s.yielded ++ [(pathJoin entry fname, o)] }
        if stop o.dist then (.ok (some o), s) else scanDir stop entry rest s

/-- `_distributions.py` 143-161: the loop over the path. -/
def scanPath (stop : Dist → Bool) : List Str → DSt W → Except Exc (Option DObj) × DSt W
  | [], s => (.ok none, s)
  | entry :: rest, s =>
    match env.listdir entry s.world with
    | (.error e, w) =>
      if e = .osError then scanPath stop rest { s with world := w }
      else (.error e, { s with world := w })
    | (.ok names, w) =>
      match scanDir env stop entry names { s with world := w } with
      | (.ok (some o), s) => (.ok (some o), s)
      | (.ok none, s) => scanPath stop rest s
      | (.error e, s) => if e = .osError then scanPath stop rest s else (.error e, s)

/-- `_distributions.py` 131-161, `all_distributions`, with a consumer that stops at the first
distribution with `stop`. -/
def allDistributions (stop : Dist → Bool) (path : Option (List Str)) (s : DSt W) :
    Except Exc (Option DObj) × DSt W :=
  scanPath env stop (path.getD (env.sysPath s.world)) s

/-- `_distributions.py` 164-181 with 50-60, `distribution_for_file`. -/
def distributionForFile (filename : Str) (path : Option (List Str)) (s : DSt W) :
    Except Exc (Option DObj) × DSt W :=
  allDistributions env (fun d => d.files.contains filename) path s

/-- `_distributions.py` 184-201, `distribution_named`. -/
def distributionNamed (name : Str) (path : Option (List Str)) (s : DSt W) :
    Except Exc (Option DObj) × DSt W :=
  allDistributions env (fun d => d.name == name) path s

end

end Verif
