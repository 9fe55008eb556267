import Verif.Model.Graph
/-!
# A small concrete world, for examples and counterexamples

The world is a table of importable modules.  Nothing here is used in a theorem about all worlds.
-/
namespace Verif.Demo

/-- A table of what is importable and of the hooks. -/
structure Table where
  /-- node and imports for a module name -/
  mods : List (Str × Node × List ImportInfo) := []
  /-- imports of scripts and of sources -/
  scripts : List (Str × List ImportInfo) := []
  dists : List Dist := []
  files : List Str := []
  pyFiles : List (Str × List Str) := []
  dirs : List (Str × List Str) := []
  post : Nat → Node → Hook Unit := fun _ _ => .ret none
  missing : Nat → Option Node → Str → Hook Unit := fun _ _ _ => .ret none

def lookup {β : Type} (l : List (Str × β)) (k : Str) : Option β :=
  (l.find? fun p => p.1 == k).map Prod.snd

def specOf (name : Str) (n : Node) : Spec :=
  { name := name, loader := .inspect,
    searchLocations := match n.kind with | .package _ _ sp _ _ => some sp | _ => none }

def env (t : Table) : Env Unit where
  findSpec name w := (.ok ((lookup t.mods name).map fun p => specOf name p.1), w)
  findSpecRel name pkg w :=
    (.ok ((lookup t.mods (pkg ++ '.' :: name)).map fun p => specOf (pkg ++ '.' :: name) p.1), w)
  inSysModules _ _ := false
  popModule _ w := (.error .keyError, w)
  setModule _ _ w := w
  setFake _ _ w := w
  delModule _ w := (.ok (), w)
  isInspectLoader _ _ := true
  isPackage sp w := (.ok sp.searchLocations.isSome, w)
  nodeForSpec sp w := match lookup t.mods sp.name with
    | some p => (.ok p, w)
    | none => (.error .runtimeError, w)
  loadScript p w := match lookup t.scripts p with
    | some i => (.ok (i, p), w)
    | none => (.error .osError, w)
  parseSource p w := match lookup t.scripts p with
    | some i => (.ok i, w)
    | none => (.error .syntaxError, w)
  distributionNamed n w := (.ok (t.dists.find? fun d => d.name == n), w)
  globPy p w := (.ok ((lookup t.pyFiles p).getD []), w)
  subdirs p w := (.ok ((lookup t.dirs p).getD []), w)
  isIdentifier n := !n.isEmpty
  outOrder _ l := l
  isFile p w := (.ok (t.files.contains p), w)
  readBytes p w := (.ok p, w)
  compileAst p w := match lookup t.scripts p with
    | some i => (.ok i, w)
    | none => (.error .syntaxError, w)
  userPost := t.post
  userMissing := t.missing

def src (name : Str) (globals : List Str := []) : Node :=
  { ident := name, kind := .module .source, globalsWritten := globals }

def pkg (name : Str) (path : List Str := []) (globals : List Str := []) : Node :=
  { ident := name, kind := .package false { name := c!"__init__", kind := .source } path false none,
    globalsWritten := globals }

/-- `import name` at module level -/
def imp (name : Str) : ImportInfo := createImportInfo (name, none) none 0 false false false
/-- `from <level dots>name import names` at module level -/
def fromImp (level : Nat) (name : Str) (names : List Str) : ImportInfo :=
  createImportInfo (name, none) (some (names.map fun n => (n, none))) level false false false

/-- A client that performs the operations in order, ignoring exceptions, then looks. -/
def client : List ApiOp → Hook Unit
  | [] => .look fun _ => .ret none
  | o :: l => .call o fun _ => client l

/-- The state after such a client. -/
def run (t : Table) (l : List ApiOp) (stdlib : List (Str × Implies) := []) (fuel : Nat := 30) :
    Except Exc (Option Node) × St Unit :=
  runClient (env t) fuel (client l) (initState () stdlib true)

/-- `a` imports `b` and the missing `m`; `b` does `from p import q`; `p.q` imports `a`; `s` is a
script importing `a`. -/
def small : Table where
  mods := [(c!"a", src c!"a", [imp c!"b", imp c!"m"]),
    (c!"b", src c!"b", [fromImp 0 c!"p" [c!"q"]]),
    (c!"p", pkg c!"p", []),
    (c!"p.q", src c!"p.q", [imp c!"a"])]
  scripts := [(c!"/s.py", [imp c!"a"])]

end Verif.Demo
