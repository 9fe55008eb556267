import Verif.Model.Graph
import Verif.Model.Utilities
import Verif.Model.Export
/-!
# Model of the command line: `__main__.py`

The lexical part of `argparse` (abbreviated options, `-xNAME`, `--exclude=NAME`, `--`, `-h`) is not
modelled: an argument list is a list of options with their values and of groups of consecutive
positional arguments.
-/
namespace Verif

/-- `__main__.py` 115-124, `NodeType`. -/
inductive NodeType where
  | script | module | distribution
deriving DecidableEq

/-- `__main__.py` 127-135, `OutputFormat`. -/
inductive OutputFormat where
  | html | graphviz
deriving DecidableEq

/-- An option with its value, or a group of consecutive positional arguments. -/
inductive Arg where
  /-- `-m`, `-s`, `-d` -/
  | nodeType (t : NodeType)
  /-- `-f FORMAT` -/
  | format (f : Str)
  /-- `-x NAME` -/
  | exclude (name : Str)
  /-- `--exclude-stdlib` -/
  | excludeStdlib
  /-- `-p PATH` -/
  | path (p : Str)
  /-- `-o FILE` -/
  | output (file : Str)
  | names (l : List Str)
deriving DecidableEq

/-- The `argparse.Namespace`; `names = none`: not yet set. -/
structure Args where
  nodeType : NodeType := .module
  format : OutputFormat := .html
  excludes : List Str := []
  path : List Str := []
  outputFile : Option Str := none
  names : Option (List Str) := none
deriving DecidableEq

/-- `__main__.py` 178-244: the action of an option; `none` is a usage error.  The positional
argument `name` (`nargs="+"`) takes the first group of positional arguments, a second group is
an error. -/
def parseStep (stdlib : List Str) (a : Args) : Arg → Option Args
  | .nodeType t => some { a with nodeType := t }
  | .format f =>
    if f = c!"html" then some { a with format := .html }
    else if f = c!"dot" then some { a with format := .graphviz }
    else none
  | .exclude name => some { a with excludes := a.excludes ++ [name] }
  | .excludeStdlib => some { a with excludes := a.excludes ++ stdlib }
  | .path p => some { a with path := a.path ++ [p] }
  | .output file => some { a with outputFile := some file }
  | .names l =>
    match a.names with
    | some _ => none
    | none => if l.isEmpty then none else some { a with names := some l }

/-- `__main__.py` 149-250, `parse_arguments`; `none` is `SystemExit`. -/
def parseArguments (stdlib : List Str) (argv : List Arg) : Option Args :=
  match argv.foldl (fun r x => r.bind fun a => parseStep stdlib a x) (some {}) with
  | some a => if a.names.isNone then none else some a
  | none => none

variable {W : Type}

/-- `__main__.py` 270-278: the call for one name. -/
def addNamed (t : NodeType) (name : Str) : ApiOp :=
  match t with
  | .module => .addModule name
  | .script => .addScript name
  | .distribution => .addDistributionNamed name

/-- `__main__.py` 267-283: the graph is made and filled.  `implies` is the table for the standard
library. -/
def buildGraph (env : Env W) (n : Nat) (implies : List (Str × Implies)) (a : Args) :
    W → Except Exc (St W) × W := fun w =>
  let m : M W Unit :=
    M.bind ((calls env n).op (.addExcludes a.excludes)) fun _ =>
    M.forEach (a.names.getD []) fun name =>
      M.bind ((calls env n).op (addNamed a.nodeType name)) fun _ => M.pure ()
  match m (initState w implies true) with
  | (.ok _, s) => (.ok s, s.world)
  | (.error e, s) => (.error e, s.world)

/-- `__main__.py` 264-265: `for p in args.path[::-1]: sys.path.insert(0, p)`. -/
def insertPaths (sp : SysPath W) (path : List Str) (w : W) : W :=
  path.reverse.foldl (fun w p => sp.assign (sp.ref w) (p :: sp.path w) w) w

/-- `__main__.py` 253-283, `make_graph`. -/
def makeGraph (sp : SysPath W) (env : Env W) (n : Nat) (implies : List (Str × Implies)) (a : Args) :
    W → Except Exc (St W) × W :=
  savedSysPath sp fun w => buildGraph env n implies a (insertPaths sp a.path w)

/-- Text files.  `stderr` is `print(exc, file=sys.stderr)`. -/
structure Output (W : Type) where
  /-- `sys.stdout.write(text)` -/
  stdout : Str → Ext W Unit
  /-- `open(file, "w")`; files are numbers -/
  openFile : Str → Ext W Nat
  /-- `fp.write(text)` -/
  write : Nat → Str → Ext W Unit
  /-- `fp.close()` -/
  close : Nat → Ext W Unit
  stderr : W → W

/-- How a program ends: normally, with `SystemExit`, or with another exception. -/
inductive Exit where
  | returned
  | status (n : Nat)
  | raised (e : Exc)
deriving DecidableEq

/-- `__main__.py` 287-307, `print_graph`: the text (it is written piece by piece in the code). -/
def graphText (format : OutputFormat) (g : Iter) : Str :=
  match format with
  | .html => exportHtml g
  | .graphviz => exportDot g

/-- `with open(file, "w") as fp: fp.write(text)`: the file is closed in any case; an exception of
`close` replaces that of the block. -/
def writeFile (o : Output W) (file text : Str) : Ext W Unit := fun w =>
  match o.openFile file w with
  | (.error e, w') => (.error e, w')
  | (.ok fp, w') =>
    match o.write fp text w' with
    | (.ok _, w'') => o.close fp w''
    | (.error e, w'') =>
      match o.close fp w'' with
      | (.ok _, w3) => (.error e, w3)
      | (.error e', w3) => (.error e', w3)

/-- `__main__.py` 310-329, `format_graph`. -/
def formatGraph (o : Output W) (a : Args) (g : Iter) : W → Exit × W := fun w =>
  match a.outputFile with
  | none =>
    match o.stdout (graphText a.format g) w with
    | (.ok _, w') => (.returned, w')
    | (.error e, w') => (.raised e, w')
  | some file =>
    match writeFile o file (graphText a.format g) w with
    | (.ok _, w') => (.returned, w')
    | (.error e, w') => if e = .osError then (.status 1, o.stderr w') else (.raised e, w')

/-- `__main__.py` 332-342, `main`.  `iter` are the iterators of the graph; a usage error of
`argparse` ends the program with status 2. -/
def main (o : Output W) (sp : SysPath W) (env : Env W) (n : Nat) (implies : List (Str × Implies))
    (stdlib : List Str) (iter : St W → Iter) (argv : List Arg) : W → Exit × W := fun w =>
  match parseArguments stdlib argv with
  | none => (.status 2, o.stderr w)
  | some a =>
    match makeGraph sp env n implies a w with
    | (.error e, w') => (.raised e, w')
    | (.ok s, w') => formatGraph o a (iter s) w'

end Verif
