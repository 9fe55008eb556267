import Verif.Py.Str
/-!
# Model of `_contains_datafiles` (`modulegraph2/_graphbuilder.py` 102-157)

The file system does not change while it is looked at, and every existing directory can be listed.
-/
namespace Verif

/-- What `iterdir()` yields for a directory, in that order: files and sub-directories, these with
their own contents.  Entries that are neither (broken links, devices) count as files, as for
`is_dir()`.  `zip` is the list of names in the archive if the file is a zip file. -/
inductive Tree where
  | nil
  | file (name : Str) (zip : Option (List Str)) (rest : Tree)
  | dir (name : Str) (contents : Tree) (rest : Tree)
deriving DecidableEq, Repr

/-- The names of `_graphbuilder.py` 115 and 136. -/
def ignoredNames : List Str := [c!"__pycache__", c!".hg", c!".svn", c!".hg"]

/-- `any(name.endswith(sfx) for sfx in importlib.machinery.all_suffixes())`
(`_graphbuilder.py` 111, 141-143). -/
def hasModuleSuffix (sfx : List Str) (name : Str) : Bool := sfx.any fun x => endsWith x name

/-- `_graphbuilder.py` 109-122: the loop over the entries of an existing directory. -/
def treeHasData (sfx : List Str) : Tree → Bool
  | .nil => false
  | .file name _ rest =>
    if hasModuleSuffix sfx name then treeHasData sfx rest
    else if name ∈ ignoredNames then treeHasData sfx rest
    else true
  | .dir name contents rest =>
    if hasModuleSuffix sfx name then treeHasData sfx rest
    else if name ∈ ignoredNames then treeHasData sfx rest
    else treeHasData sfx contents

/-- What a path refers to. -/
inductive Target where
  | file (zip : Option (List Str))
  | dir (contents : Tree)

/-- Look up a single name in a directory. -/
def Tree.entry (name : Str) : Tree → Option Target
  | .nil => none
  | .file n z rest => if n = name then some (.file z) else rest.entry name
  | .dir n c rest => if n = name then some (.dir c) else rest.entry name

/-- Look up a path, given as list of components; the empty path is the directory itself. -/
def Tree.lookup (t : Tree) : List Str → Option Target
  | [] => some (.dir t)
  | a :: p =>
    match t.entry a with
    | some (.dir c) => c.lookup p
    | some (.file z) => if p = [] then some (.file z) else none
    | none => none

/-- `_graphbuilder.py` 125-128: the nearest existing parent and the components below it. `up` are
the components of the directory in reverse. -/
def existingParent (t : Tree) (up : List Str) (names : List Str) : Target × List Str :=
  match t.lookup up.reverse with
  | some x => (x, names)
  | none =>
    match up with
    | [] => (.dir t, names)
    | a :: up => existingParent t up (a :: names)

/-- `_graphbuilder.py` 135-155: the loop over the names in the archive. `ZipInfo.is_dir` is true
for names that end in a slash. -/
def zipHasData (sfx : List Str) (path : Str) (names : List Str) : Bool :=
  names.any fun nm =>
    if startsWith path nm then
      if (splitAll '/' nm).any fun part => decide (part ∈ ignoredNames) then false
      else if hasModuleSuffix sfx nm then false
      else if endsWith c!"/" nm then false
      else true
    else false

/-- `_graphbuilder.py` 102-157.  `t` is the root directory, `directory` the components of the
path. The exception that is raised again is an `OSError`. -/
def containsDatafiles (sfx : List Str) (t : Tree) (directory : List Str) : Except Exc Bool :=
  match t.lookup directory with
  | some (.dir c) => .ok (treeHasData sfx c)
  | _ =>
    match existingParent t directory.reverse [] with
    | (.file (some l), names) => .ok (zipHasData sfx (joinWith '/' names ++ c!"/") l)
    | _ => .error .osError

end Verif
