import Verif.Py.Str
/-!
# The functions of `os.path` that `_distributions.py` and `_modulegraph.py` use

These are functions of the standard library (`posixpath.py`), on a POSIX system.
-/
namespace Verif

/-- `os.path.join(a, b)` (`_distributions.py` 78, 86, 103, 149). -/
def pathJoin (a b : Str) : Str :=
  if startsWith ['/'] b then b
  else if a = [] || endsWith ['/'] a then a ++ b
  else a ++ '/' :: b

/-- `s.rstrip(c)` for a single character. -/
def rstrip (c : Char) (s : Str) : Str := (lstrip c s.reverse).reverse

/-- `os.path.dirname(p)` (`_distributions.py` 76, `_modulegraph.py` 633): the text up to the last slash, without slashes at the end unless
there is nothing else. -/
def dirname (p : Str) : Str :=
  match rfindSplit '/' p with
  | none => []
  | some (a, _) => if (a ++ ['/']).all (· == '/') then a ++ ['/'] else rstrip '/' (a ++ ['/'])

/-- `posixpath.splitroot`: the slashes at the beginning that count (two, if there are exactly two), and the rest. -/
def splitRoot (p : Str) : Str × Str :=
  match p with
  | '/' :: '/' :: '/' :: r => (['/'], '/' :: '/' :: r)
  | '/' :: '/' :: r => (['/', '/'], r)
  | '/' :: r => (['/'], r)
  | _ => ([], p)

/-- The loop in `posixpath.normpath`. -/
def normComps (root : Str) : List Str → List Str → List Str
  | new, [] => new
  | new, comp :: rest =>
    if comp = [] ∨ comp = c!"." then normComps root new rest
    else if comp ≠ c!".." ∨ (root = [] ∧ new = []) ∨ new.getLast? = some c!".." then normComps root (new ++ [comp]) rest
    else if new ≠ [] then normComps root new.dropLast rest
    else normComps root new rest

/-- `os.path.normpath(p)` (`_distributions.py` 103). -/
def normpath (p : Str) : Str :=
  if p = [] then c!"."
  else
    let (root, rest) := splitRoot p
    let s := root ++ joinWith '/' (normComps root [] (splitAll '/' rest))
    if s = [] then c!"." else s

end Verif
