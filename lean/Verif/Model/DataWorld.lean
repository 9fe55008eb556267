import Verif.Model.DataFiles
import Verif.Model.NodeForSpec
/-!
# The graph builder with the model of `_contains_datafiles`

The paths are those of a POSIX system; relative paths are relative to the root of the tree.
-/
namespace Verif
variable {W : Type}

/-- The components of `pathlib.PurePosixPath(s)`: empty ones and `.` are left out. -/
def pathParts (s : Str) : List Str := (splitAll '/' s).filter fun c => decide (c ≠ [] ∧ c ≠ c!".")

/-- `str(pathlib.PurePosixPath(s).parent)`. -/
def pathParent (s : Str) : Str :=
  let up := joinWith '/' (pathParts s).dropLast
  if startsWith c!"/" s then '/' :: up
  else if up = [] then c!"." else up

/-- `_graphbuilder.py` 464-466 and 505: the directory of a package, and whether it has data files. -/
def Loaders.withTree (sfx : List Str) (t : Tree) (L : Loaders W) : Loaders W :=
  { L with
    containsDatafiles := fun d w => (Verif.containsDatafiles sfx t (pathParts d), w)
    parent := pathParent }

end Verif
