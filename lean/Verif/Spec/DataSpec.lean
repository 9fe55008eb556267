import Verif.Model.DataFiles
/-! # What is a data file? -/
namespace Verif.Spec
open Verif

/-- The paths of the files below a directory. -/
inductive FileAt : Tree → List Str → Prop where
  | here {n z r} : FileAt (.file n z r) [n]
  | inside {n c r p} : FileAt c p → FileAt (.dir n c r) (n :: p)
  | skipFile {n z r p} : FileAt r p → FileAt (.file n z r) p
  | skipDir {n c r p} : FileAt r p → FileAt (.dir n c r) p

/-- A name of version control or cache data. -/
def Ignored (name : Str) : Prop := name = c!"__pycache__" ∨ name = c!".hg" ∨ name = c!".svn"

/-- The name of a Python module file. -/
def ModuleName (sfx : List Str) (name : Str) : Prop := ∃ x ∈ sfx, ∃ stem, name = stem ++ x

/-- The file is not a Python module, and none of the names on its path is ignored. -/
def IsData (sfx : List Str) (p : List Str) : Prop :=
  (∀ n ∈ p, ¬ Ignored n) ∧ ∀ n, p.getLast? = some n → ¬ ModuleName sfx n

/-- Every directory has at most one sub-directory that counts, and no data files behind it. -/
def Single (sfx : List Str) : Tree → Prop
  | .nil => True
  | .file _ _ rest => Single sfx rest
  | .dir n c rest => (¬ Ignored n → Single sfx c ∧ ¬ ∃ p, FileAt rest p ∧ IsData sfx p) ∧ Single sfx rest

/-- No directory is called like a Python module. -/
def PlainDirs (sfx : List Str) : Tree → Prop
  | .nil => True
  | .file _ _ rest => PlainDirs sfx rest
  | .dir n c rest => ¬ ModuleName sfx n ∧ PlainDirs sfx c ∧ PlainDirs sfx rest

end Verif.Spec
