import Verif.Model.DistWorld
import Verif.Spec.DistSpec
import Verif.Spec.InstalledSpec
import Verif.Spec.PathSpec
import Verif.Spec.MetadataSpec
/-!
# Installed distributions on disk
-/
namespace Verif.Spec
open Verif
variable {V W : Type}

/-- What METADATA and RECORD in a dist-info directory say. -/
structure DistFiles where
  name : Str
  version : Str
  rows : List Row

/-- Directories with installed distributions. -/
structure Shelf where
  /-- the search path -/
  path : List Str
  /-- the files in a directory; `none`: it cannot be listed -/
  list : Str → Option (List Str)
  /-- a dist-info directory; `none`: it cannot be read -/
  info : Str → Option DistFiles
  /-- the path of a file in the RECORD of a dist-info directory -/
  file : Str → Str → Str
  /-- the suffixes of extension modules -/
  suffixes : List Str

namespace Shelf
variable (S : Shelf)

/-- The dist-info directories in a directory. -/
def infosIn (p : Str) : List Str := (((S.list p).getD []).filter fun f => DistInfo f).map (inDir p)

/-- The dist-info directories that count, in the order of the search path.  In each directory those after the first that
cannot be read do not (see `C29_unreadable_hides`). -/
def dirs : List Str := S.path.flatMap fun p => (S.infosIn p).takeWhile fun d => (S.info d).isSome

/-- The first distribution with the name. -/
def named (name : Str) : Option Str := S.dirs.find? fun d => (S.info d).any fun i => i.name = name

/-- The first distribution with the file. -/
def owner (file : Str) : Option Str :=
  S.dirs.find? fun d => (S.info d).any fun i => (i.rows.map fun row => S.file d row.path).contains file

/-- The object for a dist-info directory. -/
structure Object (d : Str) (x : Dist) : Prop where
  identifier : x.identifier = d
  contents : ∃ i, S.info d = some i ∧ x.name = i.name ∧ x.version = i.version ∧
    (∀ f, f ∈ x.files ↔ ∃ row ∈ i.rows, f = S.file d row.path) ∧
    ∀ m, m ∈ x.importNames ↔ ∃ row ∈ i.rows, ImportedBy (c!".py" :: c!".pyc" :: S.suffixes) row.path m

/-- This is on disk in worlds with `J`, and looking at it leaves such a world.  What cannot be listed or read gives an
`OSError`. -/
structure OnDisk (J : W → Prop) (D : DistEnv W) : Prop where
  path : ∀ w, J w → D.sysPath w = S.path
  /-- the paths in RECORD are seen from the directory with the dist-info directory -/
  file : ∀ p ∈ S.path, ∀ name, '/' ∉ name → ∀ rel, Path.From p rel (S.file (inDir p name) rel)
  suffixes : D.extSuffixes = S.suffixes
  suffixOk : ∀ x ∈ S.suffixes, x ≠ [] ∧ '/' ∉ x
  entries : ∀ p ∈ S.path, ∀ l, S.list p = some l → (∀ f ∈ l, '/' ∉ f) ∧ Yields J (D.listdir p) l
  unlisted : ∀ p ∈ S.path, S.list p = none → ∀ w, J w → (D.listdir p w).1 = .error .osError ∧ J (D.listdir p w).2
  read : ∀ p ∈ S.path, ∀ d ∈ S.infosIn p, ∀ i, S.info d = some i →
    (∃ fields text, Meta.File fields text ∧ Meta.Says fields c!"Name" i.name ∧ Meta.Says fields c!"Version" i.version ∧
      Yields J (D.metadata d) text) ∧
    ∃ text, CsvFile i.rows text ∧ Yields J (D.record d) text
  unread : ∀ p ∈ S.path, ∀ d ∈ S.infosIn p, S.info d = none →
    (∀ w, J w → (D.metadata d w).1 = .error .osError ∧ J (D.metadata d w).2) ∨
    ∃ fields text name version, Meta.File fields text ∧ Meta.Says fields c!"Name" name ∧
      Meta.Says fields c!"Version" version ∧ Yields J (D.metadata d) text ∧
      ∀ w, J w → (D.record d w).1 = .error .osError ∧ J (D.record d w).2

end Shelf

/-- The objects that were read before are those of the dist-info directories. -/
def Remembers (read : Str → Option Dist) (s : DSt W) : Prop :=
  ∀ d o, s.cache.lookup d = some o → read d = some o.dist

end Verif.Spec
