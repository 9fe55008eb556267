import Verif.Spec.EnvSpec
/-! # Specification of `import_package`: package trees -/
namespace Verif.Spec
open Verif
variable {W : Type}

/-- What the file system says about packages: the directories of the package with a given name, the
names of the `.py` files in a directory (without `.py`), and its subdirectories. -/
structure PkgTree where
  locations : Str → List Str
  files : Str → List Str
  dirs : Str → List Str

/-- The outside world shows this tree at all times. -/
structure ShowsTree (env : Env W) (T : PkgTree) : Prop where
  locations : ∀ name w spec, (env.findSpec name w).1 = .ok (some spec) →
    spec.searchLocations.getD [] = T.locations name
  files : ∀ path w l, (env.globPy path w).1 = .ok l → l = T.files path
  dirs : ∀ path w l, (env.subdirs path w).1 = .ok l → l = T.dirs path

/-- `c` is the name of a module file directly inside of package `p`. -/
def PkgTree.File (T : PkgTree) (ident : Str → Bool) (p c : Str) : Prop :=
  ∃ path ∈ T.locations p, c ∈ T.files path ∧ ident c = true

/-- `c` is the name of a directory directly inside of package `p`. -/
def PkgTree.Dir (T : PkgTree) (ident : Str → Bool) (p c : Str) : Prop :=
  ∃ path ∈ T.locations p, c ∈ T.dirs path ∧ ident c = true

/-- `import_package(a, p)` has to reach module `q` coming from `b`. -/
inductive Reaches (T : PkgTree) (ident : Str → Bool) (nodes : List Node) (a p : Str) : Str → Str → Prop
  | start : Reaches T ident nodes a p a p
  | inside {b q c} : Reaches T ident nodes a p b q →
      (∃ m ∈ nodes, m.ident = q ∧ m.isPackage = true) → T.File ident q c ∨ T.Dir ident q c →
      Reaches T ident nodes a p q (q ++ '.' :: c)

end Verif.Spec
