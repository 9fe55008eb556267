import Verif.Py.Str
/-!
# Model of `modulegraph2/_utilities.py`
-/
namespace Verif

/-- `_utilities.py` 27-47, `split_package`.  The `TypeError` for a non-string
argument cannot occur in a typed model. -/
def splitPackage (name : Str) : Except Exc (Option Str × Str) :=
  if name = [] then .error (.valueError false)
  else
    let nameAbs := lstrip '.' name
    let dots := name.length - nameAbs.length
    if nameAbs = [] || contains c!".." nameAbs then .error (.valueError false)
    else
      let p := rpartition '.' nameAbs
      let package := if dots ≠ 0 then List.replicate dots '.' ++ p.1 else p.1
      .ok (if package ≠ [] then some package else none, p.2.2)

/-- What the library does to `sys.path`: the list object that the name is bound to, the contents of
list objects, assignment to the contents of a list object, and `importlib.invalidate_caches()`. -/
structure SysPath (W : Type) where
  ref : W → Nat
  contents : W → Nat → List Str
  assign : Nat → List Str → W → W
  invalidate : W → W

/-- The contents of `sys.path`. -/
def SysPath.path {W : Type} (sp : SysPath W) (w : W) : List Str := sp.contents w (sp.ref w)

/-- `_utilities.py` 10-24, `saved_sys_path`, as a wrapper around a body that may do
anything to `sys.path` and may end with any result or exception (`Except`). -/
def savedSysPath {W α : Type} (sp : SysPath W) (body : W → Except Exc α × W) (w : W) :
    Except Exc α × W :=
  let orig := sp.path w
  let r := body w
  (r.1, sp.invalidate (sp.assign (sp.ref r.2) orig r.2))

/-- `_utilities.py` 71-75, `stdlib_module_names`: the interpreter's set of names
(in any order `names`) sorted.  Strings are compared by code points. -/
def stdlibModuleNames (names : List Str) : List Str :=
  names.mergeSort (fun a b => decide (a ≤ b))

end Verif
