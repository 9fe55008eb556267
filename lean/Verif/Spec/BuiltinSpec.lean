import Verif.Spec.Names
import Verif.Spec.EnvSpec
import Verif.Spec.ExcSpec
/-!
# Specification: the built-in hooks
-/
namespace Verif.Spec
open Verif
variable {W : Type}

/-- `imp` looks like the Python half of a SWIG module that imports its C half, called `missing`:
it defines `swig_import_helper`, and `missing` is an underscore and the last component of its
name.  `pkg` is the package where the C half is looked for. -/
structure SwigPair (s : St W) (imp : Node) (missing pkg : Str) : Prop where
  kind : imp.isModule = true ∨ imp.isPackage = true
  helper : c!"swig_import_helper" ∈ s.gw imp.ident
  name : ∃ comps last, imp.ident = dotted (comps ++ [last]) ∧ (∀ c ∈ comps ++ [last], Comp c) ∧
    missing = '_' :: last ∧ pkg = (if imp.isPackage then imp.ident else dotted comps)

/-- `dir` is the text in front of the last slash of `file`; it is empty if there is no slash. -/
def UpToSlash (dir file : Str) : Prop :=
  (∃ name, '/' ∉ name ∧ file = dir ++ '/' :: name) ∨ ('/' ∉ file ∧ dir = [])

/-- The spec for module `missing` in package `pkg`: as the import system says or, when it cannot
import the package, after the package has been replaced by an empty module with the right
`__path__` for a moment. -/
inductive Located (env : Env W) (missing pkg : Str) (w : W) : Option Spec → W → Prop where
  | direct {spec w'} : env.findSpecRel missing pkg w = (.ok spec, w') →
      Located env missing pkg w spec w'
  | retry {e w1 sp w2 origin dir spec w3 w4} : env.findSpecRel missing pkg w = (.error e, w1) →
      ImportFails e → env.findSpec pkg w1 = (.ok (some sp), w2) →
      sp.origin = some origin → UpToSlash dir origin →
      env.findSpecRel missing pkg (env.setFake pkg dir w2) = (.ok spec, w3) →
      env.delModule pkg w3 = (.ok (), w4) → Located env missing pkg w spec w4

/-- The node is an extension module, or a package whose `__init__` is one; `file` is its file. -/
def CompiledFrom (node : Node) (file : Str) : Prop :=
  (node.kind = .module .extension ∧ node.filename = some file) ∨
    ∃ a init b c d, node.kind = .package a init b c d ∧ init.kind = .extension ∧
      init.filename = some file

/-- A module that mypyc compiled: an extension module of an installed distribution which has a
module called `...__mypyc`; `helper` is the first of these. -/
structure MypycModule (node : Node) (file helper : Str) : Prop where
  file : CompiledFrom node file
  dist : ∃ d, node.distribution = some d ∧ ∃ a b, d.importNames = a ++ helper :: b ∧
    (∃ p, helper = p ++ c!"__mypyc") ∧ ∀ x ∈ a, ¬ ∃ p, x = p ++ c!"__mypyc"

/-- `source` is the Python file next to `file`: same directory, the file name up to its first dot,
and `.py`. -/
def SourceOf (file source : Str) : Prop :=
  ∃ dir stem suffix, file = dir ++ stem ++ suffix ∧ source = dir ++ stem ++ c!".py" ∧
    (dir = [] ∨ ∃ d, dir = d ++ ['/']) ∧ stem ≠ [] ∧ '/' ∉ stem ∧ '.' ∉ stem ∧ '/' ∉ suffix ∧
    (suffix = [] ∨ ∃ r, suffix = '.' :: r)

end Verif.Spec
