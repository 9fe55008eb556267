import Verif.Spec.ExplainSpec
import Verif.Spec.RootSpec
/-!
# Who imports a missing module

Hooks for missing modules are told which node imports the module, or `None`.  This describes which
node that is, from the import statements, the configuration and the calls of the client.
-/
namespace Verif.Spec
open Verif
variable {W : Type}

/-- `c` is a module file directly inside of the package `p`. -/
def PyFileIn (env : Env W) (p c : Str) : Prop :=
  ∃ w spec path w' l, (env.findSpec p w).1 = .ok (some spec) ∧ path ∈ spec.searchLocations.getD [] ∧
    (env.globPy path w').1 = .ok l ∧ c ∈ l

/-- `c` is a directory directly inside of the package `p`. -/
def SubdirIn (env : Env W) (p c : Str) : Prop :=
  ∃ w spec path w' l, (env.findSpec p w).1 = .ok (some spec) ∧ path ∈ spec.searchLocations.getD [] ∧
    (env.subdirs path w').1 = .ok l ∧ c ∈ l

/-- The packages that are imported as a whole, and what is inside of these. -/
inductive Whole (env : Env W) (A : ApiOp → Prop) : Str → Prop where
  | asked {a p} : A (.importPackage a p) → Whole env A p
  | file {p c} : Whole env A p → PyFileIn env p c → Whole env A (p ++ '.' :: c)
  | dir {p c} : Whole env A p → SubdirIn env p c → Whole env A (p ++ '.' :: c)

/-- `Told i x`: the node `i` makes the module `x` necessary; `none`: no node does.  `A`: the operations the client
and hooks use; `conf a v`: what the client or the table for the standard library says about `a`. -/
inductive Told (env : Env W) (A : ApiOp → Prop) (conf : Str → Implies → Prop) (nodes : List Node) (log : List Event) :
    Option Node → Str → Prop where
  /-- the client asks for the module -/
  | asked {o x} : A o → o.AsksModules → AsksFor env o x → Told env A conf nodes log none x
  /-- the module belongs to a distribution that was added -/
  | distribution {n d x} : n ∈ nodes → n.kind = .dist d → x ∈ d.importNames → Told env A conf nodes log none x
  /-- the package is imported as a whole -/
  | whole {a p} : A (.importPackage a p) → Told env A conf nodes log none p
  /-- a directory of such a package -/
  | directory {p c} : Whole env A p → SubdirIn env p c → Told env A conf nodes log none (p ++ '.' :: c)
  /-- a module file of such a package: imported by the package -/
  | file {n c} : Whole env A n.ident → PyFileIn env n.ident c → n ∈ nodes →
      Told env A conf nodes log (some n) (n.ident ++ '.' :: c)
  /-- the helper of code compiled with mypyc -/
  | mypyc {n d x} : n ∈ nodes → n.distribution = some d → x ∈ d.importNames → endsWith c!"__mypyc" x = true →
      Told env A conf nodes log none x
  /-- the package of a module that was found under another name -/
  | behind {a n p} : a ∈ nodes → a.kind = .alias n.ident → n ∈ nodes → InPackage n.ident p →
      Told env A conf nodes log none p
  /-- the implementation of an explicit namespace package -/
  | explicitNamespace {n fr init sp hd} {ns : NsType} : n ∈ nodes → n.kind = .package fr init sp hd (some ns) →
      Told env A conf nodes log none (match ns with | .pkgutil => c!"pkgutil" | .pkgResources => c!"pkg_resources")
  /-- `import_module` -/
  | call {m x} : A (.importModule m x) → Told env A conf nodes log (some m) x
  /-- an import statement -/
  | statement {m i t} : m ∈ nodes → Found log m.ident i → Refers m i t → Told env A conf nodes log (some m) t
  /-- a name in an import statement -/
  | fromName {m i t p nm} : m ∈ nodes → Found log m.ident i → Refers m i t → Stands nodes t p →
      nm ∈ i.importNames → Told env A conf nodes log (some m) (p ++ '.' :: nm.name)
  /-- a name that is imported from `six.moves` -/
  | sixMoves {m i t p nm b fr init sp hd ns} : m ∈ nodes → Found log m.ident i → Refers m i t →
      Stands nodes t p.ident → p ∈ nodes → p.kind = .package fr init sp hd ns → init.name = c!"@@SIX_MOVES@@" →
      nm ∈ i.importNames → SixName nm.name b → Told env A conf nodes log (some m) b
  /-- the target of an alias or virtual module -/
  | alias {n t} : n ∈ nodes → (n.kind = .alias t ∨ n.kind = .virtual t) → Told env A conf nodes log (some n) t
  /-- an implied module -/
  | implied {n names x} : n ∈ nodes → conf n.ident (.refs names) → x ∈ names → Told env A conf nodes log (some n) x
  /-- the package of such a module -/
  | package {i x p} : Told env A conf nodes log i x → InPackage x p → Told env A conf nodes log i p

end Verif.Spec
