import Verif.Model.Graph
import Verif.Spec.ExcSpec
/-!
# Specification vocabulary: `sys.modules`

`get w x` is the object that `sys.modules` has for `x` in the world `w` (objects are numbers, as in
`Env.popModule`).
-/
namespace Verif.Spec
open Verif
variable {W : Type}

/-- The operations on `sys.modules` are those of a dictionary; `fake` tells which objects are
`FakePackage`s. -/
structure SysDict (env : Env W) (get : W → Str → Option Nat) (fake : Nat → Prop) : Prop where
  isIn : ∀ x w, env.inSysModules x w = (get w x).isSome
  pop : ∀ x w o, get w x = some o → (env.popModule x w).1 = .ok o ∧
    ∀ y, get (env.popModule x w).2 y = if y = x then none else get w y
  popNone : ∀ x w, get w x = none → (∃ e, (env.popModule x w).1 = .error e) ∧
    ∀ y, get (env.popModule x w).2 y = get w y
  set : ∀ x o w y, get (env.setModule x o w) y = if y = x then some o else get w y
  setFake : ∀ x d w, (∃ o, fake o ∧ get (env.setFake x d w) x = some o) ∧
    ∀ y, y ≠ x → get (env.setFake x d w) y = get w y
  del : ∀ x w, (get w x ≠ none → get (env.delModule x w).2 x = none) ∧
    ∀ y, y ≠ x → get (env.delModule x w).2 y = get w y

/-- The function leaves the entries of `sys.modules` alone (it may add some). -/
def Keeps {α : Type} (get : W → Str → Option Nat) (f : Ext W α) : Prop :=
  ∀ w x o, get w x = some o → get (f w).2 x = some o

/-- The function does not change `sys.modules`. -/
def Leaves {α : Type} (get : W → Str → Option Nat) (f : Ext W α) : Prop :=
  ∀ w x, get (f w).2 x = get w x

/-- A property of all functions that read from the outside world. -/
structure AllReads (env : Env W) (P : ∀ {α : Type}, Ext W α → Prop) : Prop where
  findSpec : ∀ x, P (env.findSpec x)
  findSpecRel : ∀ x p, P (env.findSpecRel x p)
  isPackage : ∀ sp, P (env.isPackage sp)
  nodeForSpec : ∀ sp, P (env.nodeForSpec sp)
  loadScript : ∀ p, P (env.loadScript p)
  parseSource : ∀ p, P (env.parseSource p)
  distributionNamed : ∀ p, P (env.distributionNamed p)
  globPy : ∀ p, P (env.globPy p)
  subdirs : ∀ p, P (env.subdirs p)
  isFile : ∀ p, P (env.isFile p)
  readBytes : ∀ p, P (env.readBytes p)
  compileAst : ∀ p, P (env.compileAst p)

/-- `find_spec(x)` imports the packages above `x`, not `x` itself; `is_package` imports nothing; a
package that is in `sys.modules` can be searched (`find_spec("." + x, p)` raises no `ImportError`). -/
structure Searches (env : Env W) (get : W → Str → Option Nat) : Prop where
  own : ∀ x w, get w x = none → get (env.findSpec x w).2 x = none
  isPackage : ∀ sp x w, get w x = none → get (env.isPackage sp w).2 x = none
  relative : ∀ x p w e, (env.findSpecRel x p w).1 = .error e → ImportFails e →
    get (env.findSpecRel x p w).2 p = none

/-- Hook or client code that does not change the outside world by itself (it may call methods). -/
inductive _root_.Verif.Hook.Calm : Hook W → Prop where
  | ret (r) : Hook.Calm (.ret r)
  | raise (e) : Hook.Calm (.raise e)
  | look {k} : (∀ s, Hook.Calm (k s)) → Hook.Calm (.look k)
  | call {op k} : (∀ r, Hook.Calm (k r)) → Hook.Calm (.call op k)

/-- `find_spec` can locate `x`. -/
def Locatable (env : Env W) (x : Str) : Prop :=
  ∃ spec w, (env.findSpec x w).1 = .ok (some spec)

end Verif.Spec
