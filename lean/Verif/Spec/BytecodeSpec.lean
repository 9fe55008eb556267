import Verif.Model.Bytecode
import Verif.Spec.AstSpec
/-!
# What does compiled code contain?

The shapes of instruction sequences here are those made by the CPython compiler.
-/
namespace Verif.Spec
open Verif

mutual
/-- A code object and all code objects nested in it, as often as they occur. -/
def codes : Code → List Code
  | .mk a n i cs => .mk a n i cs :: codesIn cs
def codesIn : Consts → List Code
  | .nil => []
  | .cons c r => codesOf c ++ codesIn r
def codesOf : Const → List Code
  | .code c => codes c
  | _ => []
end

/-- Prefixes that extend the argument of the next instruction. -/
def ExtArgs (e : List Instr) : Prop := ∀ x ∈ e, x.op = .extendedArg

/-- The instruction loads an integer. -/
def LoadsInt (c : Code) (i : Instr) (n : Nat) : Prop :=
  i = ⟨.loadSmallInt, some n⟩ ∨ ∃ k, i = ⟨.loadConst, some k⟩ ∧ c.consts[k]? = some (.int n)

/-- The instruction loads the list of names of an import: `None` or a tuple. -/
def LoadsNames (c : Code) (i : Instr) (names : Option (List Str)) : Prop :=
  ∃ k, i = ⟨.loadConst, some k⟩ ∧
    c.consts[k]? = some (match names with | none => .none | some t => .tuple t)

/-- Instruction number `at_` imports `module` with the given level and names; at most `ext` prefixes
come before each of the instructions. -/
def ImportAt (ext : Nat) (c : Code) (at_ : Nat) (module : Str) (level : Nat) (names : Option (List Str)) :
    Prop :=
  ∃ pre l e f e' k post, c.instrs = pre ++ (l :: (e ++ f :: (e' ++ ⟨.importName, some k⟩ :: post))) ∧
    at_ = pre.length + 1 + e.length + 1 + e'.length ∧ ExtArgs e ∧ ExtArgs e' ∧
    e.length ≤ ext ∧ e'.length ≤ ext ∧ LoadsInt c l level ∧ LoadsNames c f names ∧
    c.names[k]? = some module

/-- Instruction number `at_`, after the instructions `pre` and those for the arguments, makes a
function object of `d`. Before Python 3.11 the qualified name is loaded after the code. -/
def MakesAt (new : Bool) (c : Code) (at_ : Nat) (pre : List Instr) (d : Code) : Prop :=
  ∃ k q a post, c.instrs = pre ++ (⟨.loadConst, some k⟩ :: (q ++ ⟨.makeFunction, a⟩ :: post)) ∧
    at_ = pre.length + 1 + q.length ∧ c.consts[k]? = some (.code d) ∧
    if new then q = [] else ∃ e b, q = e ++ [⟨.loadConst, b⟩] ∧ ExtArgs e

/-- Instructions that put together the variables of a closure. -/
def Closure (l : List Instr) : Prop := ∀ x ∈ l, x.op = .extendedArg ∨ ∃ n, x.op = .other n

/-- The function object that is made after these instructions is the body of a class. -/
def ForClass (new : Bool) (pre : List Instr) : Prop :=
  ∃ p a n cl, pre = p ++ (⟨.loadBuildClass, a⟩ :: (n ++ cl)) ∧ Closure cl ∧
    (n = [] ∨ new = true ∧ ∃ b, n = [⟨.pushNull, b⟩])

/-- The code of a function somewhere in the tree. -/
def FunctionCode (new : Bool) (root d : Code) : Prop :=
  ∃ c ∈ codes root, ∃ i pre, MakesAt new c i pre d ∧ ¬ ForClass new pre

/-- The code of a class body somewhere in the tree. -/
def ClassCode (new : Bool) (root d : Code) : Prop :=
  ∃ c ∈ codes root, ∃ i pre, MakesAt new c i pre d ∧ ForClass new pre

/-- The code is that of a function, or nested in it. -/
def InFunction (new : Bool) (root c : Code) : Prop := ∃ f, FunctionCode new root f ∧ c ∈ codes f

/-- The name argument of an instruction. -/
def nameArg (new : Bool) (i : Instr) : Option Nat :=
  if i.op = .loadGlobal ∧ new = true then i.arg.map (· / 2) else i.arg

/-- The code has an instruction `op` for the name `n`. -/
def Uses (new : Bool) (c : Code) (op : Op) (n : Str) : Prop :=
  ∃ i ∈ c.instrs, i.op = op ∧ ∃ k, nameArg new i = some k ∧ c.names[k]? = some n

/-- The code imports `n` with a `from` import. -/
def FromImports (c : Code) (n : Str) : Prop :=
  n ≠ c!"*" ∧ ∃ i m l t, ImportAt 1 c i m l (some t) ∧ n ∈ t

/-- The entry for an import instruction. -/
def bEntry (inFunction : Bool) (m : Str) (l : Nat) (names : Option (List Str)) : Entry :=
  { module := m, asname := none, level := l, names := names.map fun t => t.map fun nm => (nm, none),
    inFunction := inFunction, inConditional := false, inTryExcept := false }

/-- Numbers of the import instructions. -/
def importInstrs (c : Code) : List Nat :=
  (c.instrs.zipIdx.filter fun x => x.1.op == .importName).map (·.2)

/-- Code as made by the compiler, with short arguments: at most one prefix for imports, none where
classes are made (and no variables of a closure in classes). -/
structure Compiled (new : Bool) (c : Code) : Prop where
  imports : ∀ i a, c.instrs[i]? = some ⟨.importName, a⟩ → ∃ m l n, ImportAt 1 c i m l n
  makes : ∀ i a, c.instrs[i]? = some ⟨.makeFunction, a⟩ → ∃ pre d, MakesAt new c i pre d
  short : ∀ i pre d, MakesAt new c i pre d → ForClass new pre →
    ∃ p a n, pre = p ++ ⟨.loadBuildClass, a⟩ :: n ∧ (n = [] ∨ new = true ∧ ∃ b, n = [⟨.pushNull, b⟩])
  shortQual : ∀ i pre d, MakesAt new c i pre d → i ≤ pre.length + 2
  names : ∀ i ∈ c.instrs, i.op ∈ [Op.storeName, .storeGlobal, .loadName, .loadGlobal] →
    ∃ k n, nameArg new i = some k ∧ c.names[k]? = some n

/-- `l[i]` in Python: indices from 0, or from -1 at the end backwards. -/
inductive IndexGives {α : Type} (l : List α) : Int → Except Exc α → Prop
  | front {pre suf x} : l = pre ++ x :: suf → IndexGives l pre.length (.ok x)
  | back {pre suf x} : l = pre ++ x :: suf → IndexGives l (-(suf.length + 1 : Nat)) (.ok x)
  | after {i} : (l.length : Int) ≤ i → IndexGives l i (.error .indexError)
  | before {i} : i < -(l.length : Int) → IndexGives l i (.error .indexError)

end Verif.Spec
