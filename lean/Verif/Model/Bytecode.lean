import Verif.Model.ImportInfo
/-!
# Model of `modulegraph2/_bytecode_tools.py`

Code objects are trees: a code object is immutable and can only refer to code objects that existed
before it.  Python compares code objects by value; so does the model.
-/
namespace Verif

/-- The instruction names the scanner distinguishes. -/
inductive Op where
  | importName | extendedArg | loadConst | loadSmallInt | storeName | storeGlobal | loadName
  | loadGlobal | makeFunction | loadBuildClass | pushNull | other (n : Nat)
deriving DecidableEq, Repr

/-- An element of `dis.get_instructions(code)`; `arg` includes the bits of preceding
`EXTENDED_ARG` instructions. -/
structure Instr where
  op : Op
  arg : Option Nat := none
deriving DecidableEq, Repr

mutual
/-- Constants; tuples only of strings (other tuples are `other`). -/
inductive Const where
  | none
  | int (n : Nat)
  | tuple (l : List Str)
  | code (c : Code)
  | other (n : Nat)
deriving DecidableEq
inductive Consts where
  | nil
  | cons (c : Const) (rest : Consts)
deriving DecidableEq
/-- A code object: `co_names`, the instructions, `co_consts`; `attrs` stands for the attributes that
are not used (name, flags, line numbers) but take part in comparisons. -/
inductive Code where
  | mk (attrs : Nat) (names : List Str) (instrs : List Instr) (consts : Consts)
deriving DecidableEq
end

def Consts.toList : Consts → List Const
  | .nil => []
  | .cons c r => c :: r.toList

namespace Code

def names : Code → List Str | .mk _ n _ _ => n
def instrs : Code → List Instr | .mk _ _ i _ => i
def consts : Code → List Const | .mk _ _ _ c => c.toList

/-- The code objects among the constants (`_bytecode_tools.py` 42-43). -/
def children (c : Code) : List Code := c.consts.filterMap fun
  | .code d => some d
  | _ => none

end Code

/-- `l[k]` for `k ≥ 0`. -/
def pyGet {α : Type} (l : List α) (k : Nat) : Except Exc α :=
  match l[k]? with
  | some x => .ok x
  | none => .error .indexError

/-- `instructions[offset - k]`; Python counts negative indices from the end. -/
def pyBack (l : List Instr) (offset k : Nat) : Except Exc Instr :=
  if k ≤ offset then pyGet l (offset - k)
  else if k ≤ offset + l.length then pyGet l (l.length + offset - k)
  else .error .indexError

/-- `assert x is not None` -/
def argOf (i : Instr) : Except Exc Nat :=
  match i.arg with
  | some k => .ok k
  | none => .error .assertion

/-- What `_extract_single` collects; the sets are lists without regard for duplicates. -/
structure Found where
  imports : List ImportInfo := []
  written : List Str := []
  read : List Str := []
  funcs : List Const := []
  classes : List Const := []

def Found.add (a b : Found) : Found :=
  { imports := a.imports ++ b.imports, written := a.written ++ b.written, read := a.read ++ b.read,
    funcs := a.funcs ++ b.funcs, classes := a.classes ++ b.classes }

/-- `_bytecode_tools.py` 70-131, the branch for `IMPORT_NAME`.  A level that is not an integer
constant does not occur in compiled code; the model raises `TypeError`. -/
def scanImport (c : Code) (inFn inCls : Bool) (offset : Nat) (inst : Instr) : Except Exc Found := do
  let a ← pyBack c.instrs offset 1
  let fo := if a.op = .extendedArg then 2 else 1
  let b ← pyBack c.instrs offset (fo + 1)
  let lo := if b.op = .extendedArg then fo + 2 else fo + 1
  let f ← pyBack c.instrs offset fo
  if f.op ≠ .loadConst then throw .assertion
  let l ← pyBack c.instrs offset lo
  if l.op ≠ .loadConst ∧ l.op ≠ .loadSmallInt then throw .assertion
  let fromOffset ← argOf f
  let levelOffset ← argOf l
  let fromlist ← pyGet c.consts fromOffset
  let level ← if l.op = .loadSmallInt then Except.ok (Const.int levelOffset)
    else pyGet c.consts levelOffset
  let names ← match fromlist with
    | .none => Except.ok none
    | .tuple t => Except.ok (some t)
    | _ => Except.error .assertion
  let nameOffset ← argOf inst
  let module ← pyGet c.names nameOffset
  match level with
  | .int level =>
    return { imports := [createImportInfo (module, none) (names.map fun t => t.map fun nm => (nm, none))
               level inFn false false]
             written := if inFn || inCls then [] else (names.getD []).filter fun nm => nm != c!"*" }
  | _ => throw .typeError

/-- `instructions[offset - d].opname == op`, for `offset >= d`. -/
def opAt (c : Code) (offset d : Nat) (op : Op) : Bool :=
  match pyBack c.instrs offset d with
  | .ok i => decide (i.op = op)
  | .error _ => false

/-- `_bytecode_tools.py` 176-185, 188-193: the tests for a class body; `new`: Python 3.11 or later. -/
def makesClass (new : Bool) (c : Code) (offset : Nat) : Bool :=
  if new then
    decide (2 ≤ offset) && opAt c offset 2 .loadBuildClass ||
      decide (3 ≤ offset) && opAt c offset 2 .pushNull && opAt c offset 3 .loadBuildClass
  else decide (3 ≤ offset) && opAt c offset 3 .loadBuildClass

/-- `_bytecode_tools.py` 168-198, the branch for `MAKE_FUNCTION`. -/
def scanMake (new : Bool) (c : Code) (offset : Nat) : Except Exc Found := do
  let i ← pyBack c.instrs offset (if new then 1 else 2)
  let k ← argOf i
  let v ← pyGet c.consts k
  if makesClass new c offset then return { classes := [v] } else return { funcs := [v] }

/-- `_bytecode_tools.py` 69-198: one iteration of the loop. -/
def scanInst (new : Bool) (c : Code) (inFn inCls : Bool) (offset : Nat) (inst : Instr) :
    Except Exc Found :=
  match inst.op with
  | .importName => scanImport c inFn inCls offset inst
  | .storeName =>
    if inCls || inFn then .ok {}
    else do
      let k ← argOf inst
      let n ← pyGet c.names k
      return { written := [n] }
  | .storeGlobal =>
    if inCls then .ok {}
    else do
      let k ← argOf inst
      let n ← pyGet c.names k
      return { written := [n] }
  | .loadName =>
    if inCls then .ok {}
    else do
      let k ← argOf inst
      let n ← pyGet c.names k
      return { read := [n] }
  | .loadGlobal => do
    let k ← argOf inst
    let n ← pyGet c.names (if new then k / 2 else k)
    return { read := [n] }
  | .makeFunction => scanMake new c offset
  | _ => .ok {}

/-- The loop of `_extract_single` from index `offset` on. -/
def scanFrom (new : Bool) (c : Code) (inFn inCls : Bool) : Nat → List Instr → Except Exc Found
  | _, [] => .ok {}
  | offset, i :: l => do
    let a ← scanInst new c inFn inCls offset i
    let b ← scanFrom new c inFn inCls (offset + 1) l
    return a.add b

/-- `_bytecode_tools.py` 48-200, `_extract_single`. -/
def extractSingle (new : Bool) (c : Code) (inFn inCls : Bool) : Except Exc Found :=
  scanFrom new c inFn inCls 0 c.instrs

/-- `_bytecode_tools.py` 203-217, `_is_code_for_function`. -/
def isCodeForFunction (c : Code) (parents : List Code) (funcs : List Const) : Bool :=
  decide (Const.code c ∈ funcs) || parents.any fun p => decide (Const.code p ∈ funcs)

/-- `_bytecode_tools.py` 36-45, the generator `_all_code_objects` interleaved with the loop of
`extract_bytecode_info` (235-255) that consumes it.  `queue` is `work_q`, `parents` the dictionary
with `[]` for missing keys, `acc` the five accumulators. The recursion depth `n` is the number of code
objects still allowed. -/
def scanQueue (new : Bool) : Nat → List Code → (Code → List Code) → Found → Except Exc Found
  | _, [], _, acc => .ok acc
  | 0, _ :: _, _, _ => .error .fuel
  | n + 1, c :: q, parents, acc => do
    let f ← extractSingle new c (isCodeForFunction c (parents c) acc.funcs)
      (decide (Const.code c ∈ acc.classes))
    scanQueue new n (q ++ c.children)
      (c.children.foldl (fun ps d => fun k => if k = d then ps c ++ [d] else ps k) parents)
      (acc.add f)

mutual
/-- Number of code objects in a tree. -/
def Code.count : Code → Nat
  | .mk _ _ _ cs => 1 + cs.count
def Consts.count : Consts → Nat
  | .nil => 0
  | .cons c r => c.count + r.count
def Const.count : Const → Nat
  | .code c => c.count
  | _ => 0
end

/-- `_bytecode_tools.py` 220-257, `extract_bytecode_info`. -/
def extractBytecodeInfo (new : Bool) (c : Code) :
    Except Exc (List ImportInfo × List Str × List Str) := do
  let f ← scanQueue new c.count [c] (fun _ => []) {}
  return (f.imports, f.written, f.read)

end Verif
