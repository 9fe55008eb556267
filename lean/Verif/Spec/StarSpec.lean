import Verif.Model.Graph
/-!
# Chains of star imports
-/
namespace Verif.Spec
open Verif

/-- `StarChain l a c`: the name lists `l` are star imports, the deepest first, that lead from module
`a` to module `c`: `from b import *` in `a`, and so on, up to `from c import *`. -/
inductive StarChain : List Item → Str → Str → Prop
  | nil (c : Str) : StarChain [] c c
  | snoc {l : List Item} {a b : Node} {c : Str} {i : ImportInfo} : StarChain l b.ident c →
      i.starImport = true → (b.isPackage = true ∨ b.isModule = true) →
      StarChain (l ++ [.nl a b i]) a.ident c

/-- The work items `l` were started in this order. -/
def StartedInOrder (l : List Item) (log : List Event) : Prop := (l.map Event.started).Sublist log

/-- No work item was started during `l`. -/
def NoStart (l : List Event) : Prop := ∀ it, Event.started it ∉ l

/-- While the import statement `i` of module `m` was processed, which led to module `t`, module `n`
was loaded (with the import statements `infos`); `later` is what happened after that. -/
def LoadedBy (log : List Event) (m : Str) (i : ImportInfo) (t n : Str) (infos : List ImportInfo)
    (later : List Event) : Prop :=
  ∃ before M during, M.ident = m ∧
    log = before ++ .started (.imp M i) :: (during ++ .imported m i t :: later) ∧
    NoStart during ∧ .scheduled n infos ∈ during

/-- The work item is the name list of the import statement `i` of module `m`. -/
def IsNameList (m : Str) (i : ImportInfo) (it : Item) : Prop := ∃ a b, it = .nl a b i ∧ a.ident = m

/-- The import statement `i` of module `m` was processed only once. -/
structure Once (log : List Event) (m : Str) (i : ImportInfo) : Prop where
  imported : ∀ (p q : Nat) t t', log[p]? = some (.imported m i t) → log[q]? = some (.imported m i t') →
    p = q
  names : ∀ (p q : Nat) X Y, IsNameList m i X → IsNameList m i Y → log[p]? = some (.started X) →
    log[q]? = some (.started Y) → p = q

/-- Star imports lead from the statement `i` of module `m` to module `c`; each module on the way
was loaded for the star import that names it, and its statement was processed once. -/
inductive LoadChain (log : List Event) : Str → ImportInfo → Str → List Str → Prop
  | one {m i c} : i.starImport = true → .imported m i c ∈ log → Once log m i → LoadChain log m i c [c]
  | cons {m i t infos later j c l} : i.starImport = true → LoadedBy log m i t t infos later →
      Once log m i → j ∈ infos → LoadChain log t j c l → LoadChain log m i c (t :: l)

end Verif.Spec
