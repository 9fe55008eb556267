import Verif.Model.ImportInfo
/-!
# Model of `modulegraph2/_ast_tools.py`
-/
namespace Verif

/-- Python syntax trees, as far as `extract_ast_info` distinguishes node classes.
The lists of children are what `ast.iter_child_nodes` yields.  `other` covers every
class the scanner has no branch for (module, class, loops, with, match, expressions).
`try_` has the four fields of `ast.Try` in `_fields` order.  `tryStar` is `ast.TryStar`
(`try: ... except* E: ...`): it is not a subclass of `ast.Try`, so the scanner handles it
in its final `else` branch; it is a separate constructor so that this can be stated. -/
inductive Ast where
  | import_ (names : List (Str × Option Str))
  | importFrom (module : Option Str) (names : List (Str × Option Str)) (level : Nat)
  | if_ (children : List Ast)
  | funcDef (children : List Ast)
  | try_ (body handlers orelse finalbody : List Ast)
  | tryStar (body handlers orelse finalbody : List Ast)
  | other (children : List Ast)

/-- Number of nodes, the termination measure of the scanner. -/
def Ast.size : Ast → Nat
  | .import_ _ => 1
  | .importFrom _ _ _ => 1
  | .if_ cs => 1 + (cs.map Ast.size).sum
  | .funcDef cs => 1 + (cs.map Ast.size).sum
  | .try_ b h o f => 1 + (b.map Ast.size).sum + (h.map Ast.size).sum + (o.map Ast.size).sum
      + (f.map Ast.size).sum
  | .tryStar b h o f => 1 + (b.map Ast.size).sum + (h.map Ast.size).sum + (o.map Ast.size).sum
      + (f.map Ast.size).sum
  | .other cs => 1 + (cs.map Ast.size).sum

/-- An entry of the scanner's work queue (`_ast_tools.py` 35). -/
structure AstWork where
  node : Ast
  inDef : Bool
  inIf : Bool
  inTry : Bool

/-- The iteration order of the set comprehension at `_ast_tools.py` 49 is not specified
by Python; it is a parameter of the model: some arrangement of the distinct elements. -/
abbrev SetOrder := List (Str × Option Str) → List (Str × Option Str)

/-- Admissible set orders: the result has exactly the elements of the input, each once. -/
def SetOrder.Ok (ord : SetOrder) : Prop :=
  ∀ l, (ord l).Nodup ∧ ∀ x, x ∈ ord l ↔ x ∈ l

/-- Total size of a work queue. -/
def queueSize (q : List AstWork) : Nat := (q.map fun w => w.node.size).sum

/-- Records produced for one node (`_ast_tools.py` 40-54). -/
def astRecords (ord : SetOrder) (w : AstWork) : List ImportInfo :=
  match w.node with
  | .import_ names =>
    names.map fun nm => createImportInfo nm none 0 w.inDef w.inIf w.inTry
  | .importFrom module names level =>
    [createImportInfo (module.getD [], none) (some (ord names)) level w.inDef w.inIf w.inTry]
  | _ => []

/-- Work appended for one node (`_ast_tools.py` 56-75). -/
def astPushes (w : AstWork) : List AstWork :=
  match w.node with
  | .import_ _ => []
  | .importFrom _ _ _ => []
  | .if_ cs => cs.map fun c => { node := c, inDef := w.inDef, inIf := true, inTry := w.inTry }
  | .funcDef cs => cs.map fun c => { node := c, inDef := true, inIf := w.inIf, inTry := w.inTry }
  | .try_ b h o f =>
    (b ++ h ++ o).map (fun c => { node := c, inDef := w.inDef, inIf := w.inIf, inTry := true })
      ++ f.map (fun c => { node := c, inDef := w.inDef, inIf := w.inIf, inTry := w.inTry })
  | .tryStar b h o f => (b ++ h ++ o ++ f).map fun c => { w with node := c }
  | .other cs => cs.map fun c => { w with node := c }

theorem queueSize_append (a b : List AstWork) :
    queueSize (a ++ b) = queueSize a + queueSize b := by
  simp [queueSize]

theorem queueSize_pushes (w : AstWork) : queueSize (astPushes w) < w.node.size := by
  have h : ∀ (f : Ast → AstWork) (cs : List Ast), (∀ c, (f c).node = c) →
      queueSize (cs.map f) = (cs.map Ast.size).sum := by
    intro f cs hf
    simp only [queueSize, List.map_map]
    congr 1
    apply List.map_congr_left
    intro c _
    simp [hf]
  unfold astPushes
  split <;> rename_i e <;> simp only [e]
  · simp [queueSize, Ast.size]
  · simp [queueSize, Ast.size]
  · rw [h _ _ (fun _ => rfl), Ast.size]; omega
  · rw [h _ _ (fun _ => rfl), Ast.size]; omega
  · rw [queueSize_append, h _ _ (fun _ => rfl), h _ _ (fun _ => rfl), Ast.size]
    simp only [List.map_append, List.sum_append]; omega
  · rw [h _ _ (fun _ => rfl), Ast.size]
    simp only [List.map_append, List.sum_append]; omega
  · rw [h _ _ (fun _ => rfl), Ast.size]; omega

/-- `_ast_tools.py` 37-75: the `while work_q` loop.  The generator's yields are collected
in a list. -/
def astLoop (ord : SetOrder) : List AstWork → List ImportInfo
  | [] => []
  | w :: rest => astRecords ord w ++ astLoop ord (rest ++ astPushes w)
termination_by q => queueSize q
decreasing_by
  rw [queueSize_append]
  have := queueSize_pushes w
  simp only [queueSize, List.map_cons, List.sum_cons]
  simp only [queueSize] at this
  omega

/-- `_ast_tools.py` 14-75, `extract_ast_info`. -/
def extractAstInfo (ord : SetOrder) (node : Ast) : List ImportInfo :=
  astLoop ord [{ node := node, inDef := false, inIf := false, inTry := false }]

end Verif
