import Verif.Model.Ast
/-!
# Specification: import statements in a syntax tree

`occurrences` lists every node of a tree once, with the constructs it is nested in.
It uses the `Ast` data type, no function of the scanner.
-/
namespace Verif.Spec
open Verif

/-- How a node sits in its parent. -/
inductive Via where
  | inIf          -- test, body or else of an `if`
  | inDef         -- part of a `def` / `async def`
  | inTry         -- body, handlers or else of a `try`
  | inTryStar     -- body, handlers or else of a `try ... except*`
  | inFinally     -- `finally` part of a `try`
  | plain         -- any other nesting
deriving DecidableEq

/-- All nodes of a tree, each with the way from the root to it (outermost first). -/
def occurrences : Ast → List (List Via × Ast)
  | .import_ names => [([], .import_ names)]
  | .importFrom m names l => [([], .importFrom m names l)]
  | .if_ cs => ([], .if_ cs) ::
      (cs.map occurrences).flatten.map (fun p => (Via.inIf :: p.1, p.2))
  | .funcDef cs => ([], .funcDef cs) ::
      (cs.map occurrences).flatten.map (fun p => (Via.inDef :: p.1, p.2))
  | .try_ b h o f => ([], .try_ b h o f) ::
      (((b.map occurrences).flatten ++ (h.map occurrences).flatten
          ++ (o.map occurrences).flatten).map (fun p => (Via.inTry :: p.1, p.2))
        ++ (f.map occurrences).flatten.map (fun p => (Via.inFinally :: p.1, p.2)))
  | .tryStar b h o f => ([], .tryStar b h o f) ::
      (((b.map occurrences).flatten ++ (h.map occurrences).flatten
          ++ (o.map occurrences).flatten).map (fun p => (Via.inTryStar :: p.1, p.2))
        ++ (f.map occurrences).flatten.map (fun p => (Via.inFinally :: p.1, p.2)))
  | .other cs => ([], .other cs) ::
      (cs.map occurrences).flatten.map (fun p => (Via.plain :: p.1, p.2))

/-- A node is nested below `root` along the steps `way` (declarative reading of
`occurrences`). -/
inductive Nested : Ast → List Via → Ast → Prop where
  | here (a) : Nested a [] a
  | inIf {cs c way x} : c ∈ cs → Nested c way x → Nested (.if_ cs) (.inIf :: way) x
  | inDef {cs c way x} : c ∈ cs → Nested c way x → Nested (.funcDef cs) (.inDef :: way) x
  | inTryBody {b h o f c way x} : c ∈ b → Nested c way x → Nested (.try_ b h o f) (.inTry :: way) x
  | inTryHandler {b h o f c way x} : c ∈ h → Nested c way x →
      Nested (.try_ b h o f) (.inTry :: way) x
  | inTryElse {b h o f c way x} : c ∈ o → Nested c way x → Nested (.try_ b h o f) (.inTry :: way) x
  | inFinally {b h o f c way x} : c ∈ f → Nested c way x →
      Nested (.try_ b h o f) (.inFinally :: way) x
  | inTryStarBody {b h o f c way x} : c ∈ b → Nested c way x → Nested (.tryStar b h o f) (.inTryStar :: way) x
  | inTryStarHandler {b h o f c way x} : c ∈ h → Nested c way x →
      Nested (.tryStar b h o f) (.inTryStar :: way) x
  | inTryStarElse {b h o f c way x} : c ∈ o → Nested c way x → Nested (.tryStar b h o f) (.inTryStar :: way) x
  | inStarFinally {b h o f c way x} : c ∈ f → Nested c way x →
      Nested (.tryStar b h o f) (.inFinally :: way) x
  | plain {cs c way x} : c ∈ cs → Nested c way x → Nested (.other cs) (.plain :: way) x

/-- What a scanner that keeps exactly the documented information reports for one
occurrence: one entry per alias of `import`, one per `from` statement.  `inTryExcept` here
counts plain `try` statements only; property C23 says what is missing.  An entry is
(module, as-name, level, from-list if any, in function, in conditional, in try). -/
structure Entry where
  module : Str
  asname : Option Str
  level : Nat
  names : Option (List (Str × Option Str))
  inFunction : Bool
  inConditional : Bool
  inTryExcept : Bool
deriving DecidableEq

def entries (occ : List Via × Ast) : List Entry :=
  match occ.2 with
  | .import_ names => names.map fun nm =>
      { module := nm.1, asname := nm.2, level := 0, names := none,
        inFunction := occ.1.contains .inDef, inConditional := occ.1.contains .inIf,
        inTryExcept := occ.1.contains .inTry }
  | .importFrom m names l =>
      [{ module := m.getD [], asname := none, level := l, names := some names,
         inFunction := occ.1.contains .inDef, inConditional := occ.1.contains .inIf,
         inTryExcept := occ.1.contains .inTry }]
  | _ => []

/-- Two lists correspond element by element. -/
inductive Forall2 {α β : Type} (R : α → β → Prop) : List α → List β → Prop where
  | nil : Forall2 R [] []
  | cons {a b as bs} : R a b → Forall2 R as bs → Forall2 R (a :: as) (b :: bs)

/-- An import record describes an entry: same module, level and flags, and its name set is
the from-list without `*` (each name once, with one of the as-names given for it). -/
structure Describes (i : ImportInfo) (e : Entry) : Prop where
  module : i.importModule.name = e.module
  asname : i.importModule.asname = e.asname
  level : i.importLevel = e.level
  inFunction : i.inFunction = e.inFunction
  inConditional : i.inConditional = e.inConditional
  inTryExcept : i.inTryExcept = e.inTryExcept
  star : i.starImport = true ↔ ∃ l, e.names = some l ∧ ∃ a, (c!"*", a) ∈ l
  names_nodup : (i.importNames.map ImpName.name).Nodup
  names_sound : ∀ n ∈ i.importNames, n.name ≠ c!"*" ∧ ∃ l, e.names = some l ∧ (n.name, n.asname) ∈ l
  names_complete : ∀ l, e.names = some l → ∀ nm a, (nm, a) ∈ l → nm ≠ c!"*" →
    ∃ n ∈ i.importNames, n.name = nm

end Verif.Spec
