import Verif.Py.Str
/-! # Specification: classes of exceptions -/
namespace Verif.Spec
open Verif

/-- `ImportError` or its subclass `ModuleNotFoundError`. -/
def ImportFails (e : Exc) : Prop := e = .importError ∨ ∃ m, e = .moduleNotFound m

/-- An `Exception`: not one that ends the program (`KeyboardInterrupt`, `SystemExit`), and not the mark of the model
for too deep a recursion. -/
def IsException (e : Exc) : Prop := (∀ n, e ≠ .base n) ∧ e ≠ .fuel

theorem importFails_iff (e : Exc) : e.isImportError = true ↔ ImportFails e := by
  cases e <;> simp [Exc.isImportError, ImportFails]

theorem isException_iff (e : Exc) : e.isException = true ↔ IsException e := by
  cases e <;> simp [Exc.isException, IsException]

end Verif.Spec
