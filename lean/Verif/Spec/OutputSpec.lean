import Verif.Model.Main
import Verif.Spec.LookupSpec
/-! # Specification: exceptions of writing the document -/
namespace Verif.Spec
open Verif
variable {W : Type}

/-- Writing raises `P` only; for files also `OSError`. -/
structure OutputRaises (P : Exc → Prop) (o : Output W) : Prop where
  stdout : ∀ t, Raises P (o.stdout t)
  openFile : ∀ x, Raises (fun e => e ≠ .osError → P e) (o.openFile x)
  write : ∀ fp t, Raises (fun e => e ≠ .osError → P e) (o.write fp t)
  close : ∀ fp, Raises (fun e => e ≠ .osError → P e) (o.close fp)

end Verif.Spec
