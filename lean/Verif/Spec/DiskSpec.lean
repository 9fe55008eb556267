import Verif.Spec.LookupSpec
import Verif.Spec.MetadataSpec
/-! # Specification: exceptions of reading what is installed -/
namespace Verif.Spec
open Verif
variable {W : Type}

/-- Listing directories and reading METADATA and RECORD raises `P` only, or `OSError`. -/
structure DiskRaises (P : Exc → Prop) (D : DistEnv W) : Prop where
  listdir : ∀ x, Raises (fun e => e ≠ .osError → P e) (D.listdir x)
  metadata : ∀ x, Raises (fun e => e ≠ .osError → P e) (D.metadata x)
  record : ∀ x, Raises (fun e => e ≠ .osError → P e) (D.record x)

/-- Every METADATA file that can be read has a name and a version. -/
def Labelled (D : DistEnv W) : Prop :=
  ∀ x w text, (D.metadata x w).1 = .ok text →
    ∃ fields name version, Meta.File fields text ∧ Meta.Says fields c!"Name" name ∧ Meta.Says fields c!"Version" version

/-- Raised by the world or the user, or by the library when it makes nodes: a failed `assert`, or `RuntimeError`
for a loader that it does not know. -/
def OrMaking (P : Exc → Prop) (e : Exc) : Prop := P e ∨ e = .assertion ∨ e = .runtimeError ∨ e = .fuel

end Verif.Spec
