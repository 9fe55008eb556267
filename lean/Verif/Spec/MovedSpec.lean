import Verif.Spec.LoaderSpec
import Verif.Spec.SixSpec
/-!
# Specification vocabulary: importers that serve modules from elsewhere

The importer of `six` serves `six.moves.queue` from `queue`, the importers of `setuptools.extern` and
`pkg_resources.extern` serve `setuptools.extern.packaging` from `setuptools._vendor.packaging` or from `packaging`,
and the importer of `_distutils_hack` serves `distutils` from `setuptools._distutils`.
-/
namespace Verif.Spec
open Verif
variable {W : Type}

/-- `rel` is what follows the first `.moves.` in `name`. -/
structure BelowMoves (name rel : Str) : Prop where
  split : ∃ pre, name = pre ++ c!".moves." ++ rel
  first : ∀ pre rel', name = pre ++ c!".moves." ++ rel' → rel'.length ≤ rel.length

/-- How the search for `actual` on behalf of `self` ends.  `sys.modules` may have the module `self` for the name
`actual`; the search is repeated without that entry. -/
inductive Looks (L : Loaders W) (self actual : Str) (w : W) : Except Exc (Option Verif.Spec) → W → Prop where
  | other {r w'} : L.findSpec actual w = (r, w') → (∀ m, r = .ok (some m) → m.name ≠ self) →
      Looks L self actual w r w'
  | again {m w1 w2 w3 r w'} : L.findSpec actual w = (.ok (some m), w1) → m.name = self →
      L.delModule actual w1 = (.ok (), w2) → L.invalidate w2 = (.ok (), w3) → L.findSpec actual w3 = (r, w') →
      Looks L self actual w r w'
  | noEntry {m w1 e w'} : L.findSpec actual w = (.ok (some m), w1) → m.name = self →
      L.delModule actual w1 = (.error e, w') → Looks L self actual w (.error e) w'
  | noReset {m w1 w2 e w'} : L.findSpec actual w = (.ok (some m), w1) → m.name = self →
      L.delModule actual w1 = (.ok (), w2) → L.invalidate w2 = (.error e, w') → Looks L self actual w (.error e) w'

/-- What becomes of a module that is served from elsewhere. -/
inductive Fate where
  /-- it is served from the module with this spec -/
  | served (spec : Verif.Spec)
  /-- it is not there, for want of the module with this name -/
  | absent (name : Str)
  /-- the package `six.moves` itself -/
  | moves
  | fails (e : Exc)

/-- A search for `name`, for the sake of the module `self`, leads to this. -/
def fate (self name : Str) : Except Exc (Option Verif.Spec) → Fate
  | .error e => .fails e
  | .ok none => .absent name
  | .ok (some m) => if m.name = self then .fails .assertion else .served m

/-- What becomes of a module that is served from elsewhere, in the world `w` and leading to the world `w'`. -/
inductive Fares (L : Loaders W) (spec : Verif.Spec) (w : W) : Fate → W → Prop where
  /-- `six.moves` that is not in a file -/
  | moves : spec.loader = .six → (∃ pre, spec.name = pre ++ c!".moves") → spec.origin = none → Fares L spec w .moves w
  /-- `six.moves` in a file, whose distribution is looked up to no avail -/
  | movesIn {f d w'} : spec.loader = .six → (∃ pre, spec.name = pre ++ c!".moves") → spec.origin = some f →
      L.distributionForFile f w = (.ok d, w') → Fares L spec w .moves w'
  | movesFails {f e w'} : spec.loader = .six → (∃ pre, spec.name = pre ++ c!".moves") → spec.origin = some f →
      L.distributionForFile f w = (.error e, w') → Fares L spec w (.fails e) w'
  /-- a name below `six.moves` -/
  | six {rel actual r w'} : spec.loader = .six → (∀ pre, spec.name ≠ pre ++ c!".moves") → BelowMoves spec.name rel →
      SixName rel actual → Looks L spec.name actual w r w' → Fares L spec w (fate spec.name actual r) w'
  /-- a name below `six.moves` that is not known -/
  | sixUnknown {rel} : spec.loader = .six → (∀ pre, spec.name ≠ pre ++ c!".moves") → BelowMoves spec.name rel →
      (∀ actual, ¬ SixName rel actual) → Fares L spec w (.absent spec.name) w
  /-- a name below `setuptools.extern`, that is looked for in the package for vendored modules -/
  | vendor {root pkg rel r w'} : spec.loader = .vendor root pkg → spec.name = root ++ '.' :: rel →
      Looks L spec.name (pkg ++ '.' :: rel) w r w' → (∀ b, r ≠ .error (.moduleNotFound b)) →
      Fares L spec w (fate spec.name (pkg ++ '.' :: rel) r) w'
  /-- and that is looked for outside, when the package for vendored modules is not there -/
  | outside {root pkg rel b r w1 w'} : spec.loader = .vendor root pkg → spec.name = root ++ '.' :: rel →
      Looks L spec.name (pkg ++ '.' :: rel) w (.error (.moduleNotFound b)) w1 → L.findSpec rel w1 = (r, w') →
      Fares L spec w (fate spec.name (pkg ++ '.' :: rel) r) w'
  /-- `distutils` is looked for below `setuptools`, after the entry in `sys.modules` is gone -/
  | distutils {w1 w2 r w'} : spec.loader = .distutils → spec.name = c!"distutils" →
      L.delModule c!"setuptools._distutils" w = (.ok (), w1) → L.invalidate w1 = (.ok (), w2) →
      L.findSpec c!"setuptools._distutils" w2 = (r, w') → Fares L spec w (fate spec.name c!"distutils" r) w'
  | noEntry {e w'} : spec.loader = .distutils → spec.name = c!"distutils" →
      L.delModule c!"setuptools._distutils" w = (.error e, w') → Fares L spec w (.fails e) w'
  | noReset {e w1 w'} : spec.loader = .distutils → spec.name = c!"distutils" →
      L.delModule c!"setuptools._distutils" w = (.ok (), w1) → L.invalidate w1 = (.error e, w') →
      Fares L spec w (.fails e) w'

/-- The names that the importers serve. -/
def Serves (spec : Verif.Spec) : Prop :=
  match spec.loader with
  | .six => (∃ pre, spec.name = pre ++ c!".moves") ∨ ∃ pre rel, spec.name = pre ++ c!".moves." ++ rel
  | .vendor root _ => ∃ rel, spec.name = root ++ '.' :: rel
  | .distutils => spec.name = c!"distutils"
  | _ => False

/-- The package `six.moves`. -/
structure MovesNode (name : Str) (node : Node) : Prop where
  ident : node.ident = name
  kind : node.kind = .package false { name := c!"@@SIX_MOVES@@", kind := .frozen, filename := none } [] false none
  filename : node.filename = none
  distribution : node.distribution = none
  read : node.globalsRead = []
  written : ∀ x, x ∈ node.globalsWritten ↔ x ∈ [c!"filter", c!"input", c!"map", c!"range", c!"xrange", c!"zip"]

/-- The module is served from another one, directly or by way of yet other ones. -/
inductive ServedFrom (L : Loaders W) : Verif.Spec → W → Verif.Spec → W → Nat → Prop where
  | self {spec w} : ServedFrom L spec w spec w 0
  | step {spec w m w1 m' w' k} : Fares L spec w (.served m) w1 → ServedFrom L m w1 m' w' k →
      ServedFrom L spec w m' w' (k + 1)

end Verif.Spec
