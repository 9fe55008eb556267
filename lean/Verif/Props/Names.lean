import Verif.Proofs.Names
import Verif.Model.Utilities
import Verif.Model.Nodes
/-!
# Properties C25 (split_package) and C08 (relative imports)
-/
namespace Verif.Props
open Verif Verif.Spec

/-- **C25**, accepted names.  If the name is `d` dots followed by non-empty components `pre`
and a last component, `split_package` returns the last component and the package text in front
of it; `None` exactly for a top-level name. -/
theorem C25_split_package_ok (name : Str) (d : Nat) (pre : List Str) (last : Str)
    (h : IsSplit name d pre last) :
    splitPackage name =
      .ok (if d = 0 ∧ pre = [] then none else some (List.replicate d '.' ++ dotted pre), last) :=
  splitPackage_of_isSplit h

/-- **C25**, rejected names: exactly those without such a decomposition, with `ValueError`. -/
theorem C25_split_package_error (name : Str) :
    (∃ e, splitPackage name = .error e) ↔ ¬ ∃ d pre last, IsSplit name d pre last := by
  constructor
  · rintro ⟨e, he⟩ ⟨d, pre, last, hs⟩
    rw [splitPackage_of_isSplit hs] at he; cases he
  · intro h; exact ⟨_, splitPackage_error_iff.mpr h⟩

theorem C25_error_is_value_error (name : Str) (e : Exc) (h : splitPackage name = .error e) :
    e = .valueError false := by
  have := splitPackage_error_iff.mpr ((C25_split_package_error name).mp ⟨e, h⟩)
  rw [this] at h; cases h; rfl

/-- **C25** in terms of the text: accepted exactly when the name has a non-dot character and,
after its leading dots, no two adjacent dots. -/
theorem C25_accepted_iff (name : Str) :
    (∃ r, splitPackage name = .ok r) ↔
      (∃ c ∈ name, c ≠ '.') ∧ ¬ (c!".." <:+: name.dropWhile (· == '.')) := by
  have key : (∃ r, splitPackage name = .ok r) ↔
      lstrip '.' name ≠ [] ∧ contains c!".." (lstrip '.' name) = false := by
    constructor
    · rintro ⟨r, hr⟩
      unfold splitPackage at hr
      split at hr
      · cases hr
      · simp only [] at hr
        split at hr
        · cases hr
        · rename_i h; simp at h; simpa using h
    · rintro ⟨h1, h2⟩
      obtain ⟨d, pre, last, h⟩ := exists_isSplit h1 h2
      exact ⟨_, splitPackage_of_isSplit h⟩
  rw [key]
  have h1 : lstrip '.' name ≠ [] ↔ ∃ c ∈ name, c ≠ '.' := by
    clear key
    unfold lstrip
    induction name with
    | nil => simp
    | cons x xs ih =>
      by_cases hx : x = '.'
      · subst hx; simpa [List.dropWhile_cons] using ih
      · simp [hx]
  have h2 : contains c!".." (lstrip '.' name) = false ↔
      ¬ (c!".." <:+: name.dropWhile (· == '.')) := by
    rw [← contains_iff, lstrip]; simp
  rw [h1, h2]

/-- **C25**, reassembly: the pieces give the input back. -/
theorem C25_reassemble (name : Str) (pkg : Option Str) (last : Str)
    (h : splitPackage name = .ok (pkg, last)) :
    (pkg = none → name = last) ∧
    (∀ p, pkg = some p → name = p ++ '.' :: last ∨ (name = p ++ last ∧ ∀ c ∈ p, c = '.')) := by
  have hs : ∃ d pre last, IsSplit name d pre last := by
    refine Classical.byContradiction fun hn => ?_
    rw [splitPackage_error_iff.mpr hn] at h; cases h
  obtain ⟨d, pre, last', hs⟩ := hs
  rw [splitPackage_of_isSplit hs] at h
  obtain ⟨e, -, -, -⟩ := hs
  simp only [Except.ok.injEq, Prod.mk.injEq] at h
  obtain ⟨rfl, rfl⟩ := h
  by_cases hp : pre = []
  · subst hp
    by_cases hd : d = 0
    · subst hd; simpa [dotted] using e
    · rw [if_neg (by simp [hd])]
      refine ⟨nofun, fun p hp => ?_⟩
      cases hp
      right
      exact ⟨by simpa [dotted] using e, by simp [dotted]⟩
  · rw [if_neg (by simp [hp])]
    refine ⟨nofun, fun p hp' => ?_⟩
    cases hp'
    left
    rw [e, dotted_snoc _ hp]; simp

example : IsSplit c!"a.b.c" 0 [c!"a", c!"b"] c!"c" :=
  ⟨by decide, by decide, by decide, by decide⟩
example : IsSplit c!"..a.b" 2 [c!"a"] c!"b" := ⟨by decide, by decide, by decide, by decide⟩
example : splitPackage c!"os" = .ok (none, c!"os") := by decide
example : splitPackage c!"a..b" = .error (.valueError false) := by decide

/-- **C08.** Let the importing node's dotted name have the components `comps` (`comps ≠ []`, no
component contains a dot) and let `drop` be the number of components to remove (`level` for a
module, `level - 1` for a package).  The relative import resolves to the first
`comps.length - drop` components; it is rejected exactly when nothing would remain. -/
theorem C08_relative_package (importing : Node) (comps : List Str) (level : Nat)
    (hl : 0 < level) (hne : comps ≠ []) (hc : ∀ c ∈ comps, Comp c)
    (hn : importing.ident = dotted comps) :
    let drop := if importing.isPackage || importing.isNamespacePkg then level - 1 else level
    relativePackage importing level =
      .ok (if drop < comps.length then some (dotted (comps.take (comps.length - drop))) else none) := by
  intro drop
  unfold relativePackage
  rw [if_neg (by omega)]
  simp only [hn]
  show (if (rsplit '.' drop (dotted comps)).length < drop + 1 then _ else _) = _
  change (if (rsplit '.' drop (dotted comps)).length < drop + 1 then Except.ok none else
    match rsplit '.' drop (dotted comps) with
      | [] => Except.error Exc.indexError
      | b :: _ => Except.ok (some b)) = _
  generalize drop = k
  rw [rsplit_dotted hne hc]
  by_cases h : k < comps.length
  · rw [if_pos h, if_pos h, if_neg]
    simp
    omega
  · rw [if_neg h, if_neg h, if_pos (by omega)]

/-- The components of a name exist and are unique, so C08 covers every importing node. -/
theorem C08_components_exist (name : Str) :
    ∃ comps, comps ≠ [] ∧ (∀ c ∈ comps, Comp c) ∧ name = dotted comps := exists_comps name

/-- Relative imports compose like Python's: for a module `pkg.mod` (components `pre ++ [m]`) one
dot is the containing package, and each further dot one package up. -/
theorem C08_one_dot_module (importing : Node) (pre : List Str) (m : Str) (hp : pre ≠ [])
    (hc : ∀ c ∈ pre ++ [m], Comp c) (hn : importing.ident = dotted (pre ++ [m]))
    (hk : importing.isPackage = false ∧ importing.isNamespacePkg = false) :
    relativePackage importing 1 = .ok (some (dotted pre)) := by
  have := C08_relative_package importing (pre ++ [m]) 1 (by omega) (by simp) hc hn
  have hpos := List.length_pos_iff.mpr hp
  simp [hk] at this
  rw [this]; simp [hpos]

/-- For a package one dot is the package itself. -/
theorem C08_one_dot_package (importing : Node) (h : importing.isPackage = true) :
    relativePackage importing 1 = .ok (some importing.ident) := by
  obtain ⟨comps, hne, hc, hn⟩ := exists_comps importing.ident
  have := C08_relative_package importing comps 1 (by omega) hne hc hn
  have hpos := List.length_pos_iff.mpr hne
  simpa [h, hpos, hn] using this

def exPkg : Node :=
  { ident := c!"a.b", kind := .package false ⟨c!"a.b", .source, none⟩ [] false none }
def exMod : Node := { ident := c!"a.b.m", kind := .module .source }

example : relativePackage exMod 2 = .ok (some c!"a") ∧ relativePackage exMod 3 = .ok none ∧
    relativePackage exPkg 2 = .ok (some c!"a") := by decide
example : exMod.ident = dotted [c!"a", c!"b", c!"m"] ∧ ∀ c ∈ [c!"a", c!"b", c!"m"], Comp c := by
  decide

/-- A script's "name" is its path, so a relative import in `/foo/bar.py` is resolved against a
package `/foo/bar` although scripts have no package; Python rejects such an import.  The English
C08 speaks of modules; this records what happens for scripts. -/
theorem C08_script_relative_import_accepted :
    relativePackage { ident := c!"/foo/bar.py", kind := .script } 1 = .ok (some c!"/foo/bar") := by
  decide

end Verif.Props
