import Verif.Spec.DistSpec
/-!
# Specification: what a path means

A path leads, step by step, to a place in the tree of directories (symbolic links are not looked at).
-/
namespace Verif.Spec.Path
open Verif

/-- A place: from the root of the file system (`/`, or `//`, which POSIX allows to be another root), or else from the
current directory (`root` is empty), up a number of directories, and then down by these names. -/
structure Place where
  root : Str
  ups : Nat
  names : List Str
deriving DecidableEq

/-- One component of a path leads from a place to another. -/
inductive Step : Place → Str → Place → Prop where
  /-- an empty component, as in `a//b`, or `.` -/
  | stay {p c} : c = [] ∨ c = c!"." → Step p c p
  | down {p c} : c ≠ [] → c ≠ c!"." → c ≠ c!".." → Step p c { p with names := p.names ++ [c] }
  | up {root ups names n} : Step ⟨root, ups, names ++ [n]⟩ c!".." ⟨root, ups, names⟩
  /-- the root is its own parent -/
  | top {root ups} : root ≠ [] → Step ⟨root, ups, []⟩ c!".." ⟨root, ups, []⟩
  | above {ups} : Step ⟨[], ups, []⟩ c!".." ⟨[], ups + 1, []⟩

inductive Walk : Place → List Str → Place → Prop where
  | nil {p} : Walk p [] p
  | cons {p c q l r} : Step p c q → Walk q l r → Walk p (c :: l) r

/-- From `p` the path `rel`, which does not begin with a slash, leads to `q`. -/
def Leads (p : Place) (rel : Str) (q : Place) : Prop :=
  ∃ cs : List Str, cs ≠ [] ∧ (∀ c ∈ cs, '/' ∉ c) ∧ rel = slashed cs ∧ Walk p cs q

/-- The place that a path means. -/
inductive Means : Str → Place → Prop where
  | relative {s q} : ¬ ['/'] <+: s → Leads ⟨[], 0, []⟩ s q → Means s q
  | absolute {s q} : (¬ ['/'] <+: s ∨ ['/', '/'] <+: s) → Leads ⟨['/'], 0, []⟩ s q → Means ('/' :: s) q
  | twice {s q} : ¬ ['/'] <+: s → Leads ⟨['/', '/'], 0, []⟩ s q → Means ('/' :: '/' :: s) q

/-- The shortest path to a place. -/
def Place.text (p : Place) : Str :=
  match p.root, List.replicate p.ups c!".." ++ p.names with
  | [], [] => c!"."
  | root, l => root ++ slashed l

/-- `file` is the shortest path for the path `rel` as seen from the directory `dir`. -/
def From (dir rel file : Str) : Prop :=
  ∃ q : Place, file = q.text ∧ if ['/'] <+: rel then Means rel q else ∃ p, Means dir p ∧ Leads p rel q

end Verif.Spec.Path
