import Verif.Model.SixMoves
import Verif.Spec.SixSpec
/-! # The table of the names below `six.moves` -/
namespace Verif.Props
open Verif Spec

theorem sixMove_mem {a b : Str} (h : sixMove a = some b) : (a, b) ∈ sixMovesTo := by
  unfold sixMove at h
  cases hf : sixMovesTo.find? (fun p => p.1 = a) with
  | none => simp [hf] at h
  | some p =>
    rw [hf] at h
    have h1 := List.find?_some hf
    have h2 := List.mem_of_find?_eq_some hf
    simp only [decide_eq_true_eq] at h1
    simp only [Option.map_some, Option.some.injEq] at h
    rw [← h1, ← h]
    exact h2

theorem sixNames_eq : sixNames = sixMovesTo.map (fun p => p.1 ++ ':' :: p.2) := by decide +kernel

theorem sixMovesTo_plain : ∀ p ∈ sixMovesTo, ':' ∉ p.1 ∧ ':' ∉ p.2 := by decide +kernel

theorem sixMovesTo_once : ∀ p ∈ sixMovesTo, sixMove p.1 = some p.2 := by decide +kernel

theorem split_colon {a b c d : Str} {x : Char} (h : a ++ x :: b = c ++ x :: d) (hc : x ∉ c) (hd : x ∉ d) :
    a = c ∧ b = d := by
  induction a generalizing c with
  | nil =>
    cases c with
    | nil => simpa using h
    | cons y c =>
      simp only [List.nil_append, List.cons_append, List.cons.injEq] at h
      exact absurd (h.1 ▸ List.mem_cons_self ..) hc
  | cons y a ih =>
    cases c with
    | nil =>
      simp only [List.nil_append, List.cons_append, List.cons.injEq] at h
      exact absurd (h.2 ▸ List.mem_append_right _ (List.mem_cons_self ..)) hd
    | cons z c =>
      simp only [List.cons_append, List.cons.injEq] at h
      obtain ⟨h1, h2⟩ := ih h.2 (fun h => hc (List.mem_cons_of_mem _ h))
      exact ⟨by rw [h.1, h1], h2⟩

/-- The model has the table of the code. -/
theorem sixMove_iff {rel actual : Str} : sixMove rel = some actual ↔ SixName rel actual := by
  unfold SixName
  rw [sixNames_eq]
  constructor
  · intro h
    exact List.mem_map.mpr ⟨_, sixMove_mem h, rfl⟩
  · intro h
    obtain ⟨p, hp, he⟩ := List.mem_map.mp h
    obtain ⟨h1, h2⟩ := sixMovesTo_plain p hp
    obtain ⟨rfl, rfl⟩ := split_colon he.symm h1 h2
    exact sixMovesTo_once p hp

theorem sixMove_none {rel : Str} : sixMove rel = none ↔ ∀ actual, ¬ SixName rel actual := by
  constructor
  · intro h actual ha
    rw [sixMove_iff.mpr ha] at h; cases h
  · intro h
    cases hs : sixMove rel with
    | none => rfl
    | some t => exact absurd (sixMove_iff.mp hs) (h t)

end Verif.Props
