import Verif.Spec.ExactSpec
import Verif.Proofs.EdgeFacts
import Verif.Props.Api
/-!
# The description of a graph determines its parts
-/
namespace Verif
open Spec

/-! ## Names -/

theorem Spec.HasPackage.unique {x p q : Str} (h : HasPackage x p) (h' : HasPackage x q) : p = q := by
  obtain ⟨a, h1, h2⟩ := h
  obtain ⟨b, h3, h4⟩ := h'
  have e1 := rfindSplit_some.mpr ⟨h1, h2⟩
  have e2 := rfindSplit_some.mpr ⟨h3, h4⟩
  rw [e1] at e2
  simp only [Option.some.injEq, Prod.mk.injEq] at e2
  exact e2.1

theorem Spec.HasPackage.dot {x p : Str} (h : HasPackage x p) : '.' ∈ x := by
  obtain ⟨a, rfl, _⟩ := h
  simp

theorem Spec.HasPackage.name {c nm : Str} (h : '.' ∉ nm) : HasPackage (c ++ '.' :: nm) c := ⟨nm, rfl, h⟩

theorem Spec.HasPackage.shorter {x p : Str} (h : HasPackage x p) : p.length < x.length := by
  obtain ⟨a, rfl, _⟩ := h
  simp

theorem hasPackage_of_split {x p b : Str} (hd : x.head? ≠ some '.')
    (h : splitPackage x = .ok (some p, b)) : HasPackage x p := by
  obtain ⟨last, h1, h2 | ⟨hne, hdots, h2⟩⟩ := inPackage_of_split h
  · exact ⟨last, h2, h1⟩
  · exfalso
    cases p with
    | nil => exact hne rfl
    | cons c p =>
      apply hd
      rw [h2, hdots c (List.mem_cons_self ..)]
      rfl

theorem dotless_of_split {x b : Str} (h : splitPackage x = .ok (none, b)) : '.' ∉ x := by
  have hs : ∃ d pre last, IsSplit x d pre last := by
    refine Classical.byContradiction fun hn => ?_
    rw [splitPackage_error_iff.mpr hn] at h; cases h
  obtain ⟨d, pre, last, hs⟩ := hs
  rw [splitPackage_of_isSplit hs] at h
  simp only [Except.ok.injEq, Prod.mk.injEq] at h
  obtain ⟨h, -⟩ := h
  split at h
  · rename_i hd
    obtain ⟨rfl, rfl⟩ := hd
    have := hs.eq
    simp [dotted] at this
    rw [this]
    exact hs.last_comp
  · simp at h

theorem package_nonempty {x p : Str} (hd : x.head? ≠ some '.') (h : HasPackage x p) :
    ∃ c ∈ p, c ≠ '.' := by
  obtain ⟨last, rfl, _⟩ := h
  cases p with
  | nil => simp at hd
  | cons c p => exact ⟨c, List.mem_cons_self .., by simpa using hd⟩

/-! ## Import statements -/

theorem Spec.Refers.unique {m : Node} {i : ImportInfo} {t t' : Str} (h : Refers m i t) (h' : Refers m i t') :
    t = t' := by
  cases h with
  | absolute h0 =>
    cases h' with
    | absolute => rfl
    | relative _ _ h1 => omega
  | relative kept rest h0 h1 h2 h3 h4 =>
    cases h' with
    | absolute => omega
    | relative kept' rest' _ h1' h2' h3' h4' =>
      have := Props.dotted_inj h2 h2' (by simp [h3]) (by simp [h3']) (h1.symm.trans h1')
      have hl : kept = kept' := (List.append_inj' this (by omega)).1
      rw [hl]

theorem Spec.Refers.inside {m : Node} {i : ImportInfo} {t : Str} (h : Refers m i t) : ¬ PointsOutside m i := by
  rintro ⟨h0, comps, hne, h1, h2, h3⟩
  cases h with
  | absolute => omega
  | relative kept rest _ h1' h2' h3' h4' =>
    have := Props.dotted_inj h2' h2 (by simp [h3']) hne (h1'.symm.trans h1)
    rw [← this] at h3
    have : 0 < kept.length := List.length_pos_iff.mpr h3'
    simp at h3
    omega

/-! ## Nodes -/

section
variable {S : Setup}

theorem Spec.Setup.Own.ident {x n} (h : S.Own x n) : n.ident = x := by
  cases h with
  | found _ _ h => exact h
  | _ => rfl

theorem Spec.Setup.NodeFor.ident {x n} (h : S.NodeFor x n) : n.ident = x := by
  cases h with
  | top _ h => exact h.ident
  | sub _ _ _ _ h => exact h.ident
  | inMissing => rfl
  | inExcluded => rfl

theorem Spec.Setup.Own.unique {x n n'} (h : S.Own x n) (h' : S.Own x n') : n = n' := by
  cases h <;> cases h' <;> simp_all <;> grind

theorem missing_excluded {q : Node} (h : q.isMissing = true) : q.isExcluded = false := by
  unfold Node.isMissing at h
  unfold Node.isExcluded
  cases hk : q.kind <;> simp_all

theorem Spec.Setup.NodeFor.unique {x n n'} (h : S.NodeFor x n) (h' : S.NodeFor x n') : n = n' := by
  induction h generalizing n' with
  | top h1 h2 =>
    cases h' with
    | top _ h => exact h2.unique h
    | sub h => exact absurd h.dot h1
    | inMissing h => exact absurd h.dot h1
    | inExcluded h => exact absurd h.dot h1
  | sub h1 h2 h3 h4 h5 ih =>
    cases h' with
    | top h => exact absurd h1.dot h
    | sub _ _ _ _ h => exact h5.unique h
    | inMissing h6 h7 h8 =>
      cases h1.unique h6
      cases ih h7
      rw [h3] at h8; cases h8
    | inExcluded h6 h7 h8 =>
      cases h1.unique h6
      cases ih h7
      rw [h4] at h8; cases h8
  | inMissing h1 h2 h3 ih =>
    cases h' with
    | top h => exact absurd h1.dot h
    | sub h6 h7 h8 _ _ =>
      cases h1.unique h6
      cases ih h7
      rw [h3] at h8; cases h8
    | inMissing => rfl
    | inExcluded h6 h7 h8 =>
      cases h1.unique h6
      cases ih h7
      rw [missing_excluded h3] at h8; cases h8
  | inExcluded h1 h2 h3 ih =>
    cases h' with
    | top h => exact absurd h1.dot h
    | sub h6 h7 _ h8 _ =>
      cases h1.unique h6
      cases ih h7
      rw [h3] at h8; cases h8
    | inMissing h6 h7 h8 =>
      cases h1.unique h6
      cases ih h7
      rw [missing_excluded h8] at h3; cases h3
    | inExcluded => rfl

theorem Spec.Setup.NodeFor.names (hT : S.Tame) {x n} (h : S.NodeFor x n) : n.namesModule = true := by
  have hl : ∀ {n : Node}, n.isLoaded = true → n.namesModule = true := by
    intro n h
    unfold Node.isLoaded Node.isModule Node.isPackage Node.isNamespacePkg at h
    unfold Node.namesModule Node.isBaseNode Node.isScript Node.isInvalidRel
    cases hk : n.kind <;> simp_all
  have own : ∀ {x n}, S.Own x n → n.namesModule = true := by
    intro x n h
    cases h with
    | found _ h _ => exact hl (hT.loaded _ _ _ h)
    | _ => rfl
  cases h with
  | top _ h => exact own h
  | sub _ _ _ _ h => exact own h
  | inMissing => rfl
  | inExcluded => rfl

/-- The node of the graph that is called like a needed module is the node for it. -/
theorem Spec.Setup.HasNode.nodeFor (hT : S.Tame) {n} (h : S.HasNode n) (hn : S.NeedsModule n.ident) :
    S.NodeFor n.ident n := by
  cases h with
  | module h1 h2 => rw [h2.ident]; exact h2
  | script h1 h2 => exact absurd hn (hT.scriptName _ h1).1
  | distribution h1 => exact absurd hn (hT.distName _ h1).1
  | invalid h1 h2 =>
    exfalso
    apply hT.noDot _ hn
    have := h2.1
    obtain ⟨k, hk⟩ : ∃ k, (‹ImportInfo›).importLevel = k + 1 := ⟨_, (Nat.succ_pred_eq_of_pos this).symm⟩
    simp [hk, List.replicate_succ]

theorem Spec.Setup.FromImport.intro {m i t b c nm} (h : S.Needs (.statement m i)) (hr : Refers m i t)
    (hb : S.NodeFor t b) (hc : S.Source b c) (hs : i.starImport = false) (hn : nm ∈ i.importNames) :
    S.FromImport m i c nm := ⟨h, hs, hn, t, b, hr, hb, hc⟩

theorem Spec.Setup.FromImport.tried {m i c nm} (h : S.FromImport m i c nm)
    (hp : c.isPackage = true ∨ c.isNamespacePkg = true) :
    S.Needs (.module (c.ident ++ '.' :: nm.name) true) := by
  obtain ⟨h1, h2, h3, t, b, h4, h5, h6⟩ := h
  exact .name h1 h4 h5 h6 hp h2 h3

theorem Spec.Setup.FromImport.source {m i c nm} (h : S.FromImport m i c nm) :
    S.NeedsModule c.ident ∧ S.NodeFor c.ident c := by
  obtain ⟨h1, h2, h3, t, b, h4, h5, h6⟩ := h
  have ht := Setup.Needs.target h1 h4
  rcases h6 with ⟨rfl, _⟩ | ⟨h6, h7⟩
  · rw [h5.ident]
    exact ⟨⟨_, ht⟩, h5⟩
  · exact ⟨⟨_, .alias ht h5 (.inl h6)⟩, h7⟩

end
end Verif
