import Verif.Model.Utilities
import Verif.Spec.Names
/-! Lemmas about the string functions and dotted names. -/
namespace Verif
open Spec

theorem rfindSplit_none {c : Char} {s : Str} : rfindSplit c s = none ↔ c ∉ s := by
  induction s with
  | nil => simp [rfindSplit]
  | cons x xs ih =>
    simp only [rfindSplit]
    cases h : rfindSplit c xs with
    | some p =>
      have : ¬ c ∉ xs := fun hc => by rw [ih.mpr hc] at h; cases h
      simp_all
    | none =>
      have := ih.mp h
      by_cases hx : x = c
      · simp [hx]
      · simp [hx, this, Ne.symm hx]

theorem rfindSplit_some {c : Char} {s a b : Str} :
    rfindSplit c s = some (a, b) ↔ s = a ++ c :: b ∧ c ∉ b := by
  induction s generalizing a with
  | nil => simp [rfindSplit]
  | cons x xs ih =>
    simp only [rfindSplit]
    cases h : rfindSplit c xs with
    | some p =>
      obtain ⟨a', b'⟩ := p
      have h' := (ih (a := a')).symm
      constructor
      · intro he
        simp only [Option.some.injEq, Prod.mk.injEq] at he
        obtain ⟨rfl, rfl⟩ := he
        have := (ih (a := a') ).mp h
        simp [this.1, this.2]
      · rintro ⟨he, hb⟩
        cases a with
        | nil =>
          simp only [List.nil_append, List.cons.injEq] at he
          have := rfindSplit_none.mpr hb
          rw [he.2, this] at h; cases h
        | cons y ys =>
          simp only [List.cons_append, List.cons.injEq] at he
          have := (ih (a := ys)).mpr ⟨he.2, hb⟩
          rw [h] at this
          simp only [Option.some.injEq, Prod.mk.injEq] at this
          simp [this.1, this.2, he.1]
    | none =>
      have hn := rfindSplit_none.mp h
      by_cases hx : x = c
      · subst hx
        simp only [if_true, Option.some.injEq, Prod.mk.injEq]
        constructor
        · rintro ⟨rfl, rfl⟩; simp [hn]
        · rintro ⟨he, hb⟩
          cases a with
          | nil => simp at he; simp [he]
          | cons y ys =>
            simp only [List.cons_append, List.cons.injEq] at he
            exact absurd (by rw [he.2]; simp) hn
      · simp only [hx, if_false, reduceCtorEq, false_iff]
        rintro ⟨he, hb⟩
        cases a with
        | nil => simp at he; exact hx he.1
        | cons y ys =>
          simp only [List.cons_append, List.cons.injEq] at he
          exact absurd (by rw [he.2]; simp) hn

theorem contains_iff {sub s : Str} : contains sub s = true ↔ sub <:+: s := by
  induction s with
  | nil => simp [contains]
  | cons x xs ih =>
    simp only [contains, Bool.or_eq_true, ih, List.infix_cons_iff, List.isPrefixOf_iff_prefix]

theorem dotted_snoc {cs : List Str} (x : Str) (h : cs ≠ []) :
    dotted (cs ++ [x]) = dotted cs ++ '.' :: x := by
  induction cs with
  | nil => exact absurd rfl h
  | cons c r ih =>
    cases r with
    | nil => simp [dotted]
    | cons d r => simpa [dotted] using ih (by simp)

theorem dotted_append {cs ds : List Str} (h : cs ≠ []) (h' : ds ≠ []) :
    dotted (cs ++ ds) = dotted cs ++ '.' :: dotted ds := by
  induction cs with
  | nil => exact absurd rfl h
  | cons c r ih =>
    cases r with
    | nil =>
      cases ds with
      | nil => exact absurd rfl h'
      | cons d ds => simp [dotted]
    | cons d r => simpa [dotted] using ih (by simp)

theorem joinWith_eq_dotted (cs : List Str) : joinWith '.' cs = dotted cs := by
  induction cs with
  | nil => rfl
  | cons c r ih =>
    cases r with
    | nil => rfl
    | cons d r => simp [joinWith, dotted, ih]

/-- Every string is the dotted form of its list of components. -/
theorem exists_comps (s : Str) : ∃ cs, cs ≠ [] ∧ (∀ c ∈ cs, Comp c) ∧ s = dotted cs := by
  induction s with
  | nil => exact ⟨[[]], by simp, by simp [Comp], rfl⟩
  | cons x xs ih =>
    obtain ⟨cs, hne, hc, rfl⟩ := ih
    by_cases hx : x = '.'
    · refine ⟨[] :: cs, by simp, ?_, ?_⟩
      · intro c h
        rcases List.mem_cons.mp h with rfl | h
        · simp [Comp]
        · exact hc c h
      · cases cs with
        | nil => exact absurd rfl hne
        | cons d r => simp [dotted, hx]
    · cases cs with
      | nil => exact absurd rfl hne
      | cons d r =>
        refine ⟨(x :: d) :: r, by simp, ?_, ?_⟩
        · intro c h
          rcases List.mem_cons.mp h with rfl | h
          · have := hc d (by simp)
            simp only [Comp, List.mem_cons, not_or] at *
            exact ⟨Ne.symm hx, this⟩
          · exact hc c (by simp [h])
        · cases r <;> simp [dotted]

theorem rsplit_dotted {cs : List Str} (hne : cs ≠ []) (hc : ∀ c ∈ cs, Comp c) (n : Nat) :
    rsplit '.' n (dotted cs) =
      if n < cs.length then dotted (cs.take (cs.length - n)) :: cs.drop (cs.length - n)
      else cs := by
  induction n generalizing cs with
  | zero =>
    have : 0 < cs.length := List.length_pos_iff.mpr hne
    simp [rsplit, this]
  | succ n ih =>
    rcases List.eq_nil_or_concat cs with h | ⟨l, b, rfl⟩
    · exact absurd h hne
    · simp only [List.concat_eq_append] at *
      have hb : Comp b := hc b (by simp)
      cases l with
      | nil =>
        have hn : rfindSplit '.' b = none := rfindSplit_none.mpr hb
        simp [rsplit, dotted, hn]
      | cons a r =>
        rw [dotted_snoc b (by simp)]
        have hs : rfindSplit '.' (dotted (a :: r) ++ '.' :: b) = some (dotted (a :: r), b) :=
          rfindSplit_some.mpr ⟨rfl, hb⟩
        simp only [rsplit, hs]
        rw [ih (by simp) (fun c h => hc c (List.mem_append_left _ h))]
        have hlen : (a :: r ++ [b]).length = (a :: r).length + 1 := by simp
        rw [hlen]
        by_cases h : n < (a :: r).length
        · have h2 : n + 1 < (a :: r).length + 1 := by omega
          have e : (a :: r).length + 1 - (n + 1) = (a :: r).length - n := by omega
          have hle : (a :: r).length - n ≤ (a :: r).length := by omega
          rw [if_pos h, if_pos h2, e, List.take_append_of_le_length hle,
            List.drop_append_of_le_length hle]
          simp
        · have h2 : ¬ n + 1 < (a :: r).length + 1 := by omega
          rw [if_neg h, if_neg h2]

theorem lstrip_replicate (c : Char) (d : Nat) (s : Str) (h : s.head? ≠ some c) :
    lstrip c (List.replicate d c ++ s) = s := by
  induction d with
  | zero =>
    cases s with
    | nil => rfl
    | cons x xs =>
      have : x ≠ c := by simpa using h
      simp [lstrip, this]
  | succ d ih =>
    rw [List.replicate_succ]
    simpa [lstrip] using ih

theorem lstrip_decomp (c : Char) (s : Str) :
    s = List.replicate (s.length - (lstrip c s).length) c ++ lstrip c s ∧
      (lstrip c s).head? ≠ some c := by
  induction s with
  | nil => simp [lstrip]
  | cons x xs ih =>
    by_cases hx : x = c
    · subst hx
      have e : lstrip x (x :: xs) = lstrip x xs := by simp [lstrip]
      rw [e]
      refine ⟨?_, ih.2⟩
      have hle : (lstrip x xs).length ≤ xs.length := by
        have := congrArg List.length ih.1
        simp at this; omega
      have e2 : (x :: xs).length - (lstrip x xs).length
          = (xs.length - (lstrip x xs).length) + 1 := by simp; omega
      rw [e2, List.replicate_succ, List.cons_append, ← ih.1]
    · have e : lstrip c (x :: xs) = x :: xs := by simp [lstrip, hx]
      rw [e]; simp [hx]

/-- A dotted name has two adjacent dots only if an inner component is empty. -/
theorem no_double_dot {pre : List Str} {last : Str} (hp : ∀ c ∈ pre, Comp c ∧ c ≠ [])
    (hl : Comp last) : ¬ (c!".." <:+: dotted (pre ++ [last])) := by
  induction pre with
  | nil =>
    intro h
    have : '.' ∈ last := h.subset (by simp)
    exact hl this
  | cons c r ih =>
    have ih := ih (fun x h => hp x (by simp [h]))
    obtain ⟨hc, hcn⟩ := hp c (by simp)
    have e : dotted (c :: r ++ [last]) = c ++ '.' :: dotted (r ++ [last]) := by
      cases r <;> simp [dotted]
    rw [e]
    have key : ∀ (c rest : Str), '.' ∉ c → ¬ (c!".." <:+: rest) → rest.head? ≠ some '.' →
        ¬ (c!".." <:+: c ++ '.' :: rest) := by
      intro c rest hc hr hh
      induction c with
      | nil =>
        rw [List.nil_append, List.infix_cons_iff]
        rintro (h | h)
        · cases rest with
          | nil => simp at h
          | cons y ys =>
            simp at h hh
            exact hh h.symm
        · exact hr h
      | cons x xs ih =>
        simp only [List.mem_cons, not_or] at hc
        rw [List.cons_append, List.infix_cons_iff]
        rintro (h | h)
        · rw [List.cons_prefix_cons] at h; exact hc.1 h.1
        · exact ih hc.2 h
    refine key _ _ hc ih ?_
    cases r with
    | nil =>
      simp only [List.nil_append, dotted]
      intro h
      cases last with
      | nil => simp at h
      | cons y ys => simp at h; exact hl (by simp [h])
    | cons d r =>
      obtain ⟨hd, hdn⟩ := hp d (by simp)
      cases d with
      | nil => exact absurd rfl hdn
      | cons y ys =>
        cases r <;>
        · simp [dotted]
          rintro rfl
          exact hd (by simp)

theorem splitPackage_of_isSplit {name : Str} {d : Nat} {pre : List Str} {last : Str}
    (h : IsSplit name d pre last) :
    splitPackage name =
      .ok (if d = 0 ∧ pre = [] then none else some (List.replicate d '.' ++ dotted pre), last) := by
  obtain ⟨rfl, hp, hl, hn⟩ := h
  have hhead : (dotted (pre ++ [last])).head? ≠ some '.' := by
    cases pre with
    | nil =>
      cases last with
      | nil => exact absurd rfl (hn rfl)
      | cons y ys =>
        simp [dotted]; rintro rfl; exact hl (by simp)
    | cons c r =>
      obtain ⟨hc, hcn⟩ := hp c (by simp)
      cases c with
      | nil => exact absurd rfl hcn
      | cons y ys =>
        cases r <;>
        · simp [dotted]; rintro rfl; exact hc (by simp)
  have hne : dotted (pre ++ [last]) ≠ [] := by
    cases pre with
    | nil => simpa [dotted] using hn rfl
    | cons c r => cases r <;> simp [dotted]
  have hl1 := lstrip_replicate '.' d _ hhead
  have hdd : contains c!".." (dotted (pre ++ [last])) = false := by
    rw [Bool.eq_false_iff, Ne, contains_iff]
    exact no_double_dot hp hl
  have hlen : (List.replicate d '.' ++ dotted (pre ++ [last])).length
      - (dotted (pre ++ [last])).length = d := by simp
  have hname : List.replicate d '.' ++ dotted (pre ++ [last]) ≠ [] := by simp [hne]
  simp only [splitPackage, hname, if_false, hl1, hne, hdd, decide_false, Bool.or_false, hlen,
    Bool.false_eq_true]
  cases pre with
  | nil =>
    have : rfindSplit '.' last = none := rfindSplit_none.mpr hl
    by_cases hd : d = 0 <;> simp [rpartition, dotted, this, hd]
  | cons c r =>
    have hs : rfindSplit '.' (dotted (c :: r ++ [last])) = some (dotted (c :: r), last) := by
      rw [dotted_snoc _ (by simp)]; exact rfindSplit_some.mpr ⟨rfl, hl⟩
    have hcr : dotted (c :: r) ≠ [] := by
      cases r with
      | nil => simpa [dotted] using (hp c (by simp)).2
      | cons _ _ => simp [dotted]
    simp only [rpartition, hs]
    by_cases hd : d = 0 <;> simp [hd, hcr]

theorem exists_isSplit {name : Str} (h : lstrip '.' name ≠ [])
    (h2 : contains c!".." (lstrip '.' name) = false) : ∃ d pre last, IsSplit name d pre last := by
  obtain ⟨e, hh⟩ := lstrip_decomp '.' name
  obtain ⟨cs, hne, hc, he⟩ := exists_comps (lstrip '.' name)
  rcases List.eq_nil_or_concat cs with h0 | ⟨pre, last, rfl⟩
  · exact absurd h0 hne
  simp only [List.concat_eq_append] at *
  have h2' : ¬ (c!".." <:+: dotted (pre ++ [last])) := by
    rw [he] at h2
    intro hc; rw [contains_iff.mpr hc] at h2; cases h2
  refine ⟨name.length - (lstrip '.' name).length, pre, last, ⟨by rw [← he]; exact e, ?_, ?_, ?_⟩⟩
  · intro c hm
    refine ⟨hc c (by simp [hm]), ?_⟩
    rintro rfl
    obtain ⟨l1, l2, rfl⟩ := List.append_of_mem hm
    cases l1 with
    | nil =>
      rw [he] at hh
      apply hh
      cases l2 <;> simp [dotted]
    | cons a l1 =>
      apply h2'
      have : a :: l1 ++ [] :: l2 ++ [last] = (a :: l1) ++ ([] :: (l2 ++ [last])) := by simp
      rw [this, dotted_append (by simp) (by simp)]
      have : ∃ t, dotted ([] :: (l2 ++ [last])) = '.' :: t := by
        cases l2 with
        | nil => exact ⟨dotted [last], by simp [dotted]⟩
        | cons x y => exact ⟨dotted (x :: (y ++ [last])), by simp [dotted]⟩
      obtain ⟨t, ht⟩ := this
      rw [ht]
      exact ⟨dotted (a :: l1), t, by simp⟩
  · exact hc last (by simp)
  · rintro rfl
    rintro rfl
    apply h
    rw [he]; rfl

theorem splitPackage_error_iff {name : Str} :
    splitPackage name = .error (.valueError false) ↔ ¬ ∃ d pre last, IsSplit name d pre last := by
  constructor
  · rintro h ⟨d, pre, last, hs⟩
    rw [splitPackage_of_isSplit hs] at h; cases h
  · intro h
    by_cases h1 : lstrip '.' name = []
    · simp [splitPackage, h1]
    · cases h2 : contains c!".." (lstrip '.' name) with
      | true => simp [splitPackage, h2]
      | false => exact absurd (exists_isSplit h1 h2) h

theorem packageOf_of_split {x p b : Str} (h : splitPackage x = .ok (some p, b)) : PackageOf x p := by
  have hs : ∃ d pre last, IsSplit x d pre last := by
    refine Classical.byContradiction fun hn => ?_
    rw [splitPackage_error_iff.mpr hn] at h; cases h
  obtain ⟨d, pre, last', hs⟩ := hs
  rw [splitPackage_of_isSplit hs] at h
  simp only [Except.ok.injEq, Prod.mk.injEq] at h
  obtain ⟨h, rfl⟩ := h
  split at h
  · cases h
  · rename_i hd
    exact ⟨d, pre, _, hs, by by_cases hp : pre = []; exact .inl (by simp [hp] at hd; omega); exact .inr hp, (Option.some.inj h).symm⟩

theorem split_of_packageOf {x p : Str} (h : PackageOf x p) : ∃ b, splitPackage x = .ok (some p, b) := by
  obtain ⟨d, pre, last, hs, hd, rfl⟩ := h
  refine ⟨last, ?_⟩
  rw [splitPackage_of_isSplit hs, if_neg]
  rintro ⟨rfl, rfl⟩
  simp at hd

end Verif
