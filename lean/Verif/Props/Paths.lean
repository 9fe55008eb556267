import Verif.Spec.PathSpec
import Verif.Props.DataFiles
import Verif.Props.Record
import Verif.Props.Distributions
/-!
# C76: the paths of recorded files
-/
namespace Verif.Props
open Verif Spec Spec.Path

theorem slashed_joinWith (l : List Str) : slashed l = joinWith '/' l := by
  induction l with
  | nil => rfl
  | cons a l ih =>
    cases l with
    | nil => rfl
    | cons b l => simp only [slashed, joinWith, ih]

/-- The components of a path are determined. -/
theorem leads_iff {p q : Place} {rel : Str} : Leads p rel q ↔ Walk p (splitAll '/' rel) q := by
  constructor
  · rintro ⟨cs, h1, h2, rfl, h3⟩
    rw [slashed_joinWith, splitAll_joinWith h1 h2]
    exact h3
  · intro h
    exact ⟨_, (splitAll_clean '/' rel).1, (splitAll_clean '/' rel).2, by rw [slashed_joinWith, joinWith_splitAll], h⟩

/-- The place after a component. -/
def stepTo (p : Place) (c : Str) : Place :=
  if c = [] ∨ c = c!"." then p
  else if c ≠ c!".." then { p with names := p.names ++ [c] }
  else if p.names ≠ [] then { p with names := p.names.dropLast }
  else if p.root ≠ [] then p
  else { p with ups := p.ups + 1 }

theorem step_iff {p q : Place} {c : Str} : Step p c q ↔ q = stepTo p c := by
  constructor
  · intro h
    cases h with
    | stay h => simp [stepTo, h]
    | down h1 h2 h3 => simp [stepTo, h1, h2, h3]
    | up => simp [stepTo]
    | top h => simp [stepTo, h]
    | above => simp [stepTo]
  · rintro rfl
    unfold stepTo
    split
    · exact .stay ‹_›
    · rename_i h1
      split
      · rename_i h2
        exact .down (fun e => h1 (.inl e)) (fun e => h1 (.inr e)) h2
      · rename_i h2
        have h2 : c = c!".." := Classical.byContradiction fun h => h2 h
        subst h2
        obtain ⟨root, ups, names⟩ := p
        split
        · rename_i h3
          have h3 : names ≠ [] := h3
          have := List.dropLast_concat_getLast h3
          rw [← this]
          simp only [List.dropLast_concat]
          exact .up
        · rename_i h3
          have h3 : names = [] := Classical.byContradiction fun h => h3 h
          subst h3
          split
          · rename_i h4
            exact .top h4
          · rename_i h4
            have h4 : root = [] := Classical.byContradiction fun h => h4 h
            subst h4
            exact .above

theorem walk_iff {p q : Place} {l : List Str} : Walk p l q ↔ q = l.foldl stepTo p := by
  induction l generalizing p with
  | nil =>
    constructor
    · intro h; cases h; rfl
    · rintro rfl; exact .nil
  | cons c l ih =>
    constructor
    · intro h
      cases h with
      | cons h1 h2 =>
        rw [step_iff] at h1
        subst h1
        exact ih.mp h2
    · rintro rfl
      exact .cons (step_iff.mpr rfl) (ih.mpr rfl)

/-- Places that paths lead to. -/
structure PlaceOk (p : Place) : Prop where
  root : p.root = [] ∨ p.root = ['/'] ∨ p.root = ['/', '/']
  ups : p.root ≠ [] → p.ups = 0
  names : ∀ c ∈ p.names, c ≠ [] ∧ c ≠ c!"." ∧ c ≠ c!".." ∧ '/' ∉ c

theorem placeOk_step {p : Place} (h : PlaceOk p) {c : Str} (hc : '/' ∉ c) : PlaceOk (stepTo p c) := by
  unfold stepTo
  split
  · exact h
  · rename_i h1
    split
    · rename_i h2
      refine ⟨h.root, h.ups, ?_⟩
      intro x hx
      simp only [List.mem_append, List.mem_singleton] at hx
      rcases hx with hx | rfl
      · exact h.names x hx
      · exact ⟨fun e => h1 (.inl e), fun e => h1 (.inr e), h2, hc⟩
    · split
      · exact ⟨h.root, h.ups, fun x hx => h.names x (List.dropLast_subset _ hx)⟩
      · split
        · exact h
        · rename_i h4
          exact ⟨h.root, fun h5 => absurd h5 h4, h.names⟩

theorem placeOk_walk {p : Place} (h : PlaceOk p) {l : List Str} (hl : ∀ c ∈ l, '/' ∉ c) : PlaceOk (l.foldl stepTo p) := by
  induction l generalizing p with
  | nil => exact h
  | cons c l ih => exact ih (placeOk_step h (hl c (by simp))) fun x hx => hl x (by simp [hx])

/-- The components of the shortest path. -/
def shown (p : Place) : List Str := List.replicate p.ups c!".." ++ p.names

theorem normComps_eq {p : Place} (h : PlaceOk p) (l : List Str) (hl : ∀ c ∈ l, '/' ∉ c) :
    normComps p.root (shown p) l = shown (l.foldl stepTo p) := by
  induction l generalizing p with
  | nil => rfl
  | cons c l ih =>
    have hok := placeOk_step h (hl c (by simp))
    have ih := ih hok fun x hx => hl x (by simp [hx])
    have hr : (stepTo p c).root = p.root := by unfold stepTo; repeat' split
                                               all_goals rfl
    rw [hr] at ih
    rw [List.foldl_cons, ← ih, normComps]
    by_cases h1 : c = [] ∨ c = c!"."
    · simp [stepTo, h1]
    · rw [if_neg h1]
      by_cases h2 : c = c!".."
      · subst h2
        by_cases h3 : p.names = []
        · by_cases h4 : p.root = []
          · have e : stepTo p c!".." = { p with ups := p.ups + 1 } := by simp [stepTo, h3, h4]
            have hs : shown p = List.replicate p.ups c!".." := by simp [shown, h3]
            rw [e, if_pos]
            · congr 1
              simp only [shown, h3, List.append_nil]
              rw [List.replicate_succ']
            · cases hu : p.ups with
              | zero => exact .inr (.inl ⟨h4, by rw [hs, hu]; rfl⟩)
              | succ n =>
                refine .inr (.inr ?_)
                rw [hs, hu, List.replicate_succ', List.getLast?_concat]
          · have e : stepTo p c!".." = p := by simp [stepTo, h3, h4]
            have hs : shown p = [] := by simp [shown, h3, h.ups h4]
            rw [e, hs]
            simp [h4]
        · have e : stepTo p c!".." = { p with names := p.names.dropLast } := by simp [stepTo, h3]
          have hl := List.dropLast_concat_getLast h3
          have hne : shown p ≠ [] := by simp [shown, h3]
          have hg : (shown p).getLast? = some (p.names.getLast h3) := by
            unfold shown
            rw [List.getLast?_append, List.getLast?_eq_some_getLast h3]
            rfl
          rw [e, if_neg, if_pos hne]
          · congr 1
            unfold shown
            rw [List.dropLast_append_of_ne_nil h3]
          · simp only [ne_eq, not_true_eq_false, false_or, hg, Option.some.injEq, not_or]
            exact ⟨fun hh => hne hh.2, (h.names _ (List.getLast_mem h3)).2.2.1⟩
      · have e : stepTo p c = { p with names := p.names ++ [c] } := by
          unfold stepTo
          rw [if_neg h1, if_pos h2]
        rw [e, if_pos (.inl h2)]
        congr 1
        simp [shown]

theorem shown_ok {p : Place} (h : PlaceOk p) : ∀ c ∈ shown p, c ≠ [] ∧ c ≠ c!"." ∧ '/' ∉ c := by
  intro c hc
  unfold shown at hc
  rcases List.mem_append.mp hc with hc | hc
  · rw [(List.mem_replicate.mp hc).2]
    decide
  · have := h.names c hc
    exact ⟨this.1, this.2.1, this.2.2.2⟩

theorem joinWith_nil {l : List Str} (h : ∀ c ∈ l, c ≠ []) (hj : joinWith '/' l = []) : l = [] := by
  cases l with
  | nil => rfl
  | cons a l =>
    have ha := h a (by simp)
    cases l with
    | nil => exact absurd hj ha
    | cons b l => simp [joinWith] at hj

theorem text_eq {p : Place} (h : PlaceOk p) : p.text = if p.root ++ joinWith '/' (shown p) = [] then c!"."
    else p.root ++ joinWith '/' (shown p) := by
  obtain ⟨root, ups, names⟩ := p
  unfold Place.text
  have hs : List.replicate ups c!".." ++ names = shown ⟨root, ups, names⟩ := rfl
  simp only
  rw [hs]
  cases root with
  | cons c r => simp [slashed_joinWith]
  | nil =>
    cases hh : shown ⟨[], ups, names⟩ with
    | nil => rfl
    | cons c l =>
      rw [if_neg]
      · show [] ++ slashed (c :: l) = _
        rw [slashed_joinWith]
      · intro hj
        rw [List.nil_append, ← hh] at hj
        have := joinWith_nil (fun c hc => (shown_ok h c hc).1) hj
        rw [hh] at this
        cases this

theorem placeOk_root {root : Str} (h : root = [] ∨ root = ['/'] ∨ root = ['/', '/']) : PlaceOk ⟨root, 0, []⟩ :=
  ⟨h, fun _ => rfl, fun _ h => by cases h⟩

theorem splitRoot_twice {s : Str} (h : ¬ ['/'] <+: s) : splitRoot ('/' :: '/' :: s) = (['/', '/'], s) := by
  cases s with
  | nil => rfl
  | cons c s =>
    have hc : c ≠ '/' := fun e => h ⟨s, by rw [e]; rfl⟩
    unfold splitRoot
    split
    · rename_i r hr
      simp at hr
      exact absurd hr.1 hc
    · rename_i r _ hr
      simp at hr
      rw [hr]
    · rename_i r h3 hr
      simp at hr
      exact absurd hr.symm (h3 _)
    · rename_i h3 _
      exact absurd rfl (h3 _)

/-- What a path means, by the root that it has. -/
theorem means_iff {s : Str} {q : Place} : Means s q ↔
    q = (splitAll '/' (splitRoot s).2).foldl stepTo ⟨(splitRoot s).1, 0, []⟩ := by
  have key : ∀ {root rest : Str}, Leads ⟨root, 0, []⟩ rest q ↔ q = (splitAll '/' rest).foldl stepTo ⟨root, 0, []⟩ := by
    intro root rest
    rw [leads_iff, walk_iff]
  constructor
  · intro h
    cases h with
    | relative h1 h2 =>
      have : splitRoot s = ([], s) := by
        unfold splitRoot
        split <;> first | rfl | exact absurd ⟨_, rfl⟩ h1
      rw [this]
      exact key.mp h2
    | @absolute s _ h1 h2 =>
      have : splitRoot ('/' :: s) = (['/'], s) := by
        rcases h1 with h1 | ⟨r, rfl⟩
        · unfold splitRoot
          split
          · rename_i r hr
            exact absurd ⟨'/' :: r, (List.cons.inj hr).2.symm⟩ h1
          · rename_i r _ hr
            exact absurd ⟨r, (List.cons.inj hr).2.symm⟩ h1
          · rename_i r _ _ hr
            rw [(List.cons.inj hr).2]
          · rename_i h3
            exact absurd rfl (h3 _)
        · rfl
      rw [this]
      exact key.mp h2
    | @twice s _ h1 h2 =>
      have := splitRoot_twice h1
      rw [this]
      exact key.mp h2
  · intro h
    have hp : ∀ {r : Str}, ['/'] <+: r → ∃ r', r = '/' :: r' := fun ⟨t, ht⟩ => ⟨t, ht.symm⟩
    by_cases h1 : ['/'] <+: s
    · obtain ⟨s1, rfl⟩ := hp h1
      by_cases h2 : ['/'] <+: s1
      · obtain ⟨s2, rfl⟩ := hp h2
        by_cases h3 : ['/'] <+: s2
        · obtain ⟨s3, rfl⟩ := hp h3
          exact .absolute (.inr ⟨s3, rfl⟩) (key.mpr h)
        · refine .twice h3 (key.mpr ?_)
          have := splitRoot_twice h3
          rw [this] at h
          exact h
      · refine .absolute (.inl h2) (key.mpr ?_)
        have : splitRoot ('/' :: s1) = (['/'], s1) := by
          unfold splitRoot
          split
          · rename_i r hr
            exact absurd ⟨'/' :: r, (List.cons.inj hr).2.symm⟩ h2
          · rename_i r _ hr
            exact absurd ⟨r, (List.cons.inj hr).2.symm⟩ h2
          · rename_i r _ _ hr
            rw [(List.cons.inj hr).2]
          · rename_i h3
            exact absurd rfl (h3 _)
        rw [this] at h
        exact h
    · refine .relative h1 (key.mpr ?_)
      have : splitRoot s = ([], s) := by
        unfold splitRoot
        split <;> first | rfl | exact absurd ⟨_, rfl⟩ h1
      rw [this] at h
      exact h

theorem splitRoot_root (s : Str) : (splitRoot s).1 = [] ∨ (splitRoot s).1 = ['/'] ∨ (splitRoot s).1 = ['/', '/'] := by
  unfold splitRoot
  split <;> simp

theorem means_ok {s : Str} {q : Place} (h : Means s q) : PlaceOk q := by
  rw [means_iff.mp h]
  exact placeOk_walk (placeOk_root (splitRoot_root s)) (splitAll_clean '/' _).2

/-- C76: a path means exactly one place. -/
theorem C76_means (s : Str) : ∃ q, Means s q ∧ ∀ q', Means s q' → q' = q :=
  ⟨_, means_iff.mpr rfl, fun _ h => means_iff.mp h⟩

theorem foldl_root (l : List Str) (p : Place) : (l.foldl stepTo p).root = p.root := by
  induction l generalizing p with
  | nil => rfl
  | cons c l ih =>
    rw [List.foldl_cons, ih]
    unfold stepTo
    repeat' split
    all_goals rfl

/-- C76: `os.path.normpath` gives the shortest path to the place. -/
theorem C76_normpath {s : Str} {q : Place} (h : Means s q) : normpath s = q.text := by
  have hok := means_ok h
  rw [text_eq hok]
  rw [means_iff] at h
  by_cases hs : s = []
  · subst hs
    subst h
    decide
  · have hr : q.root = (splitRoot s).1 := by rw [h, foldl_root]
    have := normComps_eq (placeOk_root (splitRoot_root s)) (splitAll '/' (splitRoot s).2) (splitAll_clean '/' _).2
    rw [← h] at this
    unfold normpath
    rw [if_neg hs]
    simp only
    rw [show normComps (splitRoot s).1 [] (splitAll '/' (splitRoot s).2) = shown q from this, hr]

theorem foldl_down {p : Place} {l : List Str} (h : ∀ c ∈ l, c ≠ [] ∧ c ≠ c!"." ∧ c ≠ c!"..") :
    l.foldl stepTo p = { p with names := p.names ++ l } := by
  induction l generalizing p with
  | nil => simp
  | cons c l ih =>
    have hc := h c (by simp)
    rw [List.foldl_cons, ih fun x hx => h x (by simp [hx])]
    simp [stepTo, hc]

theorem foldl_up (n k : Nat) : (List.replicate n c!"..").foldl stepTo ⟨[], k, []⟩ = ⟨[], k + n, []⟩ := by
  induction n generalizing k with
  | zero => rfl
  | succ n ih =>
    rw [List.replicate_succ, List.foldl_cons, show stepTo ⟨[], k, []⟩ c!".." = ⟨[], k + 1, []⟩ from rfl, ih]
    congr 1
    omega

theorem foldl_shown {q : Place} (h : PlaceOk q) : (shown q).foldl stepTo ⟨q.root, 0, []⟩ = q := by
  unfold shown
  rw [List.foldl_append]
  have hn : ∀ c ∈ q.names, c ≠ [] ∧ c ≠ c!"." ∧ c ≠ c!".." := fun c hc => by
    have := h.names c hc
    exact ⟨this.1, this.2.1, this.2.2.1⟩
  by_cases hr : q.root = []
  · rw [hr, foldl_up, foldl_down hn]
    simp [← hr]
  · rw [h.ups hr]
    simp only [List.replicate_zero, List.foldl_nil]
    rw [foldl_down hn]
    simp [← h.ups hr]

theorem means_of_ok {q : Place} (hok : PlaceOk q) : Means q.text q := by
  have hsh := shown_ok hok
  have hlead : ∀ {r}, r = q.root → Leads ⟨r, 0, []⟩ (joinWith '/' (shown q)) q := by
    rintro r rfl
    rw [leads_iff, walk_iff]
    cases hh : shown q with
    | nil =>
      have := foldl_shown hok
      rw [hh] at this
      simpa [joinWith, splitAll, stepTo] using this.symm
    | cons c l =>
      rw [splitAll_joinWith (by simp) (fun x hx => (hsh x (hh ▸ hx)).2.2), ← hh, foldl_shown hok]
  have hstart : ¬ ['/'] <+: joinWith '/' (shown q) := by
    rintro ⟨t, ht⟩
    cases hh : shown q with
    | nil => rw [hh] at ht; cases ht
    | cons c l =>
      rw [hh] at ht
      have h1 := hsh c (by rw [hh]; simp)
      obtain ⟨d, c', rfl⟩ : ∃ d c', c = d :: c' := by
        cases c with
        | nil => exact absurd rfl h1.1
        | cons d c' => exact ⟨d, c', rfl⟩
      have : d = '/' := by
        cases l with
        | nil => simp [joinWith] at ht; exact ht.1.symm
        | cons b l => simp [joinWith] at ht; exact ht.1.symm
      exact h1.2.2 (by simp [this])
  rw [text_eq hok]
  rcases hok.root with hr | hr | hr
  · rw [hr]
    split
    · rename_i he
      have := joinWith_nil (fun c hc => (hsh c hc).1) he
      rw [means_iff, show splitRoot ['.'] = ([], ['.']) from rfl, show splitAll '/' ['.'] = [['.']] from rfl]
      show q = ⟨[], 0, []⟩
      have h2 := foldl_shown hok
      rw [this, hr] at h2
      exact h2.symm
    · exact .relative hstart (hlead hr.symm)
  · rw [hr, if_neg (by simp)]
    exact .absolute (.inl hstart) (hlead hr.symm)
  · rw [hr, if_neg (by simp)]
    exact .twice hstart (hlead hr.symm)

/-- C76: the shortest path means the place. -/
theorem C76_text {s : Str} {q : Place} (h : Means s q) : Means q.text q := means_of_ok (means_ok h)

/-- C76: two paths have the same normal form just when they mean the same place. -/
theorem C76_same {s t : Str} {p q : Place} (hp : Means s p) (hq : Means t q) : normpath s = normpath t ↔ p = q := by
  rw [C76_normpath hp, C76_normpath hq]
  constructor
  · intro h
    have h1 := C76_text hp
    have h2 := C76_text hq
    rw [h] at h1
    rw [means_iff] at h1 h2
    exact h1.trans h2.symm
  · rintro rfl; rfl

/-! ## The files of a distribution -/

theorem splitRoot_rel {s : Str} (h : ¬ ['/'] <+: s) : splitRoot s = ([], s) := by
  unfold splitRoot
  split <;> first | rfl | exact absurd ⟨_, rfl⟩ h

theorem splitRoot_one {s : Str} (h : ¬ ['/'] <+: s) : splitRoot ('/' :: s) = (['/'], s) := by
  unfold splitRoot
  split
  · rename_i r hr
    exact absurd ⟨'/' :: r, (List.cons.inj hr).2.symm⟩ h
  · rename_i r _ hr
    exact absurd ⟨r, (List.cons.inj hr).2.symm⟩ h
  · rename_i r _ _ hr
    rw [(List.cons.inj hr).2]
  · rename_i h3
    exact absurd rfl (h3 _)

/-- Not only slashes. -/
def HasName (s : Str) : Prop := ∃ c ∈ s, c ≠ '/'

theorem prefix_append {s : Str} (hs : s ≠ []) (h : ¬ ['/'] <+: s) (t : Str) : ¬ ['/'] <+: s ++ t := by
  rintro ⟨r, hr⟩
  cases s with
  | nil => exact hs rfl
  | cons c s =>
    simp at hr
    exact h ⟨s, by rw [hr.1]; rfl⟩

theorem hasName_ne {s : Str} (h : HasName s) : s ≠ [] := by
  rintro rfl
  obtain ⟨c, h, -⟩ := h
  cases h

theorem hasName_tail {s : Str} (h : HasName ('/' :: s)) : HasName s := by
  obtain ⟨c, h1, h2⟩ := h
  rcases List.mem_cons.mp h1 with rfl | h1
  · exact absurd rfl h2
  · exact ⟨c, h1, h2⟩

theorem splitRoot_append {s : Str} (h : HasName s) (t : Str) :
    splitRoot (s ++ t) = ((splitRoot s).1, (splitRoot s).2 ++ t) := by
  have hp : ∀ {r : Str}, ['/'] <+: r → ∃ r', r = '/' :: r' := fun ⟨t, ht⟩ => ⟨t, ht.symm⟩
  by_cases h1 : ['/'] <+: s
  · obtain ⟨s1, rfl⟩ := hp h1
    have n1 := hasName_tail h
    by_cases h2 : ['/'] <+: s1
    · obtain ⟨s2, rfl⟩ := hp h2
      have n2 := hasName_tail n1
      by_cases h3 : ['/'] <+: s2
      · obtain ⟨s3, rfl⟩ := hp h3
        rfl
      · rw [splitRoot_twice h3, List.cons_append, List.cons_append,
          splitRoot_twice (prefix_append (hasName_ne n2) h3 t)]
    · rw [splitRoot_one h2, List.cons_append, splitRoot_one (prefix_append (hasName_ne n1) h2 t)]
  · rw [splitRoot_rel h1, splitRoot_rel (prefix_append (hasName_ne h) h1 t)]

theorem splitAll_slash (a b : Str) : splitAll '/' (a ++ '/' :: b) = splitAll '/' a ++ splitAll '/' b := by
  induction a with
  | nil => simp [splitAll]
  | cons c a ih =>
    rw [List.cons_append, splitAll, splitAll, ih]
    split
    · rfl
    · cases h : splitAll '/' a with
      | nil => exact absurd h (splitAll_clean '/' a).1
      | cons x l => rfl

theorem foldl_slashes (p : Place) (a : Str) (k : Nat) :
    (splitAll '/' (a ++ List.replicate k '/')).foldl stepTo p = (splitAll '/' a).foldl stepTo p := by
  induction k generalizing a with
  | zero => simp
  | succ k ih =>
    rw [List.replicate_succ, show a ++ '/' :: List.replicate k '/' = (a ++ ['/']) ++ List.replicate k '/' by simp, ih,
      show a ++ ['/'] = a ++ '/' :: [] from rfl, splitAll_slash, List.foldl_append]
    rfl

/-- A path in a directory. -/
theorem means_below {s rel : Str} {p q : Place} (hn : HasName s) (h : Means s p) (hr : Leads p rel q) :
    Means (s ++ '/' :: rel) q := by
  rw [means_iff] at h ⊢
  rw [leads_iff, walk_iff] at hr
  rw [splitRoot_append hn]
  simp only
  rw [splitAll_slash, List.foldl_append, ← h]
  exact hr

theorem means_slashes {s : Str} (hn : HasName s) {k : Nat} {p : Place} (h : Means (s ++ List.replicate k '/') p) :
    Means s p := by
  rw [means_iff] at h ⊢
  rw [splitRoot_append hn] at h
  simp only at h
  rw [foldl_slashes] at h
  exact h

/-- A path in a root directory. -/
theorem means_root {n : Nat} {rel : Str} {p q : Place} (h : Means (List.replicate (n + 1) '/') p)
    (h0 : ¬ ['/'] <+: rel) (hr : Leads p rel q) : Means (List.replicate (n + 1) '/' ++ rel) q := by
  rw [means_iff] at h ⊢
  rw [leads_iff, walk_iff] at hr
  match n with
  | 0 =>
    subst h
    rw [show List.replicate (0 + 1) '/' ++ rel = '/' :: rel from rfl, splitRoot_one h0]
    exact hr
  | 1 =>
    subst h
    rw [show List.replicate (1 + 1) '/' ++ rel = '/' :: '/' :: rel from rfl, splitRoot_twice h0]
    exact hr
  | n + 2 =>
    have e : splitRoot (List.replicate (n + 2 + 1) '/') = (['/'], [] ++ List.replicate (n + 2) '/') := rfl
    rw [e] at h
    simp only at h
    rw [foldl_slashes] at h
    have e2 : splitRoot (List.replicate (n + 2 + 1) '/' ++ rel) = (['/'], List.replicate (n + 2) '/' ++ rel) := rfl
    rw [e2, show List.replicate (n + 2) '/' ++ rel = List.replicate (n + 1) '/' ++ '/' :: rel by
      rw [show n + 2 = (n + 1) + 1 from rfl, List.replicate_succ', List.append_assoc]; rfl]
    simp only
    rw [splitAll_slash, List.foldl_append, show List.replicate (n + 1) '/' = [] ++ List.replicate (n + 1) '/' from rfl,
      foldl_slashes, ← h]
    exact hr

theorem rstrip_spec (s : Str) : ∃ k, s = rstrip '/' s ++ List.replicate k '/' ∧ (rstrip '/' s).getLast? ≠ some '/' := by
  have : ∀ l : Str, ∃ k, l = List.replicate k '/' ++ lstrip '/' l ∧ (lstrip '/' l).head? ≠ some '/' := by
    intro l
    induction l with
    | nil => exact ⟨0, rfl, by simp [lstrip]⟩
    | cons c l ih =>
      by_cases hc : c = '/'
      · subst hc
        obtain ⟨k, h1, h2⟩ := ih
        refine ⟨k + 1, ?_, ?_⟩
        · rw [show lstrip '/' ('/' :: l) = lstrip '/' l by simp [lstrip], List.replicate_succ, List.cons_append, ← h1]
        · rw [show lstrip '/' ('/' :: l) = lstrip '/' l by simp [lstrip]]
          exact h2
      · refine ⟨0, ?_, ?_⟩
        · simp [lstrip, hc]
        · simp [lstrip, hc]
  obtain ⟨k, h1, h2⟩ := this s.reverse
  refine ⟨k, ?_, ?_⟩
  · have := congrArg List.reverse h1
    rw [List.reverse_reverse, List.reverse_append, List.reverse_replicate] at this
    exact this
  · unfold rstrip
    rw [List.getLast?_reverse]
    exact h2

theorem rfind_none {c : Char} {s : Str} (h : c ∉ s) : rfindSplit c s = none := by
  cases hh : rfindSplit c s with
  | none => rfl
  | some ab =>
    have := (rfindSplit_some.mp (show rfindSplit c s = some (ab.1, ab.2) from hh)).1
    exact absurd (by rw [this]; simp) h

/-- The directory of a file in a directory. -/
theorem dirname_inDir {entry name : Str} (hn : '/' ∉ name) :
    (entry = [] ∧ dirname (inDir entry name) = []) ∨
    (∃ n, entry = List.replicate (n + 1) '/' ∧ dirname (inDir entry name) = entry) ∨
    ∃ s k, entry = s ++ List.replicate k '/' ∧ dirname (inDir entry name) = s ∧ HasName s ∧ s.getLast? ≠ some '/' := by
  have key : ∀ {e : Str}, HasName e → HasName (rstrip '/' (e ++ ['/'])) ∧
      ∃ k, e = rstrip '/' (e ++ ['/']) ++ List.replicate k '/' ∧ (rstrip '/' (e ++ ['/'])).getLast? ≠ some '/' := by
    intro e ⟨c, h1, h2⟩
    obtain ⟨k, h3, h4⟩ := rstrip_spec (e ++ ['/'])
    have hmem : c ∈ rstrip '/' (e ++ ['/']) := by
      have : c ∈ e ++ ['/'] := by simp [h1]
      rw [h3] at this
      rcases List.mem_append.mp this with h | h
      · exact h
      · exact absurd (List.mem_replicate.mp h).2 h2
    refine ⟨⟨c, hmem, h2⟩, ?_⟩
    cases k with
    | zero =>
      simp only [List.replicate_zero, List.append_nil] at h3
      rw [← h3] at h4
      simp at h4
    | succ k =>
      rw [List.replicate_succ', ← List.append_assoc] at h3
      exact ⟨k, (List.append_cancel_right h3), h4⟩
  cases hg : entry.getLast? with
  | none =>
    have : entry = [] := List.getLast?_eq_none_iff.mp hg
    subst this
    refine .inl ⟨rfl, ?_⟩
    rw [show inDir [] name = name from rfl]
    unfold dirname
    rw [rfind_none hn]
  | some c =>
    have hne : entry ≠ [] := by rintro rfl; cases hg
    by_cases hc : c = '/'
    · subst hc
      obtain ⟨a, rfl⟩ : ∃ a, entry = a ++ ['/'] := by
        refine ⟨entry.dropLast, ?_⟩
        have := List.dropLast_concat_getLast hne
        rw [List.getLast?_eq_some_getLast hne] at hg
        rw [Option.some.inj hg] at this
        exact this.symm
      have e : rfindSplit '/' (a ++ ['/'] ++ name) = some (a, name) :=
        rfindSplit_some.mpr ⟨by simp, hn⟩
      have hm : inDir (a ++ ['/']) name = a ++ ['/'] ++ name := by
        unfold inDir
        rw [hg]
        rfl
      rw [hm]
      unfold dirname
      rw [e]
      simp only
      by_cases hall : (a ++ ['/']).all (· == '/') = true
      · rw [if_pos hall]
        refine .inr (.inl ⟨a.length, ?_, rfl⟩)
        have := List.eq_replicate_iff.mpr (⟨rfl, fun b hb => by
          have := List.all_eq_true.mp hall b hb
          simpa using this⟩ : (a ++ ['/']).length = (a ++ ['/']).length ∧ ∀ b ∈ a ++ ['/'], b = '/')
        simpa using this
      · rw [if_neg hall]
        have hnm : HasName a := by
          apply Classical.byContradiction
          intro hno
          apply hall
          rw [List.all_eq_true]
          intro x hx
          rcases List.mem_append.mp hx with hx | hx
          · have : x = '/' := Classical.byContradiction fun h => hno ⟨x, hx, h⟩
            simp [this]
          · simpa using hx
        obtain ⟨h1, k, h2, h3⟩ := key hnm
        refine .inr (.inr ⟨_, k + 1, ?_, rfl, h1, h3⟩)
        rw [List.replicate_succ', ← List.append_assoc, ← h2]
    · have e : rfindSplit '/' (entry ++ '/' :: name) = some (entry, name) :=
        rfindSplit_some.mpr ⟨rfl, hn⟩
      have hnm : HasName entry := by
        rw [List.getLast?_eq_some_getLast hne] at hg
        exact ⟨c, Option.some.inj hg ▸ List.getLast_mem hne, hc⟩
      have hm : inDir entry name = entry ++ '/' :: name := by
        unfold inDir
        rw [hg]
        split
        · rename_i h; cases h
        · rename_i h; exact absurd (Option.some.inj h) hc
        · rfl
      rw [hm]
      unfold dirname
      rw [e]
      simp only
      have hall : ¬ (entry ++ ['/']).all (· == '/') = true := by
        intro hall
        obtain ⟨x, hx, hx2⟩ := hnm
        have := List.all_eq_true.mp hall x (by simp [hx])
        exact hx2 (by simpa using this)
      rw [if_neg hall]
      obtain ⟨h1, k, h2, h3⟩ := key hnm
      exact .inr (.inr ⟨_, k, h2, rfl, h1, h3⟩)

/-- C76: a path in the RECORD of a dist-info directory in `entry` is taken as seen from `entry`. -/
theorem C76_file {entry name rel file : Str} (hn : '/' ∉ name) (h : Path.From entry rel file) :
    absPath (inDir entry name) rel = file := by
  obtain ⟨q, rfl, h⟩ := h
  unfold absPath
  by_cases hr : ['/'] <+: rel
  · rw [if_pos hr] at h
    have : pathJoin (dirname (inDir entry name)) rel = rel := by
      unfold pathJoin startsWith
      rw [if_pos (List.isPrefixOf_iff_prefix.mpr hr)]
    rw [this]
    exact C76_normpath h
  · rw [if_neg hr] at h
    obtain ⟨p, h1, h2⟩ := h
    have hs : startsWith ['/'] rel = false := by
      unfold startsWith
      rw [Bool.eq_false_iff]
      exact fun h => hr (List.isPrefixOf_iff_prefix.mp h)
    have hj : ∀ d, pathJoin d rel = if d = [] || endsWith ['/'] d then d ++ rel else d ++ '/' :: rel := by
      intro d
      unfold pathJoin
      rw [hs]
      rfl
    apply C76_normpath
    rw [hj]
    rcases dirname_inDir (entry := entry) hn with ⟨rfl, e⟩ | ⟨n, rfl, e⟩ | ⟨s, k, rfl, e, h3, h4⟩
    · rw [e]
      simp only [decide_true, Bool.true_or, if_true, List.nil_append]
      rw [means_iff] at h1
      subst h1
      exact .relative hr h2
    · rw [e, if_pos]
      · exact means_root h1 hr h2
      · rw [Bool.or_eq_true]
        right
        unfold endsWith
        rw [List.isSuffixOf_iff_suffix, List.replicate_succ']
        exact ⟨_, rfl⟩
    · rw [e, if_neg]
      · exact means_below h3 (means_slashes h3 h1) h2
      · rw [Bool.or_eq_true]
        rintro (h | h)
        · exact hasName_ne h3 (by simpa using h)
        · unfold endsWith at h
          rw [List.isSuffixOf_iff_suffix] at h
          obtain ⟨t, ht⟩ := h
          rw [← ht] at h4
          simp at h4

theorem from_unique {entry rel f g : Str} (h1 : Path.From entry rel f) (h2 : Path.From entry rel g) : f = g :=
  (C76_file (name := []) (by simp) h1).symm.trans (C76_file (by simp) h2)

theorem from_exists (entry rel : Str) : ∃ file, Path.From entry rel file := by
  by_cases hr : ['/'] <+: rel
  · obtain ⟨q, h, -⟩ := C76_means rel
    exact ⟨q.text, q, rfl, by rw [if_pos hr]; exact h⟩
  · obtain ⟨p, h, -⟩ := C76_means entry
    have : ∃ q, Leads p rel q := ⟨_, leads_iff.mpr (walk_iff.mpr rfl)⟩
    obtain ⟨q, hq⟩ := this
    exact ⟨q.text, q, rfl, by rw [if_neg hr]; exact ⟨p, h, hq⟩⟩

/-- C76: the files of the distribution of a dist-info directory in `entry`: the paths in RECORD as seen from `entry`,
in their shortest form. -/
theorem C76_files {W : Type} (env : DistEnv W) {entry name : Str} (hn : '/' ∉ name) {rows : List Row} {text : Str}
    (h : CsvFile rows text) (w w1 w2 : W) (info : Str) (d : Dist)
    (hm : env.metadata (inDir entry name) w = (.ok info, w1))
    (hr : env.record (inDir entry name) w1 = (.ok text, w2))
    (hd : (createDistribution env (inDir entry name) w).1 = .ok d) (f : Str) :
    f ∈ d.files ↔ ∃ row ∈ rows, Path.From entry row.path f := by
  rw [C26_files env _ h w w1 w2 info d hm hr hd]
  constructor
  · rintro ⟨row, h1, rfl⟩
    obtain ⟨g, hg⟩ := from_exists entry row.path
    exact ⟨row, h1, by rw [C76_file hn hg]; exact hg⟩
  · rintro ⟨row, h1, h2⟩
    exact ⟨row, h1, (C76_file hn h2).symm⟩

/-- C76: for a directory that is given by its shortest path, and a path without `.` and `..`, that is what finders
report: the path of the directory, a slash, and the recorded path. -/
theorem C76_plain {entry : Str} {p : Place} (hp : Means entry p) (he : entry = p.text) (hd : entry ≠ c!".")
    {cs : List Str} (hcs : cs ≠ []) (hc : ∀ c ∈ cs, '/' ∉ c ∧ c ≠ [] ∧ c ≠ c!"." ∧ c ≠ c!"..") :
    Path.From entry (slashed cs) (inDir entry (slashed cs)) := by
  have hok := means_ok hp
  have hsl : splitAll '/' (slashed cs) = cs := by
    rw [slashed_joinWith, splitAll_joinWith hcs fun c h => (hc c h).1]
  have hst : ¬ ['/'] <+: slashed cs := by
    rintro ⟨t, ht⟩
    rw [← ht] at hsl
    have : splitAll '/' (['/'] ++ t) = [] :: splitAll '/' t := by simp [splitAll]
    rw [this] at hsl
    have := hc [] (by rw [← hsl]; simp)
    exact this.2.1 rfl
  refine ⟨{ p with names := p.names ++ cs }, ?_, ?_⟩
  · have hok' : PlaceOk { p with names := p.names ++ cs } := by
      refine ⟨hok.root, hok.ups, ?_⟩
      intro c h
      rcases List.mem_append.mp h with h | h
      · exact hok.names c h
      · exact ⟨(hc c h).2.1, (hc c h).2.2.1, (hc c h).2.2.2, (hc c h).1⟩
    have hshow : shown { p with names := p.names ++ cs } = shown p ++ cs := by simp [shown]
    rw [text_eq hok', hshow]
    have hne : p.root ++ joinWith '/' (shown p ++ cs) ≠ [] := by
      intro h
      simp only [List.append_eq_nil_iff] at h
      have := joinWith_nil (l := shown p ++ cs) (fun c hm => by
        rcases List.mem_append.mp hm with hm | hm
        · exact (shown_ok hok c hm).1
        · exact (hc c hm).2.1) h.2
      simp [hcs] at this
    simp only
    rw [if_neg hne]
    rw [text_eq hok] at he
    have he' : entry = p.root ++ joinWith '/' (shown p) := by
      split at he
      · exact absurd he hd
      · exact he
    have hen : entry ≠ [] := by
      rintro rfl
      rw [← he', if_pos rfl] at he
      cases he
    by_cases hs : shown p = []
    · have e1 : entry = p.root := by rw [he', hs]; simp [joinWith]
      have hlast : entry.getLast? = some '/' := by
        rw [e1]
        rcases hok.root with h | h | h
        · exact absurd (e1.trans h) hen
        · rw [h]; rfl
        · rw [h]; rfl
      rw [hs, List.nil_append, ← slashed_joinWith, ← e1]
      unfold inDir
      rw [hlast]
      rfl
    · have hlast : ∃ c, entry.getLast? = some c ∧ c ≠ '/' := by
        have hl := List.dropLast_concat_getLast hs
        have hx := shown_ok hok _ (List.getLast_mem hs)
        have hj : ∃ t, joinWith '/' (shown p) = t ++ (shown p).getLast hs := by
          by_cases hdl : (shown p).dropLast = []
          · refine ⟨[], ?_⟩
            rw [hdl, List.nil_append] at hl
            conv => lhs; rw [← hl]
            rfl
          · refine ⟨joinWith '/' (shown p).dropLast ++ ['/'], ?_⟩
            conv => lhs; rw [← hl]
            rw [joinWith_append '/' hdl (by simp)]
            simp [joinWith]
        obtain ⟨t, ht⟩ := hj
        have h5 : ((shown p).getLast hs).getLast? = some (((shown p).getLast hs).getLast hx.1) :=
          List.getLast?_eq_some_getLast hx.1
        refine ⟨((shown p).getLast hs).getLast hx.1, ?_, ?_⟩
        · rw [he', ht, ← List.append_assoc, List.getLast?_append, h5]
          rfl
        · intro h6
          exact hx.2.2 (h6 ▸ List.getLast_mem hx.1)
      obtain ⟨c, hl1, hl2⟩ := hlast
      have hin : inDir entry (slashed cs) = entry ++ '/' :: slashed cs := by
        unfold inDir
        rw [hl1]
        split
        · rename_i h; cases h
        · rename_i h; exact absurd (Option.some.inj h) hl2
        · rfl
      rw [hin, joinWith_append '/' hs hcs, he', slashed_joinWith]
      simp
  · rw [if_neg hst]
    refine ⟨p, hp, ?_⟩
    rw [leads_iff, walk_iff, hsl, foldl_down fun c h => (hc c h).2]

/-- A file in the directory `/lib/`, one outside of it, and one with an absolute path. -/
example : Path.From c!"/usr/lib/" c!"p/m.py" c!"/usr/lib/p/m.py" ∧
    Path.From c!"/usr/lib" c!"../bin//x" c!"/usr/bin/x" ∧
    Path.From c!"lib" c!"../../x" c!"../x" ∧ Path.From c!"/lib" c!"/etc/./x" c!"/etc/x" := by
  have key : ∀ {entry rel f}, absPath (inDir entry []) rel = f → Path.From entry rel f := by
    intro entry rel f h
    obtain ⟨g, hg⟩ := from_exists entry rel
    rw [← h, C76_file (by simp) hg]
    exact hg
  exact ⟨key (by decide +kernel), key (by decide +kernel), key (by decide +kernel), key (by decide +kernel)⟩

/-- What is recorded for a distribution, `f`, is found by its normal form only: `contains_file` does not normalise. -/
theorem C76_normal_only {entry rel f : Str} (h : Path.From entry rel f) : normpath f = f := by
  obtain ⟨q, rfl, h⟩ := h
  have : ∃ s, Means s q := by
    split at h
    · exact ⟨rel, h⟩
    · rename_i hr
      obtain ⟨p, h1, h2⟩ := h
      have hokp := means_ok h1
      have hokq : PlaceOk q := by
        rw [leads_iff, walk_iff] at h2
        rw [h2]
        exact placeOk_walk hokp (splitAll_clean '/' rel).2
      exact ⟨_, means_of_ok hokq⟩
  obtain ⟨s, hs⟩ := this
  exact C76_normpath (C76_text hs)

/-- C76: in a directory that is not given by an absolute path, no file has an absolute path unless RECORD has it. -/
theorem C76_relative {entry rel f : Str} (he : ¬ ['/'] <+: entry) (hr : ¬ ['/'] <+: rel) (h : Path.From entry rel f) :
    ¬ ['/'] <+: f := by
  obtain ⟨q, rfl, h⟩ := h
  rw [if_neg hr] at h
  obtain ⟨p, h1, h2⟩ := h
  have hp : p.root = [] := by
    rw [means_iff, splitRoot_rel he] at h1
    rw [h1, foldl_root]
  have hokq : PlaceOk q := by
    rw [leads_iff, walk_iff] at h2
    rw [h2]
    exact placeOk_walk (means_ok h1) (splitAll_clean '/' rel).2
  have hq : q.root = [] := by
    rw [leads_iff, walk_iff] at h2
    rw [h2, foldl_root, hp]
  rintro ⟨t, ht⟩
  have h3 := means_of_ok hokq
  rw [← ht, means_iff] at h3
  have h4 : (splitRoot (['/'] ++ t)).1 ≠ [] := by
    show (splitRoot ('/' :: t)).1 ≠ []
    unfold splitRoot
    split
    · simp
    · simp
    · simp
    · rename_i h
      exact absurd rfl (h t)
  have h5 := congrArg Place.root h3
  rw [foldl_root, hq] at h5
  exact h4 h5.symm

/-- A directory with the distribution `x`, which has the module `m`. -/
def plainDisk : DistEnv Unit where
  sysPath _ := [c!"/opt/../lib"]
  listdir _ w := (.ok [c!"m.py", c!"x.dist-info"], w)
  metadata _ w := (.ok c!"Name: x\nVersion: 1\n", w)
  record _ w := (.ok c!"m.py,,\n", w)
  extSuffixes := []

/-- C76 is not what one expects of entries of `sys.path` that have `..` in them or are relative: finders report the
file as `/opt/../lib/m.py` or (from the current directory `/work`) as `/work/lib/m.py`, but the distribution knows it
as `/lib/m.py` or `lib/m.py`, and it is not found. -/
theorem C76_other_spelling :
    (distributionForFile plainDisk c!"/opt/../lib/m.py" (some [c!"/opt/../lib"]) { world := () }).1 = .ok none ∧
    ((distributionForFile plainDisk c!"/lib/m.py" (some [c!"/opt/../lib"]) { world := () }).1.toOption.map
      fun o => o.map fun o => o.dist.name) = some (some c!"x") ∧
    (distributionForFile plainDisk c!"/work/lib/m.py" (some [c!"lib"]) { world := () }).1 = .ok none ∧
    ((distributionForFile plainDisk c!"/lib/m.py" (some [c!"/lib"]) { world := () }).1.toOption.map
      fun o => o.map fun o => o.dist.name) = some (some c!"x") := by
  decide +kernel

end Verif.Props
