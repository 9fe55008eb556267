import Verif.Spec.DistSpec
import Verif.Model.Distributions
import Verif.Proofs.Names
/-!
# C26, C27: reading RECORD files
-/
namespace Verif.Props
open Verif Spec

/-! ## C26 -/

theorem universal_line {l : Str} (h : NoBreak l) (r : Str) : universal (l ++ r) = l ++ universal r := by
  induction l with
  | nil => rfl
  | cons c l ih =>
    have hc : c ≠ '\r' := fun e => h.2 (by simp [e])
    rw [List.cons_append, universal.eq_def]
    simp only [hc, if_false]
    rw [ih ⟨fun e => h.1 (by simp [e]), fun e => h.2 (by simp [e])⟩]
    rfl

theorem universal_eol {eol : Str} {r : Str} (h : eol = ['\n'] ∨ eol = ['\r', '\n'] ∨ eol = ['\r'])
    (hr : r.head? ≠ some '\n') : universal (eol ++ r) = '\n' :: universal r := by
  rcases h with rfl | rfl | rfl
  · rw [List.cons_append, universal.eq_def]
    simp
  · rw [List.cons_append, List.cons_append, universal.eq_def]
    simp
  · rw [List.cons_append, universal.eq_def]
    cases r with
    | nil => simp [universal]
    | cons c r =>
      have : c ≠ '\n' := fun h => hr (by rw [h]; rfl)
      simp [this]

theorem fileLines_line {l : Str} (h : '\n' ∉ l) (r : Str) :
    fileLines (l ++ '\n' :: r) = (l ++ ['\n']) :: fileLines r := by
  induction l with
  | nil => simp [fileLines]
  | cons c l ih =>
    have hc : c ≠ '\n' := fun e => h (by simp [e])
    rw [List.cons_append, fileLines, if_neg hc, ih fun e => h (by simp [e])]
    rfl

theorem undouble_doubled (p : Str) : undouble '"' (doubled p) = p := by
  induction p with
  | nil => rfl
  | cons c p ih =>
    have hd : doubled (c :: p) = (if c = '"' then ['"', '"'] else [c]) ++ doubled p := rfl
    rw [hd]
    split
    · rename_i hc
      subst hc
      show undouble '"' ('"' :: '"' :: doubled p) = _
      simp [undouble, ih]
    · rename_i hc
      cases hp : doubled p with
      | nil =>
        rw [hp] at ih
        simp [undouble] at ih ⊢
        exact ih
      | cons d r =>
        rw [hp] at ih
        show undouble '"' (c :: d :: r) = _
        simp [undouble, hc, ih]

theorem noBreak_field {p f : Str} (h : CsvField p f) (hp : NoBreak p) : NoBreak f := by
  cases h with
  | plain _ => exact hp
  | quoted =>
    have : ∀ c, c ≠ '"' → c ∉ p → c ∉ ('"' :: doubled p ++ ['"']) := by
      intro c hc hcp hm
      simp [hc, doubled] at hm
      obtain ⟨a, ha, hm⟩ := hm
      split at hm
      · simp [hc] at hm
      · simp at hm; exact hcp (hm ▸ ha)
    exact ⟨this _ (by decide) hp.1, this _ (by decide) hp.2⟩

theorem fileLines_last {l : Str} (h : '\n' ∉ l) (hl : l ≠ []) : fileLines l = [l] := by
  induction l with
  | nil => exact absurd rfl hl
  | cons c l ih =>
    have hc : c ≠ '\n' := fun e => h (by simp [e])
    rw [fileLines, if_neg hc]
    by_cases hn : l = []
    · subst hn
      rfl
    · rw [ih (fun e => h (by simp [e])) hn]

theorem recordPath_field {p f hash size eol : Str} (h : CsvField p f) (h1 : ',' ∉ hash)
    (h2 : ',' ∉ size) (he : ',' ∉ eol) : recordPath (f ++ ',' :: hash ++ ',' :: size ++ eol) = p := by
  have e1 : rfindSplit ',' (f ++ ',' :: hash ++ ',' :: size ++ eol) =
      some (f ++ ',' :: hash, size ++ eol) :=
    rfindSplit_some.mpr ⟨by simp, by simp [h2, he]⟩
  have e2 : rfindSplit ',' (f ++ ',' :: hash) = some (f, hash) := rfindSplit_some.mpr ⟨rfl, h1⟩
  unfold recordPath
  simp only [rsplit, e1, e2]
  have e3 : (([f] ++ [hash] ++ [size ++ eol]).headD [] : Str) = f := rfl
  rw [e3]
  cases h with
  | quoted =>
    rw [if_pos]
    · have : dropEnd 1 (List.drop 1 ('"' :: doubled p ++ ['"'])) = doubled p := by
        simp [dropEnd]
      rw [this, undouble_doubled]
    · rw [Bool.and_eq_true]
      refine ⟨rfl, ?_⟩
      unfold endsWith
      rw [List.isSuffixOf_iff_suffix]
      exact ⟨_, rfl⟩
  | plain hp =>
    rw [if_neg]
    intro hc
    rw [Bool.and_eq_true] at hc
    have : ['"'].isPrefixOf p = true := hc.1
    rw [List.isPrefixOf_iff_prefix] at this
    obtain ⟨t, ht⟩ := this
    exact hp (by rw [← ht]; simp)

/-- A CSV file does not begin with a line end. -/
theorem csv_head {rows : List Row} {text : Str} (h : CsvFile rows text) : text.head? ≠ some '\n' := by
  cases h with
  | nil => simp
  | @cons row rows text field eol h1 _ _ _ _ h6 =>
    have hf := (noBreak_field h6 h1).1
    cases field with
    | nil => simp
    | cons c f =>
      intro h
      simp at h
      exact hf (by simp [h])

/-- The lines of a CSV file. -/
theorem csv_paths {rows : List Row} {text : Str} (h : CsvFile rows text) :
    (fileLines (universal text)).map recordPath = rows.map Row.path := by
  induction h with
  | nil => rfl
  | @cons row rows text field eol h1 h2 h3 h4 h5 h6 h7 hrows ih =>
    have hf := noBreak_field h6 h1
    have hl : NoBreak (field ++ ',' :: row.hash ++ ',' :: row.size) := by
      unfold NoBreak at *
      simp [hf, h2, h4]
    rcases h7 with h7 | h7 | h7 | ⟨rfl, rfl⟩
    case inr.inr.inr =>
      cases hrows
      have := recordPath_field (eol := []) h6 h3 h5 (by simp)
      rw [List.append_nil] at this
      rw [List.append_nil, universal_line hl, show universal [] = [] from rfl, List.append_nil, fileLines_last hl.1 (by simp)]
      simp at this ⊢
      exact this
    all_goals
      rw [List.append_assoc _ eol, universal_line hl, universal_eol (by simp [h7]) (csv_head hrows), fileLines_line hl.1,
        List.map_cons, ih, recordPath_field h6 h3 h5 (by simp)]
      rfl

/-- C26: from a RECORD file written as CSV exactly the written file names are read back. -/
theorem C26_roundtrip (distFile : Str) {rows : List Row} {text : Str}
    (h : CsvFile rows text) :
    recordFiles distFile text = rows.map fun row => absPath distFile row.path := by
  have := csv_paths h
  unfold recordFiles
  calc _ = ((fileLines (universal text)).map recordPath).map (absPath distFile) := by
        rw [List.map_map]; rfl
    _ = _ := by rw [this, List.map_map]; rfl

/-- C26: the files of the distribution that is created are those. -/
theorem C26_files {W : Type} (env : DistEnv W) (distFile : Str) {rows : List Row} {text : Str}
    (h : CsvFile rows text) (w w1 w2 : W) (info : Str) (d : Dist)
    (hm : env.metadata distFile w = (.ok info, w1))
    (hr : env.record distFile w1 = (.ok text, w2))
    (hd : (createDistribution env distFile w).1 = .ok d) (f : Str) :
    f ∈ d.files ↔ ∃ row ∈ rows, f = absPath distFile row.path := by
  unfold createDistribution at hd
  rw [hm] at hd
  dsimp only at hd
  cases hnm : strHeader c!"Name" (headers info) with
  | none => rw [hnm] at hd; simp at hd
  | some nm =>
    cases hv : strHeader c!"Version" (headers info) with
    | none => rw [hnm, hv] at hd; simp at hd
    | some v =>
      rw [hnm, hv] at hd
      simp only [hr] at hd
      simp at hd
      subst hd
      simp only [List.mem_eraseDups, C26_roundtrip distFile h, List.mem_map]
      constructor
      · rintro ⟨r, hr, rfl⟩; exact ⟨r, hr, rfl⟩
      · rintro ⟨r, hr, rfl⟩; exact ⟨r, hr, rfl⟩

/-- A file name with quotes and commas, and one that is not quoted although it has a comma; no line end after the last line. -/
example : CsvFile [⟨c!"a\",b.py", c!"sha", c!"12"⟩, ⟨c!"x,y", [], []⟩]
    c!"\"a\"\",b.py\",sha,12\r\nx,y,," :=
  .cons (row := ⟨c!"a\",b.py", c!"sha", c!"12"⟩) (field := c!"\"a\"\",b.py\"") (eol := c!"\r\n")
    (text := c!"x,y,,") ⟨by decide, by decide⟩ ⟨by decide, by decide⟩ (by decide)
    ⟨by decide, by decide⟩ (by decide) .quoted (.inr (.inl rfl))
    (.cons (row := ⟨c!"x,y", [], []⟩) (field := c!"x,y") (eol := []) (text := [])
      ⟨by decide, by decide⟩ ⟨by decide, by decide⟩ (by decide) ⟨by decide, by decide⟩ (by decide)
      (.plain (by decide)) (.inr (.inr (.inr ⟨rfl, rfl⟩))) .nil)

/-! ## C27 -/

theorem exists_slashed (s : Str) : ∃ dirs base, s = slashed (dirs ++ [base]) ∧
    ∀ c ∈ dirs ++ [base], '/' ∉ c := by
  induction s with
  | nil => exact ⟨[], [], rfl, by simp⟩
  | cons x s ih =>
    obtain ⟨dirs, base, rfl, hc⟩ := ih
    by_cases hx : x = '/'
    · subst hx
      refine ⟨[] :: dirs, base, ?_, ?_⟩
      · cases dirs <;> rfl
      · intro c hm
        simp only [List.cons_append, List.mem_cons] at hm
        rcases hm with rfl | hm
        · simp
        · exact hc c hm
    · cases dirs with
      | nil =>
        refine ⟨[], x :: base, rfl, ?_⟩
        have := hc base (by simp)
        simp [this, Ne.symm hx]
      | cons d dirs =>
        refine ⟨(x :: d) :: dirs, base, ?_, ?_⟩
        · cases dirs <;> rfl
        · intro c hm
          simp only [List.cons_append, List.mem_cons] at hm
          rcases hm with rfl | hm
          · have := hc d (by simp)
            simp [this, Ne.symm hx]
          · exact hc c (by simp only [List.cons_append, List.mem_cons]; exact .inr hm)

theorem slashed_cons (d : Str) (dirs : List Str) (base : Str) :
    slashed (d :: dirs ++ [base]) = d ++ '/' :: slashed (dirs ++ [base]) := by
  cases dirs <;> rfl

theorem slashed_snoc (dirs : List Str) (base : Str) (h : dirs ≠ []) :
    slashed (dirs ++ [base]) = slashed dirs ++ '/' :: base := by
  induction dirs with
  | nil => exact absurd rfl h
  | cons d dirs ih =>
    cases dirs with
    | nil => rfl
    | cons e dirs =>
      rw [slashed_cons, ih (by simp)]
      show _ = (d ++ '/' :: slashed (e :: dirs)) ++ _
      simp

theorem slashed_suffix (dirs : List Str) (base suffix : Str) :
    slashed (dirs ++ [base]) ++ suffix = slashed (dirs ++ [base ++ suffix]) := by
  induction dirs with
  | nil => rfl
  | cons d dirs ih => rw [slashed_cons, slashed_cons, ← ih]; simp

theorem infix_skip {t d r : Str} (hd : '/' ∉ d) (h : '/' :: t <:+: d ++ r) : '/' :: t <:+: r := by
  induction d with
  | nil => exact h
  | cons x d ih =>
    rw [List.cons_append, List.infix_cons_iff] at h
    rcases h with h | h
    · rw [List.cons_prefix_cons] at h
      exact absurd (by rw [h.1]; simp) hd
    · exact ih (fun hm => hd (by simp [hm])) h

theorem prefix_comp {x d r : Str} (hx : '/' ∉ x) (hd : '/' ∉ d) :
    x ++ ['/'] <+: d ++ '/' :: r ↔ x = d := by
  constructor
  · intro h
    induction x generalizing d with
    | nil =>
      cases d with
      | nil => rfl
      | cons y d =>
        simp only [List.nil_append, List.cons_append, List.cons_prefix_cons] at h
        exact absurd (by rw [h.1]; simp) hd
    | cons y x ih =>
      cases d with
      | nil =>
        simp only [List.nil_append, List.cons_append, List.cons_prefix_cons] at h
        exact absurd (by rw [h.1]; simp) hx
      | cons z d =>
        simp only [List.cons_append, List.cons_prefix_cons] at h
        rw [h.1, ih (fun hm => hx (by simp [hm])) (fun hm => hd (by simp [hm])) h.2]
  · rintro rfl
    exact ⟨r, by simp⟩

/-- A directory on the path. -/
theorem in_dirs {x : Str} (hx : '/' ∉ x) (dirs : List Str) (last : Str)
    (h : ∀ c ∈ dirs ++ [last], '/' ∉ c) :
    ('/' :: x ++ ['/'] <:+: slashed (dirs ++ [last]) ∨ x ++ ['/'] <+: slashed (dirs ++ [last])) ↔
      x ∈ dirs := by
  induction dirs with
  | nil =>
    have hl : '/' ∉ last := h last (by simp)
    simp only [List.not_mem_nil, iff_false]
    rintro (hi | hi)
    · exact hl (hi.subset (by simp))
    · exact hl (hi.subset (by simp))
  | cons d dirs ih =>
    have hd : '/' ∉ d := h d (by simp)
    have ih := ih fun c hc => h c (by simp only [List.cons_append, List.mem_cons]; exact .inr hc)
    rw [slashed_cons, prefix_comp hx hd, List.mem_cons, ← ih]
    constructor
    · rintro (hi | hi)
      · have := infix_skip (t := x ++ ['/']) hd hi
        rw [List.infix_cons_iff, List.cons_prefix_cons] at this
        rcases this with this | this
        · exact .inr (.inr this.2)
        · exact .inr (.inl this)
      · exact .inl hi
    · rintro (hi | hi | hi)
      · exact .inr hi
      · exact .inl (hi.trans (List.infix_iff_prefix_suffix.mpr
          ⟨_, List.prefix_refl _, ⟨d ++ ['/'], by simp⟩⟩))
      · left
        obtain ⟨t, ht⟩ := hi
        exact ⟨d, t, by rw [← ht]; simp⟩

theorem last_comp {y : Str} (hy : '/' ∉ y) (dirs : List Str) (last : Str)
    (h : '/' ∉ last) : '/' :: y <:+ slashed (dirs ++ [last]) ↔ dirs ≠ [] ∧ last = y := by
  by_cases hd : dirs = []
  · subst hd
    simp only [ne_eq, not_true_eq_false, false_and, iff_false]
    intro hs
    exact h (hs.subset (by simp))
  · rw [slashed_snoc dirs last hd]
    constructor
    · rintro ⟨a, ha⟩
      have h1 : rfindSplit '/' (a ++ '/' :: y) = some (a, y) := rfindSplit_some.mpr ⟨rfl, hy⟩
      have h2 : rfindSplit '/' (slashed dirs ++ '/' :: last) = some (slashed dirs, last) :=
        rfindSplit_some.mpr ⟨rfl, h⟩
      rw [ha, h2] at h1
      simp at h1
      exact ⟨hd, h1.2⟩
    · rintro ⟨_, rfl⟩
      exact ⟨_, rfl⟩

theorem replaceChar_comp {c : Str} (h : '/' ∉ c) : replaceChar '/' '.' c = c := by
  unfold replaceChar
  induction c with
  | nil => rfl
  | cons x c ih =>
    have : x ≠ '/' := fun e => h (by simp [e])
    rw [List.map_cons, ih fun hm => h (by simp [hm])]
    simp [this]

theorem replaceChar_slashed (cs : List Str) (h : ∀ c ∈ cs, '/' ∉ c) :
    replaceChar '/' '.' (slashed cs) = dotted cs := by
  induction cs with
  | nil => rfl
  | cons c cs ih =>
    have h1 := replaceChar_comp (h c (by simp))
    have ih := ih fun d hd => h d (by simp [hd])
    cases cs with
    | nil => exact h1
    | cons d cs =>
      show replaceChar '/' '.' (c ++ '/' :: slashed (d :: cs)) = c ++ '.' :: dotted (d :: cs)
      rw [← ih]
      unfold replaceChar at h1 ⊢
      rw [List.map_append, h1, List.map_cons]
      simp

theorem firstSuffix_iff {suffixes : List Str} {path suffix : Str} :
    FirstSuffix suffixes path suffix ↔
      suffixes.find? (fun suffix => endsWith suffix path) = some suffix := by
  rw [List.find?_eq_some_iff_append]
  unfold FirstSuffix endsWith
  simp only [List.isSuffixOf_iff_suffix, Bool.not_eq_true', Bool.eq_false_iff, ne_eq]
  constructor
  · rintro ⟨a, b, h1, h2, h3⟩; exact ⟨h2, a, b, h1, h3⟩
  · rintro ⟨h2, a, b, h1, h3⟩; exact ⟨a, b, h1, h2, h3⟩

theorem dropEnd_append (a b : Str) : dropEnd b.length (a ++ b) = a := by
  simp [dropEnd]

/-- The name of a file, given its path in parts. -/
theorem importName_parts {suffixes : List Str} {dirs : List Str} {base suffix : Str}
    (hc : ∀ c ∈ dirs ++ [base], '/' ∉ c) (hs : '/' ∉ suffix)
    (hf : FirstSuffix suffixes (slashed (dirs ++ [base]) ++ suffix) suffix) :
    importName suffixes (slashed (dirs ++ [base]) ++ suffix) =
      if c!"__pycache__" ∈ dirs then none
      else if dirs ≠ [] ∧ base = c!"__init__" then some (dotted dirs)
      else some (dotted (dirs ++ [base])) := by
  have hb : '/' ∉ base := hc base (by simp)
  have hbs : '/' ∉ base ++ suffix := by simp [hb, hs]
  have hc' : ∀ c ∈ dirs ++ [base ++ suffix], '/' ∉ c := by
    intro c hm
    simp only [List.mem_append, List.mem_singleton] at hm
    rcases hm with hm | rfl
    · exact hc c (by simp [hm])
    · simpa using ⟨hb, hs⟩
  have hpy : (contains c!"/__pycache__/" (slashed (dirs ++ [base]) ++ suffix) ||
      startsWith c!"__pycache__/" (slashed (dirs ++ [base]) ++ suffix)) = true ↔
      c!"__pycache__" ∈ dirs := by
    rw [slashed_suffix, Bool.or_eq_true, contains_iff]
    unfold startsWith
    rw [List.isPrefixOf_iff_prefix]
    exact in_dirs (x := c!"__pycache__") (by decide) dirs (base ++ suffix) hc'
  have hin : endsWith (c!"/__init__" ++ suffix) (slashed (dirs ++ [base]) ++ suffix) = true ↔
      dirs ≠ [] ∧ base = c!"__init__" := by
    unfold endsWith
    rw [List.isSuffixOf_iff_suffix, slashed_suffix]
    have := last_comp (y := c!"__init__" ++ suffix) (by simp [hs]) dirs (base ++ suffix) hbs
    rw [List.append_cancel_right_eq] at this
    exact this
  unfold importName
  by_cases h1 : c!"__pycache__" ∈ dirs
  · rw [if_pos (hpy.mpr h1), if_pos h1]
  · rw [if_neg (fun h => h1 (hpy.mp h)), if_neg h1, firstSuffix_iff.mp hf]
    simp only []
    by_cases h2 : dirs ≠ [] ∧ base = c!"__init__"
    · rw [if_pos (hin.mpr h2), if_pos h2]
      congr 1
      obtain ⟨h2, rfl⟩ := h2
      have : dropEnd (9 + suffix.length) (slashed (dirs ++ [c!"__init__"]) ++ suffix) =
          slashed dirs := by
        rw [slashed_snoc _ _ h2]
        have := dropEnd_append (slashed dirs) (c!"/__init__" ++ suffix)
        rw [List.length_append] at this
        simpa using this
      rw [this, replaceChar_slashed _ fun c hm => hc c (by simp [hm])]
    · rw [if_neg (fun h => h2 (hin.mp h)), if_neg h2, dropEnd_append, replaceChar_slashed _ hc]

/-- C27, for one file. -/
theorem importName_iff {suffixes : List Str} (hs : ∀ x ∈ suffixes, '/' ∉ x) (path name : Str) :
    importName suffixes path = some name ↔ ImportedBy suffixes path name := by
  constructor
  · intro h
    have hfind : ∃ suffix, FirstSuffix suffixes path suffix := by
      unfold importName at h
      split at h
      · simp at h
      · split at h
        · simp at h
        · rename_i suffix hf
          exact ⟨suffix, firstSuffix_iff.mpr hf⟩
    obtain ⟨suffix, hf⟩ := hfind
    obtain ⟨q, rfl⟩ : ∃ q, q ++ suffix = path := hf.choose_spec.choose_spec.2.1
    have hsf : '/' ∉ suffix := by
      obtain ⟨a, b, he, _⟩ := hf
      exact hs suffix (by rw [he]; simp)
    obtain ⟨dirs, base, rfl, hc⟩ := exists_slashed q
    rw [importName_parts hc hsf hf] at h
    split at h
    · simp at h
    · rename_i h1
      split at h
      · rename_i h2
        simp at h
        subst h
        obtain ⟨h2, rfl⟩ := h2
        exact .package rfl (fun c hm => hc c (by simp [hm])) hf h1 h2
      · rename_i h2
        simp at h
        subst h
        refine .module rfl hc hf h1 fun hb => ?_
        by_cases hd : dirs = []
        · exact hd
        · exact absurd ⟨hd, hb⟩ h2
  · intro h
    cases h with
    | @module dirs base suffix he hc hf h1 h2 =>
      subst he
      have hsf : '/' ∉ suffix := by
        obtain ⟨a, b, he, _⟩ := hf
        exact hs suffix (by rw [he]; simp)
      rw [importName_parts hc hsf hf, if_neg h1, if_neg]
      rintro ⟨h3, h4⟩
      exact h3 (h2 h4)
    | @package dirs suffix he hc hf h1 h2 =>
      subst he
      have hsf : '/' ∉ suffix := by
        obtain ⟨a, b, he, _⟩ := hf
        exact hs suffix (by rw [he]; simp)
      have hc' : ∀ c ∈ dirs ++ [c!"__init__"], '/' ∉ c := by
        intro c hm
        simp only [List.mem_append, List.mem_singleton] at hm
        rcases hm with hm | rfl
        · exact hc c hm
        · decide
      rw [importName_parts hc' hsf hf, if_neg h1, if_pos ⟨h2, rfl⟩]

/-- C27: the import names of a distribution are exactly the names of the recorded Python,
bytecode and extension files. -/
theorem C27_names {W : Type} (env : DistEnv W) (distFile : Str) {rows : List Row} {text : Str}
    (h : CsvFile rows text) (hs : ∀ x ∈ env.extSuffixes, x ≠ [] ∧ '/' ∉ x)
    (w w1 w2 : W) (info : Str) (d : Dist)
    (hm : env.metadata distFile w = (.ok info, w1))
    (hr : env.record distFile w1 = (.ok text, w2))
    (hd : (createDistribution env distFile w).1 = .ok d) (name : Str) :
    name ∈ d.importNames ↔
      ∃ row ∈ rows, ImportedBy (c!".py" :: c!".pyc" :: env.extSuffixes) row.path name := by
  have hs' : ∀ x ∈ c!".py" :: c!".pyc" :: env.extSuffixes, '/' ∉ x := by
    intro x hx
    simp only [List.mem_cons] at hx
    rcases hx with rfl | rfl | hx
    · decide
    · decide
    · exact (hs x hx).2
  unfold createDistribution at hd
  rw [hm] at hd
  dsimp only at hd
  cases hnm : strHeader c!"Name" (headers info) with
  | none => rw [hnm] at hd; simp at hd
  | some nm =>
    cases hv : strHeader c!"Version" (headers info) with
    | none => rw [hnm, hv] at hd; simp at hd
    | some v =>
      rw [hnm, hv] at hd
      simp only [hr] at hd
      simp at hd
      subst hd
      have he : recordNames env text = (rows.map Row.path).filterMap
          (importName (c!".py" :: c!".pyc" :: env.extSuffixes)) := by
        rw [← csv_paths h, List.filterMap_map]
        rfl
      simp only [List.mem_eraseDups, he, List.mem_filterMap, List.mem_map]
      constructor
      · rintro ⟨_, ⟨r, hr, rfl⟩, hi⟩
        exact ⟨r, hr, (importName_iff hs' _ _).mp hi⟩
      · rintro ⟨r, hr, hi⟩
        exact ⟨_, ⟨r, hr, rfl⟩, (importName_iff hs' _ _).mpr hi⟩

/-- Packages, modules, bytecode, extensions; and what is left out. -/
example : [c!"p/__init__.py", c!"p/q.py", c!"m.pyc", c!"p/x.abi3.so", c!"p/__pycache__/q.pyc",
      c!"p/data.txt", c!"__init__.py"].map (importName [c!".py", c!".pyc", c!".abi3.so", c!".so"]) =
    [some c!"p", some c!"p.q", some c!"m", some c!"p.x", none, none, some c!"__init__"] := by
  decide

/-- What C27 does not exclude: a script that was installed outside of the directory of the
distribution has an "import name" which nothing can be imported by. -/
example : importName [c!".py", c!".pyc"] c!"../../bin/tool.py" = some c!"......bin.tool" := by decide

end Verif.Props
