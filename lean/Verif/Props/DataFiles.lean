import Verif.Spec.DataSpec
/-! # C35: `has_data_files` -/
namespace Verif.Props
open Verif Verif.Spec

/-! ## Names -/

theorem mem_ignored (n : Str) : n ∈ ignoredNames ↔ Ignored n := by
  unfold ignoredNames Ignored
  simp only [List.mem_cons, List.not_mem_nil, or_false]
  grind

theorem hasModuleSuffix_iff (sfx : List Str) (n : Str) :
    hasModuleSuffix sfx n = true ↔ ModuleName sfx n := by
  unfold hasModuleSuffix ModuleName endsWith
  simp only [List.any_eq_true, List.isSuffixOf_iff_suffix]
  constructor
  · rintro ⟨x, h, t, rfl⟩; exact ⟨x, h, t, rfl⟩
  · rintro ⟨x, h, t, rfl⟩; exact ⟨x, h, t, rfl⟩

theorem IsData.cons {sfx n p} (hn : ¬ Ignored n) (hp : IsData sfx p) (hne : p ≠ []) :
    IsData sfx (n :: p) := by
  refine ⟨fun x hx => ?_, fun x hx => ?_⟩
  · rcases List.mem_cons.mp hx with rfl | hx
    · exact hn
    · exact hp.1 x hx
  · cases p with
    | nil => exact absurd rfl hne
    | cons a p => rw [List.getLast?_cons_cons] at hx; exact hp.2 x hx

theorem IsData.tail {sfx n p} (h : IsData sfx (n :: p)) (hne : p ≠ []) :
    ¬ Ignored n ∧ IsData sfx p := by
  refine ⟨h.1 n (by simp), fun x hx => h.1 x (by simp [hx]), fun x hx => h.2 x ?_⟩
  cases p with
  | nil => exact absurd rfl hne
  | cons a p => rw [List.getLast?_cons_cons]; exact hx

theorem FileAt.ne_nil {t p} (h : FileAt t p) : p ≠ [] := by
  induction h <;> simp_all

/-! ## Directories -/

/-- C35, one half: a directory that is flagged has a data file. -/
theorem treeHasData_sound (sfx : List Str) (t : Tree) (h : treeHasData sfx t = true) :
    ∃ p, FileAt t p ∧ IsData sfx p := by
  induction t with
  | nil => simp [treeHasData] at h
  | file n z rest ih =>
    unfold treeHasData at h
    split at h
    · obtain ⟨p, h1, h2⟩ := ih h; exact ⟨p, .skipFile h1, h2⟩
    · rename_i hs
      split at h
      · obtain ⟨p, h1, h2⟩ := ih h; exact ⟨p, .skipFile h1, h2⟩
      · rename_i hi
        rw [mem_ignored] at hi
        rw [hasModuleSuffix_iff] at hs
        exact ⟨[n], .here, by simpa using hi, by simpa using hs⟩
  | dir n c rest ihc ih =>
    unfold treeHasData at h
    split at h
    · obtain ⟨p, h1, h2⟩ := ih h; exact ⟨p, .skipDir h1, h2⟩
    · split at h
      · obtain ⟨p, h1, h2⟩ := ih h; exact ⟨p, .skipDir h1, h2⟩
      · rename_i hi
        rw [mem_ignored] at hi
        obtain ⟨p, h1, h2⟩ := ihc h
        exact ⟨n :: p, .inside h1, IsData.cons hi h2 (FileAt.ne_nil h1)⟩

theorem treeHasData_complete (sfx : List Str) (t : Tree) (hs : Single sfx t) (hd : PlainDirs sfx t)
    {p} (h : FileAt t p) (hp : IsData sfx p) : treeHasData sfx t = true := by
  induction t generalizing p with
  | nil => cases h
  | file n z rest ih =>
    unfold treeHasData
    cases h with
    | here =>
      have h1 : hasModuleSuffix sfx n = false := by
        rw [← Bool.not_eq_true, hasModuleSuffix_iff]; exact hp.2 n rfl
      have h2 : n ∉ ignoredNames := by rw [mem_ignored]; exact hp.1 n (by simp)
      simp [h1, h2]
    | skipFile h =>
      split
      · exact ih hs hd h hp
      · split
        · exact ih hs hd h hp
        · rfl
  | dir n c rest ihc ih =>
    unfold treeHasData
    have h1 : hasModuleSuffix sfx n = false := by
      rw [← Bool.not_eq_true, hasModuleSuffix_iff]; exact hd.1
    rw [h1]
    simp only [Bool.false_eq_true, if_false]
    cases h with
    | inside h =>
      obtain ⟨hn, hp'⟩ := IsData.tail hp (FileAt.ne_nil h)
      have h2 : n ∉ ignoredNames := by rw [mem_ignored]; exact hn
      rw [if_neg h2]
      exact ihc (hs.1 hn).1 hd.2.1 h hp'
    | skipDir h =>
      split
      · exact ih hs.2 hd.2.2 h hp
      · rename_i h2
        rw [mem_ignored] at h2
        exact absurd ⟨_, h, hp⟩ (hs.1 h2).2

/-- C35: a package directory that is flagged has a data file. -/
theorem C35_flagged (sfx : List Str) (t : Tree) (d : List Str) (c : Tree)
    (hd : t.lookup d = some (.dir c)) (h : containsDatafiles sfx t d = .ok true) :
    ∃ p, FileAt c p ∧ IsData sfx p := by
  unfold containsDatafiles at h
  rw [hd] at h
  exact treeHasData_sound sfx c (by simpa using h)

/-- C35 for directories without directories named like modules and, at each level, without data
files behind the first sub-directory.  Missing: the other directories, where the answer can be wrong
(`C35_first_subdirectory_only`). -/
theorem C35_directory_partial (sfx : List Str) (t : Tree) (d : List Str) (c : Tree)
    (hd : t.lookup d = some (.dir c)) (hs : Single sfx c) (hp : PlainDirs sfx c) :
    ∃ b, containsDatafiles sfx t d = .ok b ∧ (b = true ↔ ∃ p, FileAt c p ∧ IsData sfx p) := by
  refine ⟨treeHasData sfx c, by unfold containsDatafiles; rw [hd], treeHasData_sound sfx c, ?_⟩
  rintro ⟨p, h1, h2⟩
  exact treeHasData_complete sfx c hs hp h1 h2

/-- C35 is false: after the first sub-directory the other entries are not looked at, so that the
answer depends on the order in which the directory is listed. -/
theorem C35_first_subdirectory_only :
    let sfx := [c!".py"]
    let sub := Tree.file c!"__init__.py" none .nil
    let t1 := Tree.dir c!"tests" sub (.file c!"data.txt" none .nil)
    let t2 := Tree.file c!"data.txt" none (.dir c!"tests" sub .nil)
    (∃ p, FileAt t1 p ∧ IsData sfx p) ∧ treeHasData sfx t1 = false ∧ treeHasData sfx t2 = true := by
  refine ⟨⟨[c!"data.txt"], .skipDir .here, ?_, ?_⟩, by decide, by decide⟩
  · rintro n hn
    rw [List.mem_singleton] at hn
    subst hn
    unfold Ignored
    decide
  · intro n hn
    simp only [List.getLast?_singleton, Option.some.injEq] at hn
    subst hn
    rw [← hasModuleSuffix_iff]
    decide

/-- Also a directory whose name ends like that of a module is not looked into. -/
theorem C35_directory_like_module :
    let t := Tree.dir c!"templates.py" (.file c!"data.txt" none .nil) .nil
    FileAt t [c!"templates.py", c!"data.txt"] ∧ treeHasData [c!".py"] t = false :=
  ⟨.inside .here, by decide⟩

/-! ## Zip files -/

theorem joinWith_splitAll (c : Char) (s : Str) : joinWith c (splitAll c s) = s := by
  induction s with
  | nil => rfl
  | cons x s ih =>
    unfold splitAll
    split
    · rename_i h
      subst h
      cases hs : splitAll x s with
      | nil => rw [hs] at ih; simp [joinWith] at ih; subst ih; simp [splitAll] at hs
      | cons a l => rw [hs] at ih; simp [joinWith, ih]
    · cases hs : splitAll c s with
      | nil => rw [hs] at ih; simp [joinWith] at ih; subst ih; simp [splitAll] at hs
      | cons a l =>
        rw [hs] at ih
        cases l with
        | nil => simp only [joinWith] at ih ⊢; rw [ih]
        | cons b l => simp only [joinWith] at ih ⊢; rw [← ih]; rfl

theorem splitAll_clean (c : Char) (s : Str) : splitAll c s ≠ [] ∧ ∀ x ∈ splitAll c s, c ∉ x := by
  induction s with
  | nil => simp [splitAll]
  | cons x s ih =>
    unfold splitAll
    split
    · refine ⟨by simp, ?_⟩
      intro y hy
      rcases List.mem_cons.mp hy with rfl | hy
      · simp
      · exact ih.2 y hy
    · rename_i hx
      cases hs : splitAll c s with
      | nil => exact absurd hs ih.1
      | cons a l =>
        refine ⟨by simp, ?_⟩
        rw [hs] at ih
        intro y hy
        rcases List.mem_cons.mp hy with rfl | hy
        · have := ih.2 a (by simp)
          simp only [List.mem_cons, not_or]
          exact ⟨fun h => hx h.symm, this⟩
        · exact ih.2 y (by simp [hy])

theorem splitAll_of_clean {c : Char} {a : Str} (h : c ∉ a) : splitAll c a = [a] := by
  induction a with
  | nil => rfl
  | cons x a ih =>
    simp only [List.mem_cons, not_or] at h
    unfold splitAll
    rw [if_neg (fun e => h.1 e.symm), ih h.2]

theorem splitAll_append {c : Char} {a : Str} (h : c ∉ a) (s : Str) :
    splitAll c (a ++ c :: s) = a :: splitAll c s := by
  induction a with
  | nil => simp [splitAll]
  | cons x a ih =>
    simp only [List.mem_cons, not_or] at h
    rw [List.cons_append, splitAll, if_neg (fun e => h.1 e.symm), ih h.2]

theorem splitAll_joinWith {c : Char} {l : List Str} (hne : l ≠ []) (h : ∀ x ∈ l, c ∉ x) :
    splitAll c (joinWith c l) = l := by
  induction l with
  | nil => exact absurd rfl hne
  | cons a l ih =>
    cases l with
    | nil => exact splitAll_of_clean (h a (by simp))
    | cons b l =>
      rw [joinWith, splitAll_append (h a (by simp)), ih (by simp) fun x hx => h x (by simp [hx])]

theorem joinWith_append (c : Char) {a b : List Str} (ha : a ≠ []) (hb : b ≠ []) :
    joinWith c (a ++ b) = joinWith c a ++ c :: joinWith c b := by
  induction a with
  | nil => exact absurd rfl ha
  | cons x a ih =>
    cases a with
    | nil =>
      cases b with
      | nil => exact absurd rfl hb
      | cons y b => rfl
    | cons y a =>
      have := ih (by simp)
      simp only [List.cons_append, joinWith] at this ⊢
      rw [this, List.append_assoc, List.cons_append]

theorem Tree.lookup_append (t : Tree) (p q : List Str) :
    t.lookup (p ++ q) = match t.lookup p with
      | some (.dir c) => c.lookup q
      | some (.file z) => if q = [] then some (.file z) else none
      | none => none := by
  induction p generalizing t with
  | nil => rfl
  | cons a p ih =>
    simp only [List.cons_append, Tree.lookup]
    cases t.entry a with
    | none => rfl
    | some x =>
      cases x with
      | dir c => exact ih c
      | file z => by_cases hp : p = [] <;> by_cases hq : q = [] <;> simp [hp, hq]

theorem existingParent_zip (t : Tree) (zp : List Str) (z) (h : t.lookup zp = some (.file z))
    (up : List Str) (names : List Str) :
    existingParent t (up ++ zp.reverse) names = (.file z, up.reverse ++ names) := by
  induction up generalizing names with
  | nil =>
    rw [existingParent.eq_def]
    simp [h]
  | cons a up ih =>
    rw [existingParent.eq_def]
    have : t.lookup ((a :: up) ++ zp.reverse).reverse = none := by
      rw [List.reverse_append, List.reverse_reverse, Tree.lookup_append, h]
      simp
    rw [this]
    simp only [List.cons_append]
    rw [ih]
    simp

theorem suffix_last {sfx : List Str} (hs : ∀ x ∈ sfx, '/' ∉ x) {l : List Str} {n : Str}
    (hn : l.getLast? = some n) : ModuleName sfx (joinWith '/' l) ↔ ModuleName sfx n := by
  have key : ∀ (y : Str) (x : Str), '/' ∉ x → ((∃ stem, y ++ '/' :: n = stem ++ x) ↔ ∃ stem, n = stem ++ x) := by
    intro y x hx
    constructor
    · rintro ⟨stem, h⟩
      rcases List.append_eq_append_iff.mp h with ⟨a, h1, h2⟩ | ⟨a, h1, h2⟩
      · cases a with
        | nil =>
          rw [List.nil_append] at h2
          exact absurd (by rw [← h2]; simp) hx
        | cons b a =>
          simp only [List.cons_append, List.cons.injEq] at h2
          exact ⟨a, h2.2⟩
      · exact absurd (by rw [h2]; simp) hx
    · rintro ⟨stem, rfl⟩
      exact ⟨y ++ '/' :: stem, by simp⟩
  have hl : l = l.dropLast ++ [n] := by
    have h1 : l ≠ [] := by intro h; subst h; simp at hn
    have h2 : l.getLast h1 = n := by rw [List.getLast?_eq_some_getLast h1] at hn; simpa using hn
    rw [← h2, List.dropLast_concat_getLast]
  by_cases hd : l.dropLast = []
  · rw [hl, hd]; rfl
  · rw [hl, joinWith_append '/' hd (by simp)]
    show ModuleName sfx (_ ++ '/' :: n) ↔ _
    constructor
    · rintro ⟨x, hx, h⟩; exact ⟨x, hx, (key _ x (hs x hx)).mp h⟩
    · rintro ⟨x, hx, h⟩; exact ⟨x, hx, (key _ x (hs x hx)).mpr h⟩

/-- C35 for packages in a zip file: the package `names` in the archive at `zp` is flagged iff the
archive has a data file below it. (Archive members whose name ends in a slash are directories: their
last component is empty.) -/
theorem C35_zip (sfx : List Str) (hs : ∀ x ∈ sfx, '/' ∉ x) (t : Tree) (zp : List Str)
    (members : List Str) (hz : t.lookup zp = some (.file (some members))) (names : List Str)
    (hne : names ≠ []) (hn : ∀ x ∈ names, '/' ∉ x) :
    ∃ b, containsDatafiles sfx t (zp ++ names) = .ok b ∧ (b = true ↔
      ∃ p, p ≠ [] ∧ (∀ x ∈ p, '/' ∉ x) ∧ p.getLast? ≠ some [] ∧
        joinWith '/' (names ++ p) ∈ members ∧ IsData sfx (names ++ p)) := by
  refine ⟨zipHasData sfx (joinWith '/' names ++ c!"/") members, ?_, ?_⟩
  · unfold containsDatafiles
    rw [Tree.lookup_append, hz]
    simp only [if_neg hne]
    rw [List.reverse_append, existingParent_zip t zp _ hz]
    simp
  · unfold zipHasData
    rw [List.any_eq_true]
    constructor
    · rintro ⟨nm, hm, h⟩
      split at h
      · rename_i hst
        obtain ⟨r, hr⟩ := List.isPrefixOf_iff_prefix.mp hst
        split at h
        · cases h
        · rename_i hig
          split at h
          · cases h
          · rename_i hsf
            split at h
            · cases h
            · rename_i hdir
              have hsplit := splitAll_clean '/' r
              have hjoin := joinWith_splitAll '/' r
              have hnm : joinWith '/' (names ++ splitAll '/' r) = nm := by
                rw [joinWith_append '/' hne hsplit.1, hjoin, ← hr]
                simp
              have hsp : splitAll '/' nm = names ++ splitAll '/' r := by
                rw [← hnm]
                refine splitAll_joinWith (by simp [hne]) fun x hx => ?_
                rcases List.mem_append.mp hx with hx | hx
                · exact hn x hx
                · exact hsplit.2 x hx
              refine ⟨splitAll '/' r, hsplit.1, hsplit.2, fun hl => ?_, hnm ▸ hm, ?_, ?_⟩
              · apply hdir
                have hr2 : splitAll '/' r = (splitAll '/' r).dropLast ++ [[]] := by
                  rw [List.getLast?_eq_some_getLast hsplit.1] at hl
                  simp only [Option.some.injEq] at hl
                  rw [← hl, List.dropLast_concat_getLast]
                unfold endsWith
                rw [List.isSuffixOf_iff_suffix, ← hnm, hr2, ← List.append_assoc,
                  joinWith_append '/' (by simp [hne]) (by simp)]
                exact ⟨_, rfl⟩
              · intro x hx hi
                apply hig
                rw [hsp, List.any_eq_true]
                exact ⟨x, hx, by simpa using (mem_ignored x).mpr hi⟩
              · intro x hx hmod
                apply hsf
                rw [hasModuleSuffix_iff, ← hnm]
                exact (suffix_last hs hx).mpr hmod
      · cases h
    · rintro ⟨p, hpn, hpc, hpl, hm, hd⟩
      refine ⟨_, hm, ?_⟩
      have hclean : ∀ x ∈ names ++ p, '/' ∉ x := fun x hx => by
        rcases List.mem_append.mp hx with hx | hx
        · exact hn x hx
        · exact hpc x hx
      have hsp := splitAll_joinWith (c := '/') (l := names ++ p) (by simp [hne]) hclean
      have hst : startsWith (joinWith '/' names ++ c!"/") (joinWith '/' (names ++ p)) = true := by
        unfold startsWith
        rw [List.isPrefixOf_iff_prefix, joinWith_append '/' hne hpn]
        exact ⟨joinWith '/' p, by simp⟩
      obtain ⟨x, hx⟩ : ∃ x, (names ++ p).getLast? = some x := by
        rw [List.getLast?_eq_some_getLast (by simp [hne])]; exact ⟨_, rfl⟩
      rw [if_pos hst, hsp, if_neg, if_neg, if_neg]
      · intro hsl
        unfold endsWith at hsl
        rw [List.isSuffixOf_iff_suffix] at hsl
        obtain ⟨stem, hsl⟩ := hsl
        have h1 : splitAll '/' (joinWith '/' (names ++ p)) = splitAll '/' stem ++ [[]] := by
          rw [← hsl]
          have h2 := joinWith_splitAll '/' stem
          have h3 : joinWith '/' (splitAll '/' stem ++ [[]]) = stem ++ c!"/" := by
            rw [joinWith_append '/' (splitAll_clean '/' stem).1 (by simp), h2]; rfl
          rw [← h3]
          refine splitAll_joinWith (by simp) fun y hy => ?_
          rcases List.mem_append.mp hy with hy | hy
          · exact (splitAll_clean '/' stem).2 y hy
          · rw [List.mem_singleton] at hy; subst hy; simp
        rw [hsp] at h1
        apply hpl
        have := congrArg List.getLast? h1
        simp only [List.getLast?_append] at this
        rw [List.getLast?_eq_some_getLast hpn] at this ⊢
        simpa using this
      · rw [hasModuleSuffix_iff, suffix_last hs hx]
        exact hd.2 x hx
      · rw [List.any_eq_true]
        rintro ⟨y, hy, hi⟩
        exact hd.1 y hy ((mem_ignored y).mp (by simpa using hi))

/-- The path of a package that does not exist at all. -/
theorem C35_no_such_path (sfx : List Str) (t : Tree) (d : List Str) (h : t.lookup d = none)
    (hz : ∀ p z, t.lookup p ≠ some (.file (some z))) : containsDatafiles sfx t d = .error .osError := by
  unfold containsDatafiles
  rw [h]
  simp only []
  have : ∀ up names, ∀ l, (existingParent t up names).1 ≠ .file (some l) := by
    intro up
    induction up with
    | nil =>
      intro names l
      rw [existingParent.eq_def]
      cases hl : t.lookup (List.reverse []) with
      | none => simp
      | some x => simp only []; intro he; subst he; exact hz _ _ hl
    | cons a up ih =>
      intro names l
      rw [existingParent.eq_def]
      cases hl : t.lookup (a :: up).reverse with
      | none => exact ih _ l
      | some x => simp only []; intro he; subst he; exact hz _ _ hl
  split
  · rename_i l names he
    exact absurd (by rw [he]) (this d.reverse [] l)
  · rfl

/-! A package with a data file in a sub-directory, and a zipped package. -/
def sampleTree : Tree :=
  .dir c!"pkg" (.file c!"__init__.py" none <| .dir c!"__pycache__" (.file c!"x.pyc" none .nil) <|
    .dir c!"res" (.file c!"logo.png" none .nil) <| .file c!"a.py" none .nil) <|
  .file c!"lib.zip" (some [c!"p/", c!"p/__init__.py", c!"p/res/x.txt", c!"q/__init__.py", c!"q/.hg/x"]) .nil

example : containsDatafiles [c!".py"] sampleTree [c!"pkg"] = .ok true ∧
    containsDatafiles [c!".py"] sampleTree [c!"lib.zip", c!"p"] = .ok true ∧
    containsDatafiles [c!".py"] sampleTree [c!"lib.zip", c!"q"] = .ok false ∧
    containsDatafiles [c!".py"] sampleTree [c!"nowhere"] = .error .osError := by decide +kernel

example : ∃ c, sampleTree.lookup [c!"pkg"] = some (.dir c) ∧ Single [c!".py"] c ∧ PlainDirs [c!".py"] c := by
  refine ⟨_, rfl, ⟨fun h => absurd (.inl rfl) h, ⟨fun _ => ⟨trivial, ?_⟩, trivial⟩⟩, ?_⟩
  · rintro ⟨p, h, hd⟩
    cases h with
    | here => exact hd.2 _ rfl ((hasModuleSuffix_iff _ _).mp (by decide))
    | skipFile h => cases h
  · refine ⟨?_, trivial, ?_, trivial, trivial⟩ <;>
    · rw [← hasModuleSuffix_iff]; decide

end Verif.Props
