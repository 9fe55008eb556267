import Verif.Spec.MetadataSpec
import Verif.Props.Record
/-!
# C77: reading METADATA files
-/
namespace Verif.Props
open Verif Spec Spec.Meta

theorem universal_end {eol : Str} (h : eol = ['\n'] ∨ eol = ['\r', '\n'] ∨ eol = ['\r']) {r : Str}
    (hr : eol = ['\r'] → r.head? ≠ some '\n') : universal (eol ++ r) = '\n' :: universal r := by
  rcases h with rfl | rfl | rfl
  · rw [List.cons_append, universal.eq_def]
    simp
  · rw [List.cons_append, List.cons_append, universal.eq_def]
    simp
  · exact universal_eol (.inr (.inr rfl)) (hr rfl)

def withEnds (e : Str) : List Str → List Str
  | [] => []
  | [l] => [l ++ e]
  | l :: m :: ls => (l ++ ['\n']) :: withEnds e (m :: ls)

theorem withEnds_cons {e l : Str} {ls : List Str} (h : ls ≠ []) : withEnds e (l :: ls) = (l ++ ['\n']) :: withEnds e ls := by
  cases ls with
  | nil => exact absurd rfl h
  | cons m ls => rfl

theorem withEnds_append {e : Str} {a b : List Str} (h : b ≠ []) : withEnds e (a ++ b) = withEnds ['\n'] a ++ withEnds e b := by
  induction a with
  | nil => rfl
  | cons l a ih =>
    rw [List.cons_append, withEnds_cons (by simp [h]), ih]
    cases a with
    | nil => rfl
    | cons m a => rfl

theorem mem_withEnds {e : Str} {ls : List Str} {x : Str} (h : x ∈ withEnds e ls) : ∃ l ∈ ls, ∃ t, x = l ++ t := by
  induction ls with
  | nil => cases h
  | cons l ls ih =>
    cases ls with
    | nil =>
      simp only [withEnds, List.mem_singleton] at h
      exact ⟨l, by simp, e, h⟩
    | cons m ls =>
      simp only [withEnds, List.mem_cons] at h
      rcases h with h | h
      · exact ⟨l, by simp, _, h⟩
      · obtain ⟨l', h1, h2⟩ := ih h
        exact ⟨l', by simp [List.mem_cons.mp h1], h2⟩

/-- What comes after the fields. -/
theorem blank_iff (c : Char) : isBlank c = true ↔ Blank c := by
  simp [isBlank, Blank]

theorem name_line {f : Field} (hf : f.Ok) (t : Str) :
    let l := f.name ++ ':' :: f.blanks ++ f.value ++ t
    headerLine l = true ∧ (l.head?.map isBlank).getD false = false ∧ startsWith c!"From " l = false ∧ l.head? ≠ some ':' := by
  obtain ⟨hn, hc⟩ := hf.name
  have hch : ∀ c ∈ f.name, headerChar c = true := by
    intro c h
    have := hc c h
    simp [headerChar, this]
  have hd : ∀ r, ((f.name ++ ':' :: r).dropWhile headerChar) = ':' :: r := by
    intro r
    rw [List.dropWhile_append_of_pos hch]
    rfl
  simp only [List.append_assoc, List.cons_append]
  refine ⟨?_, ?_, ?_, ?_⟩
  · unfold headerLine
    rw [hd]
    simp
  · cases h : f.name with
    | nil => exact absurd h hn
    | cons c r =>
      have := hc c (by rw [h]; simp)
      simp only [List.cons_append, List.head?_cons, Option.map_some, Option.getD_some]
      rw [Bool.eq_false_iff]
      intro hb
      rcases (blank_iff c).mp hb with rfl | rfl <;> exact absurd this.1 (by decide)
  · rw [Bool.eq_false_iff]
    intro hs
    unfold startsWith at hs
    rw [List.isPrefixOf_iff_prefix] at hs
    obtain ⟨r, hr⟩ := hs
    have h1 := hd (f.blanks ++ (f.value ++ t))
    rw [← hr] at h1
    have : List.dropWhile headerChar (c!"From " ++ r) = ' ' :: r := rfl
    rw [this] at h1
    cases h1
  · cases h : f.name with
    | nil => exact absurd h hn
    | cons c r =>
      have := hc c (by rw [h]; simp)
      simpa using this.2.2

theorem foldl_text (l : List Str) (v : Str) : l.foldl (fun s l => s ++ '\n' :: l) v = joinWith '\n' (v :: l) := by
  induction l generalizing v with
  | nil => rfl
  | cons m l ih =>
    rw [List.foldl_cons, ih]
    cases l with
    | nil => rfl
    | cons k l => simp [joinWith]

theorem withEnds_flatten (e l : Str) (ls : List Str) : (withEnds e (l :: ls)).flatten = joinWith '\n' (l :: ls) ++ e := by
  induction ls generalizing l with
  | nil => simp [withEnds, joinWith]
  | cons m ls ih =>
    rw [withEnds, List.flatten_cons, ih]
    simp [joinWith]

theorem strip_end {s e : Str} (he : e = [] ∨ e = ['\n']) (hs : ∀ c, s.getLast? = some c → c ≠ '\r' ∧ c ≠ '\n') :
    ((s ++ e).reverse.dropWhile fun c => c == '\r' || c == '\n').reverse = s := by
  have key : (s.reverse.dropWhile fun c => c == '\r' || c == '\n') = s.reverse := by
    cases h : s.reverse with
    | nil => rfl
    | cons c r =>
      have h1 : s.getLast? = some c := by
        rw [← List.head?_reverse, h]
        rfl
      have := hs c h1
      rw [List.dropWhile_cons, if_neg (by simp [this])]
  rcases he with rfl | rfl
  · rw [List.append_nil, key, List.reverse_reverse]
  · rw [List.reverse_append]
    show (List.dropWhile _ ('\n' :: s.reverse)).reverse = s
    rw [List.dropWhile_cons, if_pos (by decide), key, List.reverse_reverse]

theorem text_last {f : Field} (hf : f.Ok) {c : Char} (h : f.text.getLast? = some c) : c ≠ '\r' ∧ c ≠ '\n' := by
  have key : ∀ (ls : List Str) (v : Str), NoBreak v → (∀ l ∈ ls, NoBreak l ∧ l ≠ []) →
      ∀ c, (joinWith '\n' (v :: ls)).getLast? = some c → c ≠ '\r' ∧ c ≠ '\n' := by
    intro ls
    induction ls with
    | nil =>
      intro v hv _ c h
      have := List.mem_of_getLast? h
      exact ⟨fun e => hv.2 (e ▸ this), fun e => hv.1 (e ▸ this)⟩
    | cons m ls ih =>
      intro v hv hl c h
      have hm := hl m (by simp)
      apply ih m hm.1 (fun l hh => hl l (by simp [hh])) c
      rw [joinWith, List.getLast?_append] at h
      have hne : joinWith '\n' (m :: ls) ≠ [] := by
        cases ls with
        | nil => exact hm.2
        | cons k ls => simp [joinWith]
      rw [List.getLast?_cons] at h
      rw [List.getLast?_eq_some_getLast hne] at h ⊢
      simpa using h
  unfold Field.text at h
  rw [foldl_text] at h
  exact key f.more f.value hf.value.1 (fun l hl => by
    obtain ⟨h1, c, r, h2, -⟩ := hf.more l hl
    exact ⟨h1, by rw [h2]; simp⟩) c h

theorem withEnds_first {e : Str} (he : e = [] ∨ e = ['\n']) (ls : List Str) :
    ∃ t more, (∀ l, withEnds e (l :: ls) = (l ++ t) :: more) ∧ (t = [] ∨ t = ['\n']) ∧
      ∀ m ∈ more, ∃ l ∈ ls, ∃ t, m = l ++ t := by
  cases ls with
  | nil => exact ⟨e, [], fun _ => rfl, he, fun _ h => by cases h⟩
  | cons m ls => exact ⟨['\n'], withEnds e (m :: ls), fun _ => rfl, .inr rfl, fun _ h => mem_withEnds h⟩

/-- The lines of a field give its name and its value. -/
theorem headerParse_field {f : Field} (hf : f.Ok) {e : Str} (he : e = [] ∨ e = ['\n']) :
    ∃ t more, withEnds e f.lines = (f.name ++ ':' :: f.blanks ++ f.value ++ t) :: more ∧
      headerParse (f.name ++ ':' :: f.blanks ++ f.value ++ t) more = (f.name, f.text) ∧
      ∀ l ∈ more, (l.head?.map isBlank).getD false = true := by
  obtain ⟨t, more, h1, ht, h2⟩ := withEnds_first he f.more
  refine ⟨t, more, h1 _, ?_, ?_⟩
  · have hc : ∀ r, colonSplit (f.name ++ ':' :: r) = (f.name, r) := by
      intro r
      have hn : ∀ c ∈ f.name, (c != ':') = true := fun c h => by
        have := (hf.name.2 c h).2.2
        simpa using this
      unfold colonSplit
      rw [List.takeWhile_append_of_pos hn, List.dropWhile_append_of_pos hn]
      simp
    have hb : (f.blanks ++ f.value ++ t).dropWhile isBlank = f.value ++ t := by
      rw [List.append_assoc, List.dropWhile_append_of_pos fun c h => (blank_iff c).mpr (hf.blanks c h)]
      cases hv : f.value with
      | nil =>
        rcases ht with rfl | rfl
        · rfl
        · rfl
      | cons c r =>
        rw [List.cons_append, List.dropWhile_cons, if_neg]
        rw [blank_iff]
        exact hf.value.2 c r hv
    have hfl := withEnds_flatten e f.value f.more
    rw [h1, List.flatten_cons] at hfl
    unfold headerParse
    rw [show f.name ++ ':' :: f.blanks ++ f.value ++ t = f.name ++ ':' :: (f.blanks ++ f.value ++ t) by simp, hc]
    simp only
    rw [hb, hfl]
    have htx : joinWith '\n' (f.value :: f.more) = f.text := by
      unfold Field.text
      rw [foldl_text]
    rw [htx, strip_end he fun c => text_last hf]
  · intro l hl
    obtain ⟨m, hm, t, rfl⟩ := h2 l hl
    obtain ⟨-, c, r, rfl, hc⟩ := hf.more m hm
    simpa using (blank_iff c).mpr hc

theorem parse_more (l : Str) (more : List Str) (b : Bool) {ls : List Str} (h : ∀ l ∈ ls, (l.head?.map isBlank).getD false = true)
    (rest : List Str) : ∃ b', parseHeaders (some (l, more)) b (ls ++ rest) = parseHeaders (some (l, more ++ ls)) b' rest := by
  induction ls generalizing more b with
  | nil => exact ⟨b, by simp⟩
  | cons m ls ih =>
    obtain ⟨b', hb⟩ := ih (more ++ [m]) false fun l hl => h l (by simp [hl])
    refine ⟨b', ?_⟩
    rw [List.cons_append, parseHeaders, if_pos (h m (by simp)), hb]
    simp

theorem lines_fileLines {text : Str} {ls : List Str} (h : Lines text ls) :
    (∃ e, (e = [] ∨ e = ['\n']) ∧ fileLines (universal text) = withEnds e ls) ∧ ∀ l ∈ ls, NoBreak l := by
  have step : ∀ {l : Str} {u : Str} {ls : List Str}, NoBreak l →
      ((∃ e, (e = [] ∨ e = ['\n']) ∧ fileLines u = withEnds e ls) ∧ ∀ l ∈ ls, NoBreak l) →
      (∃ e, (e = [] ∨ e = ['\n']) ∧ fileLines (l ++ '\n' :: u) = withEnds e (l :: ls)) ∧ ∀ x ∈ l :: ls, NoBreak x := by
    rintro l u ls hl ⟨⟨e, he, h1⟩, h2⟩
    refine ⟨?_, fun x hx => ?_⟩
    · rw [fileLines_line hl.1, h1]
      by_cases hn : ls = []
      · subst hn
        exact ⟨['\n'], .inr rfl, rfl⟩
      · exact ⟨e, he, (withEnds_cons hn).symm⟩
    · rcases List.mem_cons.mp hx with rfl | hx
      · exact hl
      · exact h2 x hx
  induction h with
  | nil => exact ⟨⟨[], .inl rfl, rfl⟩, by simp⟩
  | @last l hl hn =>
    refine ⟨⟨[], .inl rfl, ?_⟩, by simpa using hl⟩
    have := universal_line hl []
    rw [List.append_nil, show universal [] = [] from rfl, List.append_nil] at this
    rw [this, fileLines_last hl.1 hn]
    simp [withEnds]
  | @lf l r ls hl _ ih =>
    rw [universal_line hl, show '\n' :: r = ['\n'] ++ r from rfl, universal_end (.inl rfl) (by simp)]
    exact step hl ih
  | @crlf l r ls hl _ ih =>
    rw [universal_line hl, show '\r' :: '\n' :: r = ['\r', '\n'] ++ r from rfl, universal_end (.inr (.inl rfl)) (by simp)]
    exact step hl ih
  | @cr l r ls hl hr _ ih =>
    rw [universal_line hl, show '\r' :: r = ['\r'] ++ r from rfl, universal_end (.inr (.inr rfl)) fun _ => hr]
    exact step hl ih

theorem goesOn_iff (l : Str) : (l.head?.map isBlank).getD false = true ↔ GoesOn l := by
  cases l with
  | nil => simp [GoesOn]
  | cons c r => simp [GoesOn, blank_iff]

theorem goesOn_end (l : Str) {t : Str} (ht : t = [] ∨ t = ['\n']) : GoesOn (l ++ t) ↔ GoesOn l := by
  rcases ht with rfl | rfl
  · rw [List.append_nil]
  · cases l with
    | nil =>
      simp only [GoesOn, List.nil_append, Blank]
      constructor
      · rintro ⟨c, r, h, hc⟩
        cases h
        rcases hc with hc | hc <;> cases hc
      · rintro ⟨c, r, h, _⟩; cases h
    | cons c r => simp [GoesOn]

theorem from_iff (l : Str) {t : Str} (ht : t = [] ∨ t = ['\n']) :
    startsWith c!"From " (l ++ t) = true ↔ ∃ r, l = c!"From " ++ r := by
  unfold startsWith
  rw [List.isPrefixOf_iff_prefix]
  rcases ht with rfl | rfl
  · rw [List.append_nil]
    exact ⟨fun ⟨r, h⟩ => ⟨r, h.symm⟩, fun ⟨r, h⟩ => ⟨r, h.symm⟩⟩
  · rw [List.prefix_concat_iff]
    constructor
    · rintro (h | ⟨r, h⟩)
      · have := congrArg List.getLast? h
        simp at this
      · exact ⟨r, h.symm⟩
    · rintro ⟨r, h⟩
      exact .inr ⟨r, h.symm⟩

theorem mem_takeWhile_imp' {p : Char → Bool} {l : Str} {c : Char} (h : c ∈ l.takeWhile p) : p c = true := by
  have := List.all_takeWhile (p := p) (l := l)
  exact List.all_eq_true.mp this c h

theorem begins_iff (l : Str) {t : Str} (ht : t = [] ∨ t = ['\n']) :
    ((l ++ t).dropWhile headerChar).head? = some ':' ↔ Begins l := by
  have h0 : ((l ++ t).dropWhile headerChar).head? = some ':' ↔ (l.dropWhile headerChar).head? = some ':' := by
    rcases ht with rfl | rfl
    · rw [List.append_nil]
    · induction l with
      | nil => simp [List.dropWhile, headerChar]
      | cons c l ih =>
        rw [List.cons_append, List.dropWhile_cons, List.dropWhile_cons]
        split
        · exact ih
        · simp
  rw [h0]
  constructor
  · intro h
    cases hd : l.dropWhile headerChar with
    | nil => rw [hd] at h; cases h
    | cons c r =>
      rw [hd] at h
      cases h
      refine ⟨l.takeWhile headerChar, r, ?_, fun c hc => ?_⟩
      · rw [← hd, List.takeWhile_append_dropWhile]
      · have := mem_takeWhile_imp' hc
        simp [headerChar] at this
        exact ⟨this.1.1, this.1.2, this.2⟩
  · rintro ⟨name, r, rfl, hn⟩
    rw [List.dropWhile_append_of_pos fun c hc => by simp [headerChar, hn c hc]]
    rfl

theorem headerLine_iff (l : Str) {t : Str} (ht : t = [] ∨ t = ['\n']) :
    headerLine (l ++ t) = true ↔ GoesOn l ∨ Skipped l ∨ Begins l := by
  unfold headerLine
  simp only [Bool.or_eq_true, beq_iff_eq]
  rw [from_iff l ht, begins_iff l ht, goesOn_iff, goesOn_end l ht]
  unfold Skipped
  constructor
  · rintro ((h | h) | h)
    · exact .inr (.inl (.inl h))
    · exact .inr (.inr h)
    · exact .inl h
  · rintro (h | (h | ⟨r, rfl⟩) | h)
    · exact .inr h
    · exact .inl (.inl h)
    · exact .inl (.inr ⟨[], r, rfl, by simp⟩)
    · exact .inl (.inr h)

theorem withEnds_split {e : Str} (he : e = [] ∨ e = ['\n']) (a b : List Str) :
    ∃ e', (e' = [] ∨ e' = ['\n']) ∧ withEnds e (a ++ b) = withEnds e' a ++ withEnds e b := by
  by_cases hn : b = []
  · exact ⟨e, he, by rw [hn]; simp [withEnds]⟩
  · exact ⟨['\n'], .inr rfl, withEnds_append hn⟩

theorem mem_withEnds' {e : Str} (he : e = [] ∨ e = ['\n']) {ls : List Str} {x : Str} (h : x ∈ withEnds e ls) :
    ∃ l ∈ ls, ∃ t, (t = [] ∨ t = ['\n']) ∧ x = l ++ t := by
  induction ls with
  | nil => cases h
  | cons l ls ih =>
    cases ls with
    | nil =>
      simp only [withEnds, List.mem_singleton] at h
      exact ⟨l, by simp, e, he, h⟩
    | cons m ls =>
      simp only [withEnds, List.mem_cons] at h
      rcases h with h | h
      · exact ⟨l, by simp, _, .inr rfl, h⟩
      · obtain ⟨l', h1, h2⟩ := ih h
        exact ⟨l', by simp [List.mem_cons.mp h1], h2⟩

/-- Lines that begin with a blank when there is no field. -/
theorem parse_strays (b : Bool) {ls : List Str} (h : ∀ l ∈ ls, (l.head?.map isBlank).getD false = true)
    (rest : List Str) : ∃ b', parseHeaders none b (ls ++ rest) = parseHeaders none b' rest := by
  induction ls generalizing b with
  | nil => exact ⟨b, rfl⟩
  | cons m ls ih =>
    obtain ⟨b', hb⟩ := ih false fun l hl => h l (by simp [hl])
    exact ⟨b', by rw [List.cons_append, parseHeaders, if_pos (h m (by simp)), hb]⟩

theorem parse_parts {e : Str} (he : e = [] ∨ e = ['\n']) {parts : List Part} (h : ∀ p ∈ parts, p.Ok)
    (last : Option (Str × List Str)) (b : Bool) :
    parseHeaders last b (withEnds e (parts.flatMap Part.lines)) =
      (last.map fun (l, more) => headerParse l more).toList ++
        (parts.filterMap Part.field?).map fun f => (f.name, f.text) := by
  induction parts generalizing last b with
  | nil => simp [withEnds, parseHeaders]
  | cons p ps ih =>
    have hp := h p (by simp)
    have ih := fun last b => ih (fun g hg => h g (by simp [hg])) last b
    obtain ⟨e', he', hsplit⟩ := withEnds_split he p.lines (ps.flatMap Part.lines)
    rw [List.flatMap_cons, hsplit]
    cases p with
    | field f =>
      obtain ⟨t, more, h1, h2, h3⟩ := headerParse_field hp he'
      obtain ⟨-, n2, n3, n4⟩ := name_line hp t
      show parseHeaders last b (withEnds e' f.lines ++ _) = _
      rw [h1, List.cons_append, parseHeaders.eq_def]
      simp only [n2, Bool.false_eq_true, if_false]
      rw [n3]
      simp only [Bool.false_eq_true, if_false]
      rw [if_neg n4]
      obtain ⟨b', hb⟩ := parse_more (f.name ++ ':' :: f.blanks ++ f.value ++ t) [] false h3
        (withEnds e (ps.flatMap Part.lines))
      rw [hb, ih, List.nil_append]
      simpa [Part.field?] using h2
    | skipped line more =>
      obtain ⟨h1, h2⟩ := hp
      obtain ⟨t, more', h3, ht, -⟩ := withEnds_first he' more
      have hm : ∀ l ∈ more', (l.head?.map isBlank).getD false = true := by
        intro l hl
        cases more with
        | nil =>
          have := h3 line
          simp only [withEnds] at this
          injection this with _ this
          rw [← this] at hl
          cases hl
        | cons m ms =>
          have := h3 line
          simp only [withEnds] at this
          injection this with _ this
          rw [← this] at hl
          obtain ⟨x, hx, t', ht', rfl⟩ := mem_withEnds' he' hl
          exact (goesOn_iff _).mpr ((goesOn_end x ht').mpr (h2 x hx))
      show parseHeaders last b (withEnds e' (line :: more) ++ _) = _
      rw [h3, List.cons_append, parseHeaders.eq_def]
      have hnb : ((line ++ t).head?.map isBlank).getD false = false := by
        rcases h1 with ⟨r, rfl⟩ | ⟨r, rfl⟩
        · rfl
        · rfl
      obtain ⟨b', hb⟩ := parse_strays false hm (withEnds e (ps.flatMap Part.lines))
      have hgo : parseHeaders none false (more' ++ withEnds e (ps.flatMap Part.lines)) =
          (ps.filterMap Part.field?).map fun f => (f.name, f.text) := by
        rw [hb, ih]
        rfl
      simp only [hnb, Bool.false_eq_true, if_false]
      have hr : (Part.skipped line more :: ps).filterMap Part.field? = ps.filterMap Part.field? := rfl
      rw [hr]
      congr 1
      split
      · split
        · rename_i hh
          simp only [Bool.and_eq_true, List.isEmpty_iff] at hh
          rw [hh.2] at hgo
          rw [← hgo]
          rfl
        · exact hgo
      · rename_i hf
        rcases h1 with h1 | ⟨r, rfl⟩
        · exact absurd ((from_iff line ht).mpr h1) hf
        · rw [List.cons_append, if_pos (by rfl)]
          exact hgo

/-- C77: exactly the fields are read. -/
theorem C77_fields {fields : List Field} {text : Str} (h : File fields text) :
    headers text = fields.map fun f => (f.name, f.text) := by
  obtain ⟨strays, parts, rest, h1, h2, h3, rfl, h4⟩ := h
  obtain ⟨⟨e, he, h5⟩, h6⟩ := lines_fileLines h1
  unfold headers
  rw [h5]
  obtain ⟨e1, he1, h7⟩ := withEnds_split he (strays ++ parts.flatMap Part.lines) rest
  obtain ⟨e2, he2, h8⟩ := withEnds_split he1 strays (parts.flatMap Part.lines)
  have hs : ∀ l ∈ withEnds e2 strays, (l.head?.map isBlank).getD false = true := by
    intro l hl
    obtain ⟨x, hx, t, ht, rfl⟩ := mem_withEnds' he2 hl
    exact (goesOn_iff _).mpr ((goesOn_end x ht).mpr (h2 x hx))
  have hall : ∀ l ∈ withEnds e1 (strays ++ parts.flatMap Part.lines), headerLine l = true := by
    intro l hl
    obtain ⟨x, hx, t, ht, rfl⟩ := mem_withEnds' he1 hl
    rw [headerLine_iff x ht]
    rcases List.mem_append.mp hx with hx | hx
    · exact .inl (h2 x hx)
    · obtain ⟨p, hp, hx⟩ := List.mem_flatMap.mp hx
      have hp := h3 p hp
      cases p with
      | field f =>
        rcases List.mem_cons.mp hx with rfl | hx
        · exact .inr (.inr ⟨f.name, f.blanks ++ f.value, by simp, hp.name.2⟩)
        · exact .inl (hp.more x hx).2
      | skipped line more =>
        rcases List.mem_cons.mp hx with rfl | hx
        · exact .inr (.inl hp.1)
        · exact .inl (hp.2 x hx)
  have htail : (withEnds e rest).takeWhile headerLine = [] := by
    cases rest with
    | nil => rfl
    | cons l r =>
      obtain ⟨t, more, h9, ht, -⟩ := withEnds_first he r
      rw [h9 l, List.takeWhile_cons, if_neg]
      rw [headerLine_iff l ht]
      have := h4 l r rfl
      rintro (h | h | h)
      · exact this.1 h
      · exact this.2.1 h
      · exact this.2.2 h
  rw [h7, List.takeWhile_append_of_pos hall, htail, List.append_nil, h8]
  obtain ⟨b', hb⟩ := parse_strays true hs (withEnds e1 (parts.flatMap Part.lines))
  rw [hb, parse_parts he1 h3]
  rfl

theorem text_lines (text : Str) : ∃ ls, Lines text ls := by
  suffices H : ∀ n (text : Str), text.length ≤ n → ∃ ls, Lines text ls from H _ text (Nat.le_refl _)
  intro n
  induction n with
  | zero =>
    intro text h
    cases text with
    | nil => exact ⟨[], .nil⟩
    | cons c r => simp at h
  | succ n ih =>
    intro text h
    have hbreak : ∀ l : Str, (∀ c ∈ l, (c != '\n' && c != '\r') = true) → NoBreak l := by
      intro l hl
      constructor
      · intro hc; have := hl _ hc; simp at this
      · intro hc; have := hl _ hc; simp at this
    let p : Char → Bool := fun c => c != '\n' && c != '\r'
    have hl : NoBreak (text.takeWhile p) := hbreak _ fun c hc => mem_takeWhile_imp' hc
    have ht : text = text.takeWhile p ++ text.dropWhile p := (List.takeWhile_append_dropWhile ..).symm
    cases hd : text.dropWhile p with
    | nil =>
      rw [hd, List.append_nil] at ht
      by_cases hn : text = []
      · exact ⟨[], hn ▸ .nil⟩
      · exact ⟨[text], .last (ht ▸ hl) hn⟩
    | cons c r =>
      have hc : p c = false := by
        have := List.head?_dropWhile_not p text
        rw [hd] at this
        simpa using this
      rw [hd] at ht
      have hlen : r.length < text.length := by rw [ht]; simp; omega
      have hc : c = '\n' ∨ c = '\r' := by simpa [p, Classical.or_iff_not_imp_left] using hc
      rw [ht]
      rcases hc with rfl | rfl
      · obtain ⟨ls, h1⟩ := ih r (by omega)
        exact ⟨_, .lf hl h1⟩
      · cases r with
        | nil => exact ⟨_, .cr hl (by simp) .nil⟩
        | cons d r =>
          by_cases hdn : d = '\n'
          · subst hdn
            obtain ⟨ls, h1⟩ := ih r (by simp at hlen; omega)
            exact ⟨_, .crlf hl h1⟩
          · obtain ⟨ls, h1⟩ := ih (d :: r) (by omega)
            exact ⟨_, .cr hl (by simpa using hdn) h1⟩

/-- C77: every text is a file with some fields. -/
theorem C77_all (text : Str) : ∃ fields, File fields text := by
  obtain ⟨ls, h⟩ := text_lines text
  have hb := (lines_fileLines h).2
  suffices H : ∃ (strays : List Str) (parts : List Part) (rest : List Str), ls = strays ++ parts.flatMap Part.lines ++ rest ∧ (∀ l ∈ strays, GoesOn l) ∧
      (∀ p ∈ parts, p.Ok) ∧ ∀ l r, rest = l :: r → ¬ GoesOn l ∧ ¬ Skipped l ∧ ¬ Begins l by
    obtain ⟨strays, parts, rest, rfl, h1, h2, h3⟩ := H
    exact ⟨_, strays, parts, rest, h, h1, h2, rfl, h3⟩
  clear h
  induction ls with
  | nil => exact ⟨[], [], [], rfl, by simp, by simp, fun l r h => by cases h⟩
  | cons l ls ih =>
    obtain ⟨strays, parts, rest, rfl, h2, h3, h4⟩ := ih fun l hl => hb l (by simp [hl])
    have hl := hb l (by simp)
    by_cases hg : GoesOn l
    · refine ⟨l :: strays, parts, rest, rfl, ?_, h3, h4⟩
      intro x hx
      rcases List.mem_cons.mp hx with rfl | hx
      · exact hg
      · exact h2 x hx
    by_cases hs : Skipped l
    · refine ⟨[], .skipped l strays :: parts, rest, by simp [Part.lines], by simp, ?_, h4⟩
      intro p hp
      rcases List.mem_cons.mp hp with rfl | hp
      · exact ⟨hs, h2⟩
      · exact h3 p hp
    by_cases hf : Begins l
    · obtain ⟨name, v, rfl, hn⟩ := hf
      have hbl : ∀ c ∈ v.takeWhile isBlank, Blank c := fun c hc => (blank_iff c).mp (mem_takeWhile_imp' hc)
      have hv : v = v.takeWhile isBlank ++ v.dropWhile isBlank := (List.takeWhile_append_dropWhile ..).symm
      refine ⟨[], .field ⟨name, v.takeWhile isBlank, v.dropWhile isBlank, strays⟩ :: parts, rest, ?_, by simp, ?_, h4⟩
      · simp [Part.lines, Field.lines]
      · intro p hp
        rcases List.mem_cons.mp hp with rfl | hp
        · refine ⟨⟨?_, hn⟩, hbl, ⟨?_, ?_⟩, fun x hx => ⟨hb x ?_, h2 x hx⟩⟩
          · intro h
            have h : name = [] := h
            subst h
            exact hs (.inr ⟨v, rfl⟩)
          · have hsub : ∀ c ∈ v.dropWhile isBlank, c ∈ v := fun c hc => (List.dropWhile_sublist _).subset hc
            exact ⟨fun hc => hl.1 (by simp [hsub _ hc]), fun hc => hl.2 (by simp [hsub _ hc])⟩
          · intro c r he hc
            have := List.head?_dropWhile_not isBlank v
            rw [show v.dropWhile isBlank = c :: r from he] at this
            simp [(blank_iff c).mpr hc] at this
          · have : x ∈ strays := hx
            simp [this]
        · exact h3 p hp
    · refine ⟨[], [], l :: (strays ++ parts.flatMap Part.lines ++ rest), rfl, by simp, by simp, ?_⟩
      rintro _ _ h
      cases h
      exact ⟨hg, hs, hf⟩

/-- C77: the value that is looked up is that of the first field with the name, in upper or lower case. -/
theorem C77_value {fields : List Field} {text : Str} (h : File fields text) (name value : Str) :
    strHeader name (headers text) = some value ↔ Says fields name value := by
  rw [C77_fields h]
  unfold strHeader Says
  have hcalled : ∀ f : Field, (lower f.name == lower name) = true ↔ f.Called name := by
    intro f
    simp [lower, Field.Called]
  constructor
  · intro hs
    rw [List.find?_map] at hs
    cases hf : fields.find? ((fun h : Str × Str => lower h.1 == lower name) ∘ fun f => (f.name, f.text)) with
    | none => rw [hf] at hs; cases hs
    | some f =>
      rw [hf] at hs
      simp only [Option.map_some] at hs
      split at hs
      · rename_i hasc
        cases hs
        obtain ⟨h1, a, b, h2, h3⟩ := List.find?_eq_some_iff_append.mp hf
        refine ⟨a, f, b, h2, (hcalled f).mp h1, ?_, rfl, ?_⟩
        · intro g hg hc
          have := h3 g hg
          have h4 := (hcalled g).mpr hc
          simp only [Function.comp] at this
          rw [h4] at this
          cases this
        · simpa using hasc
      · cases hs
  · rintro ⟨a, f, b, rfl, h1, h2, rfl, h3⟩
    rw [List.find?_map]
    have : (a ++ f :: b).find? ((fun h : Str × Str => lower h.1 == lower name) ∘ fun f => (f.name, f.text)) = some f := by
      rw [List.find?_eq_some_iff_append]
      refine ⟨(hcalled f).mpr h1, a, b, rfl, ?_⟩
      intro g hg
      simp only [Function.comp]
      have : ¬ (lower g.name == lower name) = true := fun h => h2 g hg ((hcalled g).mp h)
      simpa using this
    rw [this]
    simp only [Option.map_some]
    rw [if_pos]
    simpa using h3

/-- C77: the distribution has the name and the version in METADATA; when one of them is not there, or is not ASCII, there is
an `AssertionError`. -/
theorem C77_distribution {W : Type} (env : DistEnv W) {fields : List Field} {info : Str} (h : File fields info)
    (d : Str) (w w1 : W) (hm : env.metadata d w = (.ok info, w1)) :
    (∀ name version, Says fields c!"Name" name → Says fields c!"Version" version →
      createDistribution env d w = match env.record d w1 with
        | (.error e, w2) => (.error e, w2)
        | (.ok text, w2) =>
          (.ok (Dist.mk d name version (recordFiles d text).eraseDups (recordNames env text).eraseDups), w2)) ∧
    ((¬ ∃ name version, Says fields c!"Name" name ∧ Says fields c!"Version" version) →
      createDistribution env d w = (.error .assertion, w1)) := by
  unfold createDistribution
  rw [hm]
  simp only
  refine ⟨fun name version h1 h2 => ?_, fun hno => ?_⟩
  · simp only [(C77_value h _ _).mpr h1, (C77_value h _ _).mpr h2]
    rfl
  · cases hn : strHeader c!"Name" (headers info) with
    | none => rfl
    | some name =>
      cases hv : strHeader c!"Version" (headers info) with
      | none => rfl
      | some version => exact absurd ⟨_, _, (C77_value h _ _).mp hn, (C77_value h _ _).mp hv⟩ hno

/-- Fields of a distribution; the author is written in two lines. -/
def someFields : List Field :=
  [⟨c!"Metadata-Version", c!" ", c!"2.1", []⟩, ⟨c!"name", c!" ", c!"Box", []⟩, ⟨c!"Author", c!"\t ", c!"A", [c!"  B: C"]⟩,
   ⟨c!"VERSION", [], c!"1.0", []⟩]

theorem someFields_ok : ∀ f ∈ someFields, f.Ok := by
  intro f hf
  have hb : ∀ c, c = ' ' ∨ c = '\t' → Blank c := fun _ h => h
  simp only [someFields, List.mem_cons, List.not_mem_nil, or_false] at hf
  rcases hf with rfl | rfl | rfl | rfl <;>
    exact ⟨by decide, (by intro c hc; exact hb c (by revert c; decide)), ⟨⟨by decide, by decide⟩, by
      intro c r h; cases h; unfold Blank; decide⟩, by
      intro l hl
      first
        | (cases hl; done)
        | (simp at hl; subst hl; exact ⟨⟨by decide, by decide⟩, ' ', _, rfl, .inl rfl⟩)⟩

/-- A METADATA file with a stray line, lines that are skipped, several kinds of line ends and a description that looks like a
field. -/
theorem someFile : File someFields
    c!" x: 1\r\nMetadata-Version: 2.1\r\nname: Box\rAuthor:\t A\n  B: C\nFrom me: x\n y\n: z\nVERSION:1.0\r\n\r\nVersion: 2" := by
  refine ⟨[c!" x: 1"], [.field ⟨c!"Metadata-Version", c!" ", c!"2.1", []⟩, .field ⟨c!"name", c!" ", c!"Box", []⟩,
    .field ⟨c!"Author", c!"\t ", c!"A", [c!"  B: C"]⟩, .skipped c!"From me: x" [c!" y"], .skipped c!": z" [],
    .field ⟨c!"VERSION", [], c!"1.0", []⟩], [[], c!"Version: 2"], ?_, ?_, ?_, rfl, ?_⟩
  · exact .crlf (l := c!" x: 1") ⟨by decide, by decide⟩ (.crlf (l := c!"Metadata-Version: 2.1") ⟨by decide, by decide⟩
      (.cr (l := c!"name: Box") ⟨by decide, by decide⟩ (by decide) (.lf (l := c!"Author:\t A") ⟨by decide, by decide⟩
      (.lf (l := c!"  B: C") ⟨by decide, by decide⟩ (.lf (l := c!"From me: x") ⟨by decide, by decide⟩ (.lf (l := c!" y") ⟨by decide, by decide⟩
      (.lf (l := c!": z") ⟨by decide, by decide⟩ (.crlf (l := c!"VERSION:1.0") ⟨by decide, by decide⟩ (.crlf (l := []) ⟨by decide, by decide⟩
      (.last ⟨by decide, by decide⟩ (by decide)))))))))))
  · intro l hl
    cases List.mem_singleton.mp hl
    exact ⟨' ', _, rfl, .inl rfl⟩
  · intro p hp
    simp only [List.mem_cons, List.not_mem_nil, or_false] at hp
    rcases hp with rfl | rfl | rfl | rfl | rfl | rfl
    · exact someFields_ok _ (by simp [someFields])
    · exact someFields_ok _ (by simp [someFields])
    · exact someFields_ok _ (by simp [someFields])
    · refine ⟨.inl ⟨c!"me: x", rfl⟩, fun l hl => ?_⟩
      cases List.mem_singleton.mp hl
      exact ⟨' ', _, rfl, .inl rfl⟩
    · exact ⟨.inr ⟨c!" z", rfl⟩, by simp⟩
    · exact someFields_ok _ (by simp [someFields])
  · intro l r h
    cases h
    refine ⟨?_, ?_, ?_⟩
    · rintro ⟨c, r, h, _⟩; cases h
    · rintro (⟨r, h⟩ | ⟨r, h⟩) <;> cases h
    · rintro ⟨name, r, h, _⟩
      cases name <;> cases h

example : Says someFields c!"Name" c!"Box" ∧ Says someFields c!"Version" c!"1.0" ∧ Says someFields c!"author" c!"A\n  B: C" := by
  simp only [← C77_value someFile]
  decide +kernel

/-- C77 is false of names that are not ASCII. -/
theorem C77_not_ascii : strHeader c!"Name" (headers c!"Name: Bücher\nVersion: 1\n") = none := by decide +kernel

end Verif.Props
