import Verif.Props.Distributions
import Verif.Props.Record
import Verif.Props.Paths
import Verif.Props.Metadata
import Verif.Spec.ShelfSpec
/-!
# Looking up distributions on disk
-/
namespace Verif.Proj
open Verif Spec Props
variable {V W : Type}

/-- The object for a dist-info directory. -/
def shelfObject (S : Shelf) (d : Str) : Option Dist :=
  (S.info d).map fun i =>
    { identifier := d, name := i.name, version := i.version,
      files := (i.rows.map fun row => S.file d row.path).eraseDups,
      importNames := (i.rows.filterMap fun row =>
        importName (c!".py" :: c!".pyc" :: S.suffixes) row.path).eraseDups }

theorem shelfObject_isSome (S : Shelf) (d : Str) : (shelfObject S d).isSome = (S.info d).isSome := by
  unfold shelfObject; simp

theorem shelfObject_ok {S : Shelf} (hs : ∀ x ∈ S.suffixes, x ≠ [] ∧ '/' ∉ x) {d x} (h : shelfObject S d = some x) :
    S.Object d x := by
  unfold shelfObject at h
  cases hi : S.info d with
  | none => rw [hi] at h; cases h
  | some i =>
    rw [hi] at h
    simp only [Option.map_some, Option.some.injEq] at h
    subst h
    refine ⟨rfl, i, hi, rfl, rfl, fun f => ?_, fun m => ?_⟩
    · simp only [List.mem_eraseDups, List.mem_map]
      exact ⟨fun ⟨r, h, e⟩ => ⟨r, h, e.symm⟩, fun ⟨r, h, e⟩ => ⟨r, h, e.symm⟩⟩
    · have hs' : ∀ x ∈ c!".py" :: c!".pyc" :: S.suffixes, '/' ∉ x := by
        intro x hx
        simp only [List.mem_cons] at hx
        rcases hx with rfl | rfl | hx
        · decide
        · decide
        · exact (hs x hx).2
      simp only [List.mem_eraseDups, List.mem_filterMap, importName_iff hs']

theorem recordNames_rows {D : DistEnv W} {rows : List Row} {text : Str} (h : CsvFile rows text) :
    recordNames D text = rows.filterMap fun row => importName (c!".py" :: c!".pyc" :: D.extSuffixes) row.path := by
  have := csv_paths h
  unfold recordNames
  calc _ = ((fileLines (universal text)).map recordPath).filterMap
          (importName (c!".py" :: c!".pyc" :: D.extSuffixes)) := by
        rw [List.filterMap_map]; rfl
    _ = _ := by rw [this, List.filterMap_map]; rfl

theorem infosIn_slash {S : Shelf} {J : W → Prop} {D : DistEnv W} (hS : S.OnDisk J D) {p name} (hp : p ∈ S.path)
    (hn : name ∈ ((S.list p).getD []).filter fun f => DistInfo f) : '/' ∉ name := by
  have hn := (List.mem_filter.mp hn).1
  cases hl : S.list p with
  | none => rw [hl] at hn; cases hn
  | some l =>
    rw [hl] at hn
    exact (hS.entries p hp l hl).1 name hn

/-- Reading a dist-info directory. -/
theorem shelf_create {S : Shelf} {J : W → Prop} {D : DistEnv W} (hS : S.OnDisk J D) {p d} (hp : p ∈ S.path)
    (hd : d ∈ S.infosIn p) {w} (hw : J w) :
    J (createDistribution D d w).2 ∧
      (createDistribution D d w).1 = match shelfObject S d with | some x => .ok x | none => .error .osError := by
  unfold createDistribution
  cases hi : S.info d with
  | none =>
    have ho : shelfObject S d = none := by unfold shelfObject; rw [hi]; rfl
    rw [ho]
    rcases hS.unread p hp d hd hi with h | ⟨fields, info, name, version, m1, m2, m3, h1, h2⟩
    · obtain ⟨h1, h2⟩ := h w hw
      cases hm : D.metadata d w with
      | mk r w1 =>
        rw [hm] at h1 h2
        simp only at h1
        subst h1
        exact ⟨h2, rfl⟩
    · obtain ⟨h3, h4⟩ := h1 w hw
      cases hm : D.metadata d w with
      | mk r w1 =>
        rw [hm] at h3 h4
        simp only at h3
        subst h3
        obtain ⟨h5, h6⟩ := h2 w1 h4
        simp only [(C77_value m1 _ _).mpr m2, (C77_value m1 _ _).mpr m3]
        cases hr : D.record d w1 with
        | mk r w2 =>
          rw [hr] at h5 h6
          simp only at h5
          subst h5
          exact ⟨h6, rfl⟩
  | some i =>
    unfold shelfObject
    rw [hi, Option.map_some]
    obtain ⟨⟨fields, info, m1, m2, m3, h1⟩, text, ht, h2⟩ := hS.read p hp d hd i hi
    obtain ⟨h3, h4⟩ := h1 w hw
    cases hm : D.metadata d w with
    | mk r w1 =>
      rw [hm] at h3 h4
      simp only at h3
      subst h3
      obtain ⟨h5, h6⟩ := h2 w1 h4
      simp only [(C77_value m1 _ _).mpr m2, (C77_value m1 _ _).mpr m3]
      cases hr : D.record d w1 with
      | mk r w2 =>
        rw [hr] at h5 h6
        simp only at h5
        subst h5
        refine ⟨h6, ?_⟩
        have hfile : ∀ rel, absPath d rel = S.file d rel := by
          intro rel
          obtain ⟨name, hn, rfl⟩ := List.mem_map.mp hd
          have hslash := infosIn_slash hS hp hn
          exact C76_file hslash (hS.file p hp name hslash rel)
        simp only [C26_roundtrip d ht, recordNames_rows ht, hfile, hS.suffixes]

/-- The states. -/
def ShelfState (S : Shelf) (J : W → Prop) (s : DSt W) : Prop := J s.world ∧ Remembers (shelfObject S) s

theorem shelf_cached {S : Shelf} {J : W → Prop} {D : DistEnv W} (hS : S.OnDisk J D) {p d} (hp : p ∈ S.path)
    (hd : d ∈ S.infosIn p) {s : DSt W} (h : ShelfState S J s) :
    ShelfState S J (cachedDistribution D d s).2 ∧
      match shelfObject S d with
      | some x => ∃ o, (cachedDistribution D d s).1 = .ok o ∧ o.dist = x
      | none => (cachedDistribution D d s).1 = .error .osError := by
  unfold cachedDistribution
  cases hl : s.cache.lookup d with
  | some o =>
    rw [h.2 d o hl]
    exact ⟨h, o, rfl, rfl⟩
  | none =>
    obtain ⟨h1, h2⟩ := shelf_create hS hp hd h.1
    cases hc : createDistribution D d s.world with
    | mk r w =>
      rw [hc] at h1 h2
      simp only at h2
      subst h2
      cases ho : shelfObject S d with
      | none => exact ⟨⟨h1, h.2⟩, rfl⟩
      | some x =>
        refine ⟨⟨h1, ?_⟩, _, rfl, rfl⟩
        intro d' o' hl'
        simp only [List.lookup_cons] at hl'
        split at hl'
        · rename_i he
          simp at he hl'
          subst he hl'
          exact ho
        · exact h.2 d' o' hl'

/-- What a search finds in these directories. -/
def shelfFind (S : Shelf) (stop : Dist → Bool) (l : List Str) : Option Dist :=
  ((l.takeWhile fun d => (S.info d).isSome).find? fun d => (shelfObject S d).any stop).bind (shelfObject S)

theorem shelfFind_cons (S : Shelf) (stop : Dist → Bool) (d : Str) (l : List Str) :
    shelfFind S stop (d :: l) =
      match shelfObject S d with
      | none => none
      | some x => if stop x then some x else shelfFind S stop l := by
  unfold shelfFind
  rw [List.takeWhile_cons, ← shelfObject_isSome]
  cases h : shelfObject S d with
  | none => rfl
  | some x =>
    simp only [Option.isSome_some, if_true, List.find?_cons, h, Option.any_some]
    cases hst : stop x with
    | true => simp [h]
    | false => simp

theorem shelf_scanDir {S : Shelf} {J : W → Prop} {D : DistEnv W} (hS : S.OnDisk J D) (stop : Dist → Bool) {p}
    (hp : p ∈ S.path) (l : List Str) (hN : ∀ f ∈ l, '/' ∉ f) (hI : ∀ f ∈ l, DistInfo f → inDir p f ∈ S.infosIn p)
    {s : DSt W} (h : ShelfState S J s) :
    ShelfState S J (scanDir D stop p l s).2 ∧
      (((scanDir D stop p l s).1 = .error .osError ∧
        shelfFind S stop ((l.filter fun f => DistInfo f).map (inDir p)) = none) ∨
      ∃ o, (scanDir D stop p l s).1 = .ok o ∧
        o.map DObj.dist = shelfFind S stop ((l.filter fun f => DistInfo f).map (inDir p))) := by
  induction l generalizing s with
  | nil => exact ⟨h, .inr ⟨none, rfl, rfl⟩⟩
  | cons f l ih =>
    have ih := @ih (fun f' hf' => hN f' (by simp [hf'])) fun f' hf' => hI f' (by simp [hf'])
    have hd : endsWith c!".dist-info" f = true ↔ DistInfo f := by
      unfold endsWith DistInfo
      rw [List.isSuffixOf_iff_suffix]
      exact ⟨fun ⟨p, h⟩ => ⟨p, h.symm⟩, fun ⟨p, h⟩ => ⟨p, h.symm⟩⟩
    unfold scanDir
    rw [pathJoin_eq (hN f (by simp))]
    by_cases hf : DistInfo f
    · have hf' := hd.mpr hf
      have he : (f :: l).filter (fun f => DistInfo f) = f :: l.filter fun f => DistInfo f := by
        simp [hf]
      rw [he, List.map_cons, shelfFind_cons]
      simp only [hf', Bool.not_true, Bool.false_eq_true, if_false]
      have hc := shelf_cached hS hp (hI f (by simp) hf) h
      cases hr : cachedDistribution D (inDir p f) s with
      | mk r s1 =>
        rw [hr] at hc
        cases ho : shelfObject S (inDir p f) with
        | none =>
          rw [ho] at hc
          simp only at hc
          rw [hc.2]
          exact ⟨hc.1, .inl ⟨rfl, rfl⟩⟩
        | some x =>
          rw [ho] at hc
          obtain ⟨o, h1, h2⟩ := hc.2
          simp only at h1
          subst h1 h2
          have h3 : ShelfState S J { s1 with yielded := s1.yielded ++ [(inDir p f, o)] } := hc.1
          cases hst : stop o.dist with
          | true =>
            simp only [hst, if_true]
            exact ⟨h3, .inr ⟨some o, rfl, rfl⟩⟩
          | false =>
            simp only [hst, Bool.false_eq_true, if_false]
            exact ih h3
    · have hf' : endsWith c!".dist-info" f = false := by
        cases hh : endsWith c!".dist-info" f with
        | true => exact absurd (hd.mp hh) hf
        | false => rfl
      have he : (f :: l).filter (fun f => DistInfo f) = l.filter fun f => DistInfo f := by simp [hf]
      rw [he]
      simp only [hf', Bool.not_false, if_true]
      exact ih h

theorem shelf_scanPath {S : Shelf} {J : W → Prop} {D : DistEnv W} (hS : S.OnDisk J D) (stop : Dist → Bool)
    (path : List Str) (hp : ∀ p ∈ path, p ∈ S.path) {s : DSt W} (h : ShelfState S J s) :
    ShelfState S J (scanPath D stop path s).2 ∧
      ∃ o, (scanPath D stop path s).1 = .ok o ∧ o.map DObj.dist =
        ((path.flatMap fun p => (S.infosIn p).takeWhile fun d => (S.info d).isSome).find?
          fun d => (shelfObject S d).any stop).bind (shelfObject S) := by
  induction path generalizing s with
  | nil => exact ⟨h, none, rfl, rfl⟩
  | cons p path ih =>
    have ih := @ih fun q hq => hp q (by simp [hq])
    have hp := hp p (by simp)
    rw [List.flatMap_cons, List.find?_append]
    unfold scanPath
    cases hl : S.list p with
    | none =>
      obtain ⟨h1, h2⟩ := hS.unlisted p hp hl s.world h.1
      cases hc : D.listdir p s.world with
      | mk r w =>
        rw [hc] at h1 h2
        simp only at h1
        subst h1
        have hn : S.infosIn p = [] := by unfold Shelf.infosIn; rw [hl]; rfl
        simp only [hn, List.takeWhile_nil, List.find?_nil, Option.none_or, if_true]
        exact ih ⟨h2, h.2⟩
    | some l =>
      obtain ⟨hN, hy⟩ := hS.entries p hp l hl
      obtain ⟨h1, h2⟩ := hy s.world h.1
      have hi : S.infosIn p = (l.filter fun f => DistInfo f).map (inDir p) := by
        unfold Shelf.infosIn; rw [hl]; rfl
      cases hc : D.listdir p s.world with
      | mk r w =>
        rw [hc] at h1 h2
        simp only at h1
        subst h1
        have hd := shelf_scanDir hS stop hp l hN (fun f hf hf' => by
          rw [hi]; exact List.mem_map.mpr ⟨f, List.mem_filter.mpr ⟨hf, by simpa using hf'⟩, rfl⟩)
          (s := { s with world := w }) ⟨h2, h.2⟩
        rw [← hi] at hd
        simp only []
        have hn : shelfFind S stop (S.infosIn p) = none →
            ((S.infosIn p).takeWhile fun d => (S.info d).isSome).find? (fun d => (shelfObject S d).any stop) = none := by
          intro hx
          unfold shelfFind at hx
          cases hf : ((S.infosIn p).takeWhile fun d => (S.info d).isSome).find?
              (fun d => (shelfObject S d).any stop) with
          | none => rfl
          | some d =>
            have := List.find?_some hf
            rw [hf] at hx
            simp only [Option.bind_some] at hx
            rw [hx] at this
            cases this
        cases hr : scanDir D stop p l { s with world := w } with
        | mk r s1 =>
          rw [hr] at hd
          obtain ⟨h3, h4⟩ := hd
          rcases h4 with ⟨h4, h5⟩ | ⟨o, h4, h5⟩
          · simp only at h4
            subst h4
            simp only [if_true, hn h5, Option.none_or]
            exact ih h3
          · simp only at h4
            subst h4
            cases o with
            | none =>
              simp only [Option.map_none] at h5
              simp only [hn h5.symm, Option.none_or]
              exact ih h3
            | some o =>
              refine ⟨h3, some o, rfl, ?_⟩
              rw [h5]
              unfold shelfFind at h5 ⊢
              cases hf : ((S.infosIn p).takeWhile fun d => (S.info d).isSome).find?
                  (fun d => (shelfObject S d).any stop) with
              | none => rw [hf] at h5; cases h5
              | some d => rfl

/-- `distribution_named`. -/
theorem shelf_named {S : Shelf} {J : W → Prop} {D : DistEnv W} (hS : S.OnDisk J D) (name : Str) {s : DSt W}
    (h : ShelfState S J s) :
    ShelfState S J (distributionNamed D name none s).2 ∧
      (distributionNamed D name none s).1.map (Option.map DObj.dist) = .ok ((S.named name).bind (shelfObject S)) := by
  unfold distributionNamed allDistributions
  rw [Option.getD_none, hS.path _ h.1]
  obtain ⟨h1, o, h2, h3⟩ := shelf_scanPath hS (fun d => d.name == name) S.path (fun _ h => h) h
  refine ⟨h1, ?_⟩
  rw [h2]
  simp only [Except.map, h3]
  unfold Shelf.named Shelf.dirs
  congr 3
  funext d
  unfold shelfObject
  cases S.info d with
  | none => rfl
  | some i =>
    simp only [Option.map_some, Option.any_some]
    rw [Bool.eq_iff_iff]
    simp

/-- `distribution_for_file`. -/
theorem shelf_owner {S : Shelf} {J : W → Prop} {D : DistEnv W} (hS : S.OnDisk J D) (file : Str) {s : DSt W}
    (h : ShelfState S J s) :
    ShelfState S J (distributionForFile D file (some (D.sysPath s.world)) s).2 ∧
      (distributionForFile D file (some (D.sysPath s.world)) s).1.map (Option.map DObj.dist) =
        .ok ((S.owner file).bind (shelfObject S)) := by
  unfold distributionForFile allDistributions
  rw [Option.getD_some, hS.path _ h.1]
  obtain ⟨h1, o, h2, h3⟩ := shelf_scanPath hS (fun d => d.files.contains file) S.path (fun _ h => h) h
  refine ⟨h1, ?_⟩
  rw [h2]
  simp only [Except.map, h3]
  unfold Shelf.owner Shelf.dirs
  congr 3
  funext d
  unfold shelfObject
  cases S.info d with
  | none => rfl
  | some i =>
    simp only [Option.map_some, Option.any_some]
    rw [Bool.eq_iff_iff]
    simp

end Verif.Proj
