import Verif.Spec.ProjectSpec
import Verif.Props.Statements
import Verif.Proofs.ExactNames
/-!
# Records of the scanner and statements in the text of a project
-/
namespace Verif.Proj
open Verif Spec

/-- The records `l` are those of the import statements in the tree. -/
structure Recs (tree : Ast) (l : List ImportInfo) : Prop where
  sound : ∀ i ∈ l, ∃ way x e, Nested tree way x ∧ e ∈ entries (way, x) ∧ Spec.Describes i e
  complete : ∀ way x e, Nested tree way x → e ∈ entries (way, x) → ∃ i ∈ l, Spec.Describes i e

theorem Recs.ast {ord : SetOrder} (ho : ord.Ok) (tree : Ast) : Recs tree (extractAstInfo ord tree) :=
  ⟨fun _ hi => Props.scan_sound ho hi, fun _ _ _ h1 h2 => Props.scan_complete ho h1 h2⟩

variable {l : List ImportInfo}

theorem says_unique {way b a} {d d' : DepInfo} (h : EdgeSays way b a d) (h' : EdgeSays way b a d') : d = d' := by
  have h1 := h.optional.trans h'.optional.symm
  have h2 := h.global.trans h'.global.symm
  have h3 := h.fromlist.trans h'.fromlist.symm
  have h4 := h.asname.trans h'.asname.symm
  cases d; cases d'
  simp only at h1 h2 h3 h4
  rw [Bool.eq_iff_iff.mpr h1, Bool.eq_iff_iff.mpr h2, h3, h4]

/-- The names with dots in front mean the same. -/
theorem means_iff {m : Node} {i : ImportInfo} {x : Str} {pkg : Bool} (hx : m.ident = x)
    (hp : (m.isPackage || m.isNamespacePkg) = pkg) {level : Nat} (hl : i.importLevel = level) {name : Str}
    (hn : i.importModule.name = name) (t : Str) : MeansName x pkg level name t ↔ Refers m i t := by
  subst hx hl hn
  constructor
  · intro h
    cases h with
    | absolute h => exact .absolute h
    | relative kept rest h1 h2 h3 h4 h5 => exact .relative kept rest h1 h2 h3 h4 (by rw [h5, ← hp]; rfl)
  · intro h
    cases h with
    | absolute h => exact .absolute h
    | relative kept rest h1 h2 h3 h4 h5 => exact .relative kept rest h1 h2 h3 h4 (by rw [h5, ← hp]; rfl)

/-- The record `i` of the statement `import t as a`. -/
structure ImportRec (m : Node) (tree : Ast) (i : ImportInfo) (way : List Via) (t : Str) (a : Option Str) : Prop where
  has : HasImport tree way t a
  refers : Refers m i t
  star : i.starImport = false
  names : i.importNames = []
  asname : i.importModule.asname = a
  says : ∀ b a, EdgeSays way b a (fromImportInfo i b a)

/-- The record `i` of the statement `from t import names`. -/
structure FromRec (m : Node) (x : Str) (pkg : Bool) (tree : Ast) (i : ImportInfo) (way : List Via) (t : Str)
    (names : List (Str × Option Str)) : Prop where
  has : HasFrom x pkg tree way t names
  refers : Refers m i t
  star : i.starImport = true ↔ ∃ a, (c!"*", a) ∈ names
  names : ∀ nm a, ((nm, a) ∈ names ∧ nm ≠ c!"*") ↔ ⟨nm, a⟩ ∈ i.importNames
  asname : i.importModule.asname = none
  says : ∀ b a, EdgeSays way b a (fromImportInfo i b a)

/-- The record `i` of the statement `from y import names`, where `y` has too many dots in front. -/
structure OutRec (m : Node) (x : Str) (pkg : Bool) (tree : Ast) (i : ImportInfo) (way : List Via) (y : Str)
    (names : List (Str × Option Str)) : Prop where
  has : HasOutside x pkg tree way y names
  outside : PointsOutside m i
  ident : List.replicate i.importLevel '.' ++ i.importModule.name = y
  names : ∀ nm a, ((nm, a) ∈ names ∧ nm ≠ c!"*") ↔ ⟨nm, a⟩ ∈ i.importNames
  says : ∀ b a, EdgeSays way b a (fromImportInfo i b a)

/-- Names with dots in front mean a module or point outside. -/
theorem means_or_out (x : Str) (pkg : Bool) (level : Nat) (name : Str) :
    (∃ t, MeansName x pkg level name t) ∨ LeadsOut x pkg level := by
  by_cases hl : level = 0
  · exact .inl ⟨_, .absolute hl⟩
  have hl : 0 < level := by omega
  obtain ⟨comps, h1, h3, h2⟩ := exists_comps x
  generalize hk : (if pkg then level - 1 else level) = k
  by_cases hc : comps.length ≤ k
  · exact .inr ⟨hl, comps, h1, h2, h3, by rw [hk]; exact hc⟩
  · refine .inl ⟨_, .relative (comps.take (comps.length - k)) (comps.drop (comps.length - k)) hl ?_ ?_ ?_ ?_⟩
    · rw [List.take_append_drop]; exact h2
    · rw [List.take_append_drop]; exact h3
    · intro h
      have := congrArg List.length h
      simp at this
      omega
    · rw [hk, List.length_drop]; omega

theorem nodup_pair {α β : Type} {l : List (α × β)} (h : (l.map Prod.fst).Nodup) {a : α} {b b' : β}
    (h1 : (a, b) ∈ l) (h2 : (a, b') ∈ l) : b = b' := by
  induction l with
  | nil => cases h1
  | cons p l ih =>
    rw [List.map_cons, List.nodup_cons] at h
    rcases List.mem_cons.mp h1 with e1 | h1 <;> rcases List.mem_cons.mp h2 with e2 | h2
    · rw [← e1] at e2; cases e2; rfl
    · exact absurd (List.mem_map.mpr ⟨_, h2, by rw [← e1]⟩) h.1
    · exact absurd (List.mem_map.mpr ⟨_, h1, by rw [← e2]⟩) h.1
    · exact ih h.2 h1 h2

theorem nodup_name {l : List ImpName} (h : (l.map ImpName.name).Nodup) {a b : ImpName} (h1 : a ∈ l) (h2 : b ∈ l)
    (he : a.name = b.name) : a = b := by
  induction l with
  | nil => cases h1
  | cons p l ih =>
    rw [List.map_cons, List.nodup_cons] at h
    rcases List.mem_cons.mp h1 with e1 | h1 <;> rcases List.mem_cons.mp h2 with e2 | h2
    · rw [e1, e2]
    · exact absurd (List.mem_map.mpr ⟨_, h2, by rw [← he, e1]⟩) h.1
    · exact absurd (List.mem_map.mpr ⟨_, h1, by rw [he, e2]⟩) h.1
    · exact ih h.2 h1 h2

section
variable {P : Project} {conf : Str → Option Implies} {mods scripts : List Str}
  {m : Node} {x : Str} {pkg : Bool} {tree : Ast}

theorem names_from (hC : P.Clear conf mods scripts) (ht : P.Reached conf mods scripts (.text x pkg tree)) {way t names}
    (h : HasFrom x pkg tree way t names) :
    (names.map Prod.fst).Nodup ∧ (∀ nm a b, (c!"*", a) ∈ names → (nm, b) ∈ names → nm = c!"*") ∧
    ∀ nm a, (nm, a) ∈ names → nm ≠ [] ∧ '.' ∉ nm ∧ '/' ∉ nm ∧ nm ≠ c!"swig_import_helper" := by
  obtain ⟨name, level, h, _⟩ := h
  exact hC.names _ _ _ _ _ _ _ ht h

/-- A way to see `Clear.names` when nothing points outside. -/
theorem names_of (hin : ∀ x pkg tree way name names level, P.Reached conf mods scripts (.text x pkg tree) →
      Nested tree way (.importFrom name names level) → ∃ t, MeansName x pkg level (name.getD []) t)
    (hn : ∀ x pkg tree way t names, P.Reached conf mods scripts (.text x pkg tree) → HasFrom x pkg tree way t names →
      (names.map Prod.fst).Nodup ∧ (∀ nm a b, (c!"*", a) ∈ names → (nm, b) ∈ names → nm = c!"*") ∧
      ∀ nm a, (nm, a) ∈ names → nm ≠ [] ∧ '.' ∉ nm ∧ '/' ∉ nm ∧ nm ≠ c!"swig_import_helper") :
    ∀ x pkg tree way name names level, P.Reached conf mods scripts (.text x pkg tree) →
      Nested tree way (.importFrom name names level) →
      (names.map Prod.fst).Nodup ∧ (∀ nm a b, (c!"*", a) ∈ names → (nm, b) ∈ names → nm = c!"*") ∧
      ∀ nm a, (nm, a) ∈ names → nm ≠ [] ∧ '.' ∉ nm ∧ '/' ∉ nm ∧ nm ≠ c!"swig_import_helper" := by
  intro x pkg tree way name names level h1 h2
  obtain ⟨t, ht⟩ := hin _ _ _ _ _ _ _ h1 h2
  exact hn _ _ _ _ _ _ h1 ⟨_, _, h2, ht⟩

/-- The names in a record. -/
theorem rec_names {names : List (Str × Option Str)} (hnd : (names.map Prod.fst).Nodup) {i : ImportInfo} {e : Entry}
    (hd : Describes i e) (hnames : e.names = some names) (nm : Str) (a : Option Str) :
    ((nm, a) ∈ names ∧ nm ≠ c!"*") ↔ ⟨nm, a⟩ ∈ i.importNames := by
  constructor
  · rintro ⟨h, hne⟩
    obtain ⟨⟨n1, a1⟩, h1, rfl⟩ := hd.names_complete names hnames nm a h hne
    obtain ⟨_, l, h2, h3⟩ := hd.names_sound _ h1
    rw [hnames] at h2
    cases h2
    rw [nodup_pair hnd h h3]
    exact h1
  · intro h
    obtain ⟨h1, l, h2, h3⟩ := hd.names_sound _ h
    rw [hnames] at h2
    cases h2
    exact ⟨h3, h1⟩

theorem import_rec {way names} (hn : Nested tree way (.import_ names)) {nm : Str × Option Str} (hnm : nm ∈ names)
    {e : Entry} (he : e ∈ entries (way, .import_ names)) {i : ImportInfo} (hd : Describes i e)
    (hm : e.module = nm.1) (ha : e.asname = nm.2) (hl : e.level = 0) (hns : e.names = none) :
    ImportRec m tree i way nm.1 nm.2 := by
  refine ⟨⟨names, hn, hnm⟩, ?_, ?_, ?_, hd.asname.trans ha, fun b a => Props.EdgeSays.of he hd b a⟩
  · rw [← hm, ← hd.module]
    exact .absolute (hd.level.trans hl)
  · rw [Bool.eq_false_iff]
    intro h
    obtain ⟨l, h, _⟩ := hd.star.mp h
    rw [hns] at h
    cases h
  · apply List.eq_nil_iff_forall_not_mem.mpr
    intro n h
    obtain ⟨_, l, h, _⟩ := hd.names_sound n h
    rw [hns] at h
    cases h

theorem from_rec (hC : P.Clear conf mods scripts) (ht : P.Reached conf mods scripts (.text x pkg tree)) (hx : m.ident = x)
    (hp : (m.isPackage || m.isNamespacePkg) = pkg) {way name names level}
    (hn : Nested tree way (.importFrom name names level)) {t} (hM : MeansName x pkg level (name.getD []) t)
    {e : Entry} (he : e ∈ entries (way, .importFrom name names level)) {i : ImportInfo} (hd : Describes i e) :
    FromRec m x pkg tree i way t names := by
  have he' := he
  simp only [entries, List.mem_singleton] at he'
  have hmod : i.importModule.name = name.getD [] := by rw [hd.module, he']
  have hlev : i.importLevel = level := by rw [hd.level, he']
  have hnames : e.names = some names := by rw [he']
  have hF : HasFrom x pkg tree way t names := ⟨name, level, hn, hM⟩
  obtain ⟨hnd, _, hnm⟩ := hC.names _ _ _ _ _ _ _ ht hn
  refine ⟨hF, (means_iff hx hp hlev hmod t).mp hM, ?_, ?_, ?_, fun b a => Props.EdgeSays.of he hd b a⟩
  · rw [hd.star]
    constructor
    · rintro ⟨l, h, a, ha⟩
      rw [hnames] at h
      cases h
      exact ⟨a, ha⟩
    · rintro ⟨a, ha⟩
      exact ⟨names, hnames, a, ha⟩
  · exact rec_names hnd hd hnames
  · rw [hd.asname, he']

theorem out_rec (hC : P.Clear conf mods scripts) (ht : P.Reached conf mods scripts (.text x pkg tree)) (hx : m.ident = x)
    (hp : (m.isPackage || m.isNamespacePkg) = pkg) {way name names level}
    (hn : Nested tree way (.importFrom name names level)) (hM : LeadsOut x pkg level)
    {e : Entry} (he : e ∈ entries (way, .importFrom name names level)) {i : ImportInfo} (hd : Describes i e) :
    OutRec m x pkg tree i way (List.replicate level '.' ++ name.getD []) names := by
  have he' := he
  simp only [entries, List.mem_singleton] at he'
  have hmod : i.importModule.name = name.getD [] := by rw [hd.module, he']
  have hlev : i.importLevel = level := by rw [hd.level, he']
  have hnames : e.names = some names := by rw [he']
  refine ⟨⟨name, level, hn, hM, rfl⟩, ?_, by rw [hmod, hlev], rec_names (hC.names _ _ _ _ _ _ _ ht hn).1 hd hnames,
    fun b a => Props.EdgeSays.of he hd b a⟩
  subst hx hp hlev
  exact hM

/-- Every record comes from a statement. -/
theorem record_of (hl : Recs tree l) (hC : P.Clear conf mods scripts) (ht : P.Reached conf mods scripts (.text x pkg tree)) (hx : m.ident = x)
    (hp : (m.isPackage || m.isNamespacePkg) = pkg) {i : ImportInfo} (hi : i ∈ l) :
    (∃ way t a, ImportRec m tree i way t a) ∨ (∃ way t names, FromRec m x pkg tree i way t names) ∨
      ∃ way y names, OutRec m x pkg tree i way y names := by
  obtain ⟨way, y, e, h1, h2, h3⟩ := hl.sound i hi
  have he := h2
  cases y <;> simp only [entries, List.not_mem_nil, List.mem_map, List.mem_singleton] at h2
  · obtain ⟨nm, h4, rfl⟩ := h2
    exact .inl ⟨_, _, _, import_rec h1 h4 he h3 rfl rfl rfl rfl⟩
  · rename_i name names level
    rcases means_or_out x pkg level (name.getD []) with ⟨t, hM⟩ | hM
    · exact .inr (.inl ⟨_, _, _, from_rec hC ht hx hp h1 hM he h3⟩)
    · exact .inr (.inr ⟨_, _, _, out_rec hC ht hx hp h1 hM he h3⟩)

/-- Every statement has a record. -/
theorem import_of (hl : Recs tree l) {way t a} (h : HasImport tree way t a) :
    ∃ i ∈ l, ImportRec m tree i way t a := by
  obtain ⟨names, h1, h2⟩ := h
  have he : (_ : Entry) ∈ entries (way, .import_ names) := List.mem_map.mpr ⟨(t, a), h2, rfl⟩
  obtain ⟨i, hi, hd⟩ := hl.complete _ _ _ h1 he
  exact ⟨i, hi, import_rec h1 h2 he hd rfl rfl rfl rfl⟩

theorem from_of (hl : Recs tree l) (hC : P.Clear conf mods scripts) (ht : P.Reached conf mods scripts (.text x pkg tree)) (hx : m.ident = x)
    (hp : (m.isPackage || m.isNamespacePkg) = pkg) {way t names} (h : HasFrom x pkg tree way t names) :
    ∃ i ∈ l, FromRec m x pkg tree i way t names := by
  obtain ⟨name, level, h1, h2⟩ := h
  have he : (_ : Entry) ∈ entries (way, .importFrom name names level) := List.mem_singleton.mpr rfl
  obtain ⟨i, hi, hd⟩ := hl.complete _ _ _ h1 he
  exact ⟨i, hi, from_rec hC ht hx hp h1 h2 he hd⟩

theorem out_of (hl : Recs tree l) (hC : P.Clear conf mods scripts) (ht : P.Reached conf mods scripts (.text x pkg tree)) (hx : m.ident = x)
    (hp : (m.isPackage || m.isNamespacePkg) = pkg) {way y names} (h : HasOutside x pkg tree way y names) :
    ∃ i ∈ l, OutRec m x pkg tree i way y names := by
  obtain ⟨name, level, h1, h2, rfl⟩ := h
  have he : (_ : Entry) ∈ entries (way, .importFrom name names level) := List.mem_singleton.mpr rfl
  obtain ⟨i, hi, hd⟩ := hl.complete _ _ _ h1 he
  exact ⟨i, hi, out_rec hC ht hx hp h1 h2 he hd⟩

end
end Verif.Proj
