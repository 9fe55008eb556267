import Verif.Proofs.Project
/-!
# The setup of a clear project is tame and safe
-/
namespace Verif.Proj
open Verif Spec

variable {P : Project} {recs : Str → List ImportInfo} {ord' : SetOrder} {conf : Str → Option Implies} {mods scripts : List Str}


theorem text_of_extension {x : Str} (h : (P.node x).isExtension = true) : P.text x = none := by
  unfold Project.node at h
  unfold Project.text
  split at h <;> simp_all [Node.isExtension]
  split at h <;> simp_all
  split at * <;> simp_all

theorem text_of_namespace {x : Str} (h : (P.node x).isNamespacePkg = true) : P.text x = none := by
  obtain ⟨path, h⟩ := node_namespace.mp h
  simp [Project.text, h]

theorem missing_globals {x n nm} (h : P.NodeOf conf x n) (hm : n.isMissing = true) : nm ∉ n.globalsWritten := by
  rcases shape h with rfl | rfl | ⟨t, rfl⟩ | ⟨t, rfl⟩ | rfl
  · by_cases hi : P.item x = none
    · rw [node_none hi]; simp
    · have := node_loaded hi
      unfold Node.isMissing at hm
      unfold Node.isLoaded Node.isModule Node.isPackage Node.isNamespacePkg at this
      split at hm <;> simp_all
  all_goals simp

/-- Nothing called like a variable, or within it, is reached. -/
theorem variable_not_reached (hC : P.Clear conf mods scripts) {t nm : Str} (hw : P.Wanted conf mods scripts t nm)
    (hp : P.Pkg conf t) (hs : ¬ P.Sub conf t nm) (hd : '.' ∉ nm) {pl} (h : P.Reached conf mods scripts pl) :
    ∀ x, pl = .module x → x ≠ t ++ '.' :: nm ∧ ∀ z, x ≠ t ++ '.' :: nm ++ '.' :: z := by
  induction h with
  | asked h => rintro x ⟨⟩; exact hC.variables _ _ hw hp hs _ (.asked h)
  | @package y p h1 h2 ih =>
    rintro x ⟨⟩
    obtain ⟨ih1, ih2⟩ := ih y rfl
    obtain ⟨last, rfl, hl⟩ := h2
    refine ⟨fun h => ih2 last (by rw [h]), fun z h => ih2 (z ++ '.' :: last) (by rw [h]; simp)⟩
  | along h0 h => rintro x ⟨⟩; exact hC.variables _ _ hw hp hs _ (.along h0 h)
  | implied h0 _ h => rintro x ⟨⟩; exact hC.variables _ _ hw hp hs _ (.implied h0 h)
  | text => rintro x ⟨⟩
  | script => rintro x ⟨⟩
  | imports h1 h2 => rintro x ⟨⟩; exact hC.variables _ _ hw hp hs _ (.imports h1 h2)
  | froms h1 h2 => rintro x ⟨⟩; exact hC.variables _ _ hw hp hs _ (.froms h1 h2)
  | @names y pkg tree way t' names u' nm' a h1 h2 h2' h3 h4 hne h5 =>
    rintro x ⟨⟩
    have hment : P.Mentioned conf mods scripts u' := by
      rcases h2' with ⟨rfl, _⟩ | h
      · exact .froms h1 h2
      · exact .along (.froms h1 h2) (.inl ⟨_, h, .inl rfl⟩)
    have hm := hC.variables _ _ hw hp hs _ hment
    have hd' := ((names_from hC h1 h2).2.2 _ _ h4).2.1
    constructor
    · intro h
      obtain ⟨rfl, rfl⟩ := sub_unique hd' hd h
      exact hs h5
    · intro z h
      by_cases hz : '.' ∈ z
      · obtain ⟨q, last, rfl, hl⟩ := package_of_dot hz
        have : u' ++ '.' :: nm' = (t ++ '.' :: nm ++ '.' :: q) ++ '.' :: last := by rw [h]; simp
        exact hm.2 _ (sub_unique hd' hl this).1
      · exact hm.1 (sub_unique hd' hz h).1

section
variable (hC : P.Clear conf mods scripts)
include hC

omit hC in
theorem wanted_of {x pkg tree m i way t names u nm a} (hr : P.Reached conf mods scripts (.text x pkg tree))
    (h : FromRec m x pkg tree i way t names) (hs : P.Source conf t u) (hn : (nm, a) ∈ names) (hne : nm ≠ c!"*") :
    P.Wanted conf mods scripts u nm :=
  ⟨_, _, _, _, _, _, _, hr, h.has, hs, hn, hne⟩

/-- The texts of modules are not scripts. -/
theorem text_of_proper {x pkg tree} (hr : P.Reached conf mods scripts (.text x pkg tree)) (hx : Proper x) :
    P.text x = some (pkg, tree) := by
  cases hr with
  | text _ h => exact h.1
  | script h => exact absurd (hC.script x h).2.1 (proper_slash hx)

variable (ho : Scan P recs) (ho' : ord'.Ok)
include ho ho'

theorem may_define {x nm} (h : (setup P recs ord' conf mods scripts).MayDefine x nm) :
    nm ≠ c!"swig_import_helper" ∧ (Proper x → P.Defines x nm) := by
  induction h with
  | @own n nm h1 h2 =>
    rcases (has_node hC ho ho').mp h1 with ⟨x, h3, h4⟩ | ⟨path, h3, rfl⟩ | ⟨y, h3, rfl⟩
    · rw [of_ident h4]
      refine ⟨?_, fun _ => .own (of_globals h4 h2)⟩
      rintro rfl
      rcases h3 with h3 | h3
      · exact hC.noSwig _ h3 (of_globals h4 h2)
      · exact missing_globals h4 (tried_node hC h3 h4) h2
    · cases h2
    · cases h2
  | @byName m i nm h1 h2 =>
    obtain ⟨x, pkg, tree, r1, r2, ⟨way, t', a, r3⟩ | ⟨way, t', names, r3⟩ | ⟨way, t', names, r3⟩⟩ :=
      good_record hC (needs_good hC ho ho' h1)
    · rw [r3.names] at h2
      cases h2
    · obtain ⟨hn, hne⟩ := (r3.names nm.name nm.asname).mpr h2
      refine ⟨((names_from hC r1 r3.has).2.2 _ _ hn).2.2.2, fun hx => ?_⟩
      rw [r2.1] at hx ⊢
      exact .byName (text_of_proper hC r1 hx) r3.has hn hne
    · obtain ⟨hn, hne⟩ := (r3.names nm.name nm.asname).mpr h2
      obtain ⟨name, level, k1, _⟩ := r3.has
      refine ⟨((hC.names _ _ _ _ _ _ _ r1 k1).2.2 _ _ hn).2.2.2, fun hx => ?_⟩
      rw [r2.1] at hx ⊢
      exact .byOutside (text_of_proper hC r1 hx) r3.has hn hne
  | @byStar m i t nm h1 h2 h3 _ ih =>
    obtain ⟨x, pkg, tree, r1, r2, ⟨way, t', a, r3⟩ | ⟨way, t', names, r3⟩ | ⟨way, t', names, r3⟩⟩ :=
      good_record hC (needs_good hC ho ho' h1)
    · rw [r3.star] at h2; cases h2
    · obtain ⟨a, ha⟩ := r3.star.mp h2
      have := h3.unique r3.refers
      subst this
      refine ⟨ih.1, fun hx => ?_⟩
      rw [r2.1] at hx ⊢
      exact .byStar (text_of_proper hC r1 hx) r3.has ha (ih.2 (reached_proper hC (.froms r1 r3.has)))
    · exact absurd r3.outside h3.inside

/-- The edges of import statements are those of the setup. -/
theorem by_text {u b d tree pkg} (hu : P.HasText conf u pkg tree) (hp : Proper u)
    (h : P.ByText conf mods scripts u b d) : ∃ j, (setup P recs ord' conf mods scripts).Needs (.statement (P.node u) j) ∧
      (setup P recs ord' conf mods scripts).ByStatement (P.node u) j b d := by
  have need : ∀ {pkg tree}, P.Reached conf mods scripts (.text u pkg tree) →
      Importer P (P.node u) u pkg ∧ Recs tree (recs u) ∧
        ∀ i ∈ recs u, (setup P recs ord' conf mods scripts).Needs (.statement (P.node u) i) := by
    intro pkg' tree' hr
    have ht := text_of_proper hC hr hp
    refine ⟨⟨node_ident, node_text ht, .inl ⟨rfl, _, ht⟩⟩, ho.text _ _ _ ht, fun i hi => ?_⟩
    have hr' : P.Reached conf mods scripts (.module u) := by
      cases hr with
      | text h => exact h
      | script h => exact absurd (hC.script u h).2.1 (proper_slash hp)
    obtain ⟨tr, hn⟩ := (needs_iff hC ho ho').mpr (.inl hr')
    refine .inModule (infos := recs u) hn (node_for.mpr hu.2) ?_ ?_
    · rw [node_ident]
      exact mods_iff.mpr ⟨text_item ht, rfl, rfl⟩
    · exact hi
  cases h with
  | imports h1 h2 h3 =>
    obtain ⟨hm, hl, ih⟩ := need h1
    obtain ⟨i, h4, r⟩ := import_of (m := P.node u) hl h2
    refine ⟨i, ih i h4, ?_⟩
    rw [says_unique h3 (r.says _ _), ← r.asname]
    exact .target r.refers
  | froms h1 h2 h3 =>
    obtain ⟨hm, hl, ih⟩ := need h1
    obtain ⟨i, h4, r⟩ := from_of hl hC h1 hm.1 hm.2.1 h2
    refine ⟨i, ih i h4, ?_⟩
    rw [says_unique h3 (r.says _ _), ← r.asname]
    exact .target r.refers
  | names h1 h2 hs h3 h4 hne h5 h6 =>
    obtain ⟨hm, hl, ih⟩ := need h1
    obtain ⟨i, h7, r⟩ := from_of hl hC h1 hm.1 hm.2.1 h2
    obtain ⟨c, hc, hp⟩ := h3
    refine ⟨i, ih i h7, ?_⟩
    rw [says_unique h6 (r.says _ _)]
    have := Setup.ByStatement.submodule (from_import hC h1 (ih i h7) r hs hc h4 hne) hp ((is_sub hC hc hp).mpr h5)
    rw [of_ident hc] at this
    exact this
  | passedOn h1 h2 hs h3 h4 hne h5 h5' h6 h7 =>
    obtain ⟨hm, hl, ih⟩ := need h1
    obtain ⟨i, h8, r⟩ := from_of hl hC h1 hm.1 hm.2.1 h2
    refine ⟨i, ih i h8, ?_⟩
    rw [says_unique h7 (r.says _ _)]
    refine .passedOn (from_import hC h1 (ih i h8) r hs h3.2 h4 hne) (text_module h3.1) ?_ ?_ h6
    · rw [node_globals]; exact h5
    · rw [node_ident]; exact (has_edge hC ho ho').mpr h5'

theorem leads {x y} (h : (setup P recs ord' conf mods scripts).Leads x y) : P.Leads conf mods scripts x y := by
  induction h with
  | here => exact .here
  | on _ h ih => exact .on ih ((has_edge hC ho ho').mp h)

omit hC ho ho' in
theorem linked {x} (h : (setup P recs ord' conf mods scripts).Linked x) : P.Linked conf x := by
  rcases h with h | ⟨n, l, h1, h2⟩
  · exact .inl h
  · obtain ⟨_, rfl, _⟩ := mods_iff.mp h1
    rcases h2 with h2 | ⟨fr, init, sp, hd, ns, h2⟩
    · exact absurd node_ident h2
    · exact .inr (by rw [← (node_init h2).1]; simp)

omit hC ho ho' in
theorem draws {x y} (h : (setup P recs ord' conf mods scripts).Draws x y) : P.Draws conf x y := by
  induction h with
  | self => exact .self
  | package _ h ih => exact .package ih h
  | alias _ h ih => exact .alias ih h
  | implied _ h1 h2 ih => exact .implied ih ⟨_, h1, h2⟩
  | foundAs _ h ih =>
    obtain ⟨_, rfl, _⟩ := mods_iff.mp h
    rw [node_ident]
    exact ih
  | explicitNamespace _ h h2 ih =>
    obtain ⟨_, rfl, _⟩ := mods_iff.mp h
    exact .extended ih (node_init h2).1.symm

omit hC ho ho' in
theorem draws_in {x y} (h : (setup P recs ord' conf mods scripts).DrawsIn x y) : P.DrawsIn conf x y :=
  h.imp id fun h => ⟨linked h.1, draws h.2⟩

theorem over {x y} (h : (setup P recs ord' conf mods scripts).Over x y) : P.Over conf mods scripts x y := by
  cases h with
  | self => exact .self
  | linked h1 h2 => exact .linked (linked h1) (draws h2)
  | together h1 h2 h3 h4 => exact .together ((needs_iff hC ho ho').mp h1) h2 (draws h3) (draws h4)
  | distribution h => exact h.elim
  | @names _ _ e _ _ _ h1 h2 h3 h4 h5 =>
    obtain ⟨x, pkg, tree, way, t, names, r1, r2, r, s1, s2, hnm, hne⟩ := import_from hC ho ho' h1
    obtain ⟨_, _, hnm', _⟩ := h2
    have key : ∀ {nm z}, (setup P recs ord' conf mods scripts).DrawsFrom e nm z → P.DrawsIn conf (e.ident ++ '.' :: nm) z := by
      rintro nm z (h | ⟨_, h, _⟩)
      · exact draws_in h
      · exact absurd h.1 (no_six hC s2)
    exact .names r1 r.has s1 ((pkg_iff s2).mp h3) hnm ((r.names _ _).mpr hnm').1 hne (key h4) (key h5)

omit ho ho' in
theorem not_compiled {x d file helper} (hm : MypycModule (P.node x) file helper) (hd : (P.node x).distribution = some d)
    (hx : helper ∈ d.importNames) (hp : ∃ p, helper = p ++ c!"__mypyc") : False := by
  have key : P.item x = some (.extension file) := by
    rcases hm.file with ⟨h1, h2⟩ | ⟨a, init, b, c, e, h1, h2, _⟩
    · unfold Project.node at h1 h2
      split at h1 <;> simp_all
    · unfold Project.node at h1
      split at h1 <;> simp at h1
      all_goals (obtain ⟨_, rfl, _⟩ := h1; simp at h2)
      split at h2 <;> simp at h2
  refine hC.noMypyc x file d key ?_ helper hx hp
  unfold Project.node at hd
  rw [key] at hd
  exact hd

theorem no_mypyc : ¬ (setup P recs ord' conf mods scripts).HasMypyc := by
  rintro ⟨n, file, helper, h, hm⟩
  obtain ⟨d, hd, a, b, hi, hp, _⟩ := hm.dist
  have hx : helper ∈ d.importNames := by simp [hi]
  rcases (has_node hC ho ho').mp h with ⟨y, _, hy⟩ | ⟨path, _, rfl⟩ | ⟨y, _, rfl⟩
  · rcases shape hy with rfl | rfl | ⟨t, rfl⟩ | ⟨t, rfl⟩ | rfl
    · exact not_compiled hC hm hd hx hp
    all_goals cases hd
  · cases hd
  · cases hd

theorem not_mypyc {n} (h : (setup P recs ord' conf mods scripts).InSetup n) (file helper) : ¬ MypycModule n file helper := by
  rcases h with h | ⟨x, infos, h⟩
  · exact fun hm => no_mypyc hC ho ho' ⟨n, file, helper, h, hm⟩
  · intro hm
    obtain ⟨d, hd, a, b, hi, hp, _⟩ := hm.dist
    obtain ⟨_, rfl, _⟩ := mods_iff.mp h
    exact not_compiled hC hm hd (by rw [hi]; simp) hp

theorem behind {x y} (h : (setup P recs ord' conf mods scripts).Behind x y) : P.Behind conf mods scripts x y := by
  rcases h with ⟨z, h1, h2⟩ | h
  · exact ⟨z, over hC ho ho' h1, leads hC ho ho' h2⟩
  · exact absurd h (no_mypyc hC ho ho')

theorem tame : (setup P recs ord' conf mods scripts).Tame where
  loaded := by
    intro x n l h
    obtain ⟨h1, rfl, _⟩ := mods_iff.mp h
    exact node_loaded h1
  extension := by
    intro x n l h he
    obtain ⟨h1, rfl, rfl⟩ := mods_iff.mp h
    exact ho.none _ (text_of_extension he)
  otherName := by
    intro x n l h hne
    obtain ⟨h1, rfl, rfl⟩ := mods_iff.mp h
    exact absurd node_ident hne
  noDot := fun x h => proper_head (rt_proper hC ((needs_iff hC ho ho').mp h))
  plain := by
    intro m i nm h1 h2
    obtain ⟨x, pkg, tree, r1, r2, ⟨way, t', a, r3⟩ | ⟨way, t', names, r3⟩ | ⟨way, t', names, r3⟩⟩ :=
      good_record hC (needs_good hC ho ho' h1)
    · rw [r3.names] at h2; cases h2
    · exact ((names_from hC r1 r3.has).2.2 _ _ ((r3.names nm.name nm.asname).mpr h2).1).2.1
    · obtain ⟨name, level, k1, _⟩ := r3.has
      exact ((hC.names _ _ _ _ _ _ _ r1 k1).2.2 _ _ ((r3.names nm.name nm.asname).mpr h2).1).2.1
  scriptName := fun path h =>
    ⟨fun hn => proper_slash (rt_proper hC ((needs_iff hC ho ho').mp hn)) (hC.script path h).2.1, (hC.script path h).2.2⟩
  passedOn := by
    intro m i c nm h hd hns b d he hcl
    obtain ⟨x, pkg, tree, way, t, names, r1, r2, r, s1, s2, hnm, hne⟩ := import_from hC ho ho' h
    have ht : Proper c.ident := reached_proper hC (source_reached r1 r.has s1)
    obtain ⟨⟨tree', h1⟩, h2, h3, ⟨d', h4, h5⟩, h6⟩ := hC.passedOn _ _ _ _ _ _ c.ident nm.name nm.asname r1 r.has s1 hnm hne
      ((may_define hC ho ho' hd).2 ht) b d ((has_edge hC ho ho').mp he) hcl
    have hc := of_unique s2 h1.2
    refine ⟨by rw [hc]; exact text_module h1.1, by rw [hc, node_globals]; exact h2,
      fun b' d' h7 h8 => h3 b' d' ((has_edge hC ho ho').mp h7) h8, ?_, ?_⟩
    · obtain ⟨j, hj, hb⟩ := by_text hC ho ho' h1 ht h4
      exact ⟨j, d', by rw [hc]; exact hj, by rw [hc]; exact hb, h5⟩
    · intro hb
      rw [r2.1] at hb
      exact h6 (behind hC ho ho' hb)
  static := by
    intro m i c nm h hp _ hd
    obtain ⟨x, pkg, tree, way, t, names, r1, r2, r, s1, s2, hnm, hne⟩ := import_from hC ho ho' h
    have ht : Proper c.ident := reached_proper hC (source_reached r1 r.has s1)
    have := hC.static c.ident nm.name (wanted_of r1 r s1 hnm hne) ⟨c, s2, .inl hp⟩ ((may_define hC ho ho' hd).2 ht)
    refine this.imp (fun h => ?_) fun ⟨n, h1, h2⟩ => ⟨n, node_for.mpr h1, h2⟩
    rw [of_pkg s2 (.inl hp), node_globals]
    exact h
  notBoth := by
    intro m i c nm h hp hs hn
    obtain ⟨x, pkg, tree, way, t, names, r1, r2, r, s1, s2, hnm, hne⟩ := import_from hC ho ho' h
    have hdot := ((names_from hC r1 r.has).2.2 _ _ hnm).2.1
    have hs' : ¬ P.Sub conf c.ident nm.name := fun h => hs ((is_sub hC s2 hp).mpr h)
    exact (variable_not_reached hC (wanted_of r1 r s1 hnm hne) ⟨c, s2, hp⟩ hs' hdot (needs_good hC ho ho' hn) _ rfl).1 rfl
  noSwig := fun x h => (may_define hC ho ho' h).1 rfl

omit hC ho ho' in
theorem brings {x y} (h : (setup P recs ord' conf mods scripts).Brings x y) : P.Brings conf x y := by
  induction h with
  | self => exact .self
  | package _ h ih => exact .package ih h
  | alias _ h1 h2 ih => exact .along ih (.inl ⟨_, node_for.mp h1, h2⟩)
  | implied _ h1 h2 h3 ih => exact .implied ih (open_iff.mp h1) ⟨_, h2, h3⟩
  | explicitNamespace _ h1 h2 ih =>
    exact .along ih (along_package (node_for.mp h1) h2)

theorem safe : (setup P recs ord' conf mods scripts).Safe where
  names := fun x h => proper_split (rt_proper hC ((needs_iff hC ho ho').mp h))
  noCode := by
    intro x n l h hn
    obtain ⟨h1, rfl, rfl⟩ := mods_iff.mp h
    exact ho.none _ (text_of_namespace hn)
  once := by
    intro y p q hy hp hq hb hbr
    have hq := node_for.mp hq
    rcases (needs_iff hC ho ho').mp hy with h | h
    · exact hC.once y p q h hp hq hb (brings hbr)
    · obtain ⟨t, nm, rfl, _, hd, _, _, _, hpk, _⟩ := tried_split hC h
      have := hp.unique (.name hd)
      subst this
      have := (pkg_iff hq).mpr hpk
      unfold Node.isMissing Node.isExcluded at hb
      unfold Node.isPackage Node.isNamespacePkg at this
      revert hb this
      cases q.kind <;> simp

end

/-! ## Nodes of particular names -/

theorem alias_conf {x t : Str} (h : P.Alias conf x t) : conf x = some (.alias t) ∨ conf x = some (.virtual t) := by
  obtain ⟨n, h1, h2⟩ := h
  have own : (P.own conf x).kind = .alias t ∨ (P.own conf x).kind = .virtual t →
      conf x = some (.alias t) ∨ conf x = some (.virtual t) := by
    unfold Project.own
    split
    · simp
    · rename_i h; simp [h]
    · rename_i h; simp [h]
    · rintro (h | h)
      · exact absurd h node_not_alias
      · exact absurd h node_not_virtual
  cases h1 with
  | top => exact own h2
  | sub => exact own h2
  | inMissing => simp at h2
  | inExcluded => simp at h2

theorem along_alias (he : ∀ x, P.extended x = none) {x t : Str} (h : P.Along conf x t) : P.Alias conf x t := by
  refine h.resolve_right ?_
  rintro ⟨ns, h1, -⟩
  unfold Project.nsType at h1
  split at h1
  · rw [he] at h1; cases h1
  · cases h1

theorem of_top {x n} (h : '.' ∉ x) : P.NodeOf conf x n ↔ n = P.own conf x :=
  ⟨fun h' => of_unique h' (.top h), fun h' => h' ▸ .top h⟩

theorem of_sub {x p q n} (h : HasPackage x p) (hq : P.NodeOf conf p q) (hm : q.isMissing = false)
    (he : q.isExcluded = false) : P.NodeOf conf x n ↔ n = P.own conf x :=
  ⟨fun h' => of_unique h' (.sub h hq hm he), fun h' => h' ▸ .sub h hq hm he⟩

/-! ## Missing and excluded packages -/

theorem inPlace_package {x p : Str} (h : P.InPlace conf x) (hp : HasPackage x p) : P.InPlace conf p := by
  intro q n hq hn
  obtain ⟨m, hm⟩ := of_exists (P := P) (conf := conf) p
  obtain ⟨h1, h2⟩ := h p m hp hm
  refine ⟨?_, ?_⟩
  · rw [← Bool.not_eq_true]
    intro hb
    rw [of_unique hm (.inMissing hq hn hb)] at h1
    cases h1
  · rw [← Bool.not_eq_true]
    intro hb
    rw [of_unique hm (.inExcluded hq hn hb)] at h2
    cases h2

/-- A sufficient condition for `Clear.once`. -/
theorem once_of (hS : ∀ x t, P.Along conf x t ∨ Project.Implied conf x t → P.InPlace conf t) {y p q}
    (hp : HasPackage y p) (hq : P.NodeOf conf p q) (hb : q.isMissing = true ∨ q.isExcluded = true) :
    ¬ P.Brings conf p y := by
  have key : ∀ {y}, P.Brings conf p y → y.length ≤ p.length ∨ P.InPlace conf y := by
    intro y h
    induction h with
    | self => exact .inl (Nat.le_refl _)
    | package _ h ih =>
      rcases ih with ih | ih
      · have := h.shorter
        exact .inl (by omega)
      · exact .inr (inPlace_package ih h)
    | along _ h => exact .inr (hS _ _ (.inl h))
    | implied _ _ h => exact .inr (hS _ _ (.inr h))
  intro h
  rcases key h with h | h
  · have := hp.shorter
    omega
  · obtain ⟨h1, h2⟩ := h p q hp hq
    rw [h1, h2] at hb
    simp at hb

/-! ## Projects in which nobody imports a module from a module that only imports it -/

/-- The text of `t` imports a module under the name `nm`, or `t` is linked to a module called `nm`. -/
inductive Binds (P : Project) (conf : Str → Option Implies) (t nm : Str) : Prop where
  | imports {pkg tree way u a} : P.text t = some (pkg, tree) → HasImport tree way u a →
      a = some nm ∨ u = nm → Binds P conf t nm
  | froms {pkg tree way names} : P.text t = some (pkg, tree) → HasFrom t pkg tree way nm names → Binds P conf t nm
  | names {pkg tree way u names m} : P.text t = some (pkg, tree) → HasFrom t pkg tree way u names →
      (m, some nm) ∈ names → Binds P conf t nm
  | package : HasPackage t nm → Binds P conf t nm
  | along : P.Along conf t nm → Binds P conf t nm
  | implied : Project.Implied conf t nm → Binds P conf t nm

/-- A sufficient condition for `Clear.passedOn`. -/
theorem nothing_passed (hB : ∀ t nm, P.Wanted conf mods scripts t nm → P.Defines t nm → ¬ Binds P conf t nm)
    (hW : ∀ t nm, P.Wanted conf mods scripts t nm → t ∉ scripts ∧ '.' ∉ nm) {u b d}
    (h : P.Edge conf mods scripts u b d) :
    ∀ nm, P.Wanted conf mods scripts u nm → P.Defines u nm → ¬ Setup.Called nm b d := by
  have text : ∀ {u nm pkg tree}, P.Wanted conf mods scripts u nm → P.Reached conf mods scripts (.text u pkg tree) →
      P.text u = some (pkg, tree) := by
    intro u nm pkg tree hw hr
    cases hr with
    | text _ h => exact h.1
    | script h => exact absurd h (hW _ _ hw).1
  induction h with
  | imports h1 h2 h3 =>
    rintro nm hw hd (h | h)
    · exact hB _ _ hw hd (.imports (text hw h1) h2 (.inl (h3.asname ▸ h)))
    · exact hB _ _ hw hd (.imports (text hw h1) h2 (.inr h))
  | froms h1 h2 h3 =>
    rintro nm hw hd (h | rfl)
    · rw [h3.asname] at h; cases h
    · exact hB _ _ hw hd (.froms (text hw h1) h2)
  | outside h1 h2 h3 =>
    rintro nm hw hd (h | rfl)
    · rw [h3.asname] at h; cases h
    · obtain ⟨name, level, _, hl, rfl⟩ := h2
      refine (hW _ _ hw).2 (List.mem_append.mpr (.inl ?_))
      exact List.mem_replicate.mpr ⟨by have := hl.1; omega, rfl⟩
  | names h1 h2 hs h3 h4 _ h5 h6 =>
    rintro nm hw hd (h | h)
    · rw [h6.asname] at h
      subst h
      exact hB _ _ hw hd (.names (text hw h1) h2 h4)
    · exact (hW _ _ hw).2 (by rw [← h]; simp)
  | package h1 h2 =>
    rintro nm hw hd (h | rfl)
    · cases h
    · exact hB _ _ hw hd (.package h2)
  | along h1 h2 =>
    rintro nm hw hd (h | rfl)
    · cases h
    · exact hB _ _ hw hd (.along h2)
  | implied h1 _ h2 =>
    rintro nm hw hd (h | rfl)
    · cases h
    · exact hB _ _ hw hd (.implied h2)
  | passedOn h1 h2 hs h3 h4 hne h5 _ h6 h7 ih =>
    exact (ih _ ⟨_, _, _, _, _, _, _, h1, h2, hs, h4, hne⟩ (.own h5) h6).elim

end Verif.Proj
