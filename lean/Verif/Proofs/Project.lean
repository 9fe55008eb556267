import Verif.Proofs.ProjectText
import Verif.Props.NoFailure
/-!
# The setup of a project
-/
namespace Verif.Proj
open Verif Spec

/-! ## Names -/

theorem proper_split {x : Str} (h : Proper x) : ∃ pre last, IsSplit x 0 pre last := by
  obtain ⟨comps, h1, rfl, h2⟩ := h
  obtain ⟨pre, last, rfl⟩ : ∃ pre last, comps = pre ++ [last] := ⟨_, _, (List.dropLast_concat_getLast h1).symm⟩
  refine ⟨pre, last, by simp, fun c hc => ?_, ?_, fun _ => ?_⟩
  · have := h2 c (List.mem_append_left _ hc)
    exact ⟨this.2.1, this.1⟩
  · exact (h2 last (by simp)).2.1
  · exact (h2 last (by simp)).1

theorem proper_head {x : Str} (h : Proper x) : x.head? ≠ some '.' := by
  obtain ⟨comps, h1, rfl, h2⟩ := h
  cases comps with
  | nil => exact absurd rfl h1
  | cons c cs =>
    have hc := h2 c (List.mem_cons_self ..)
    have : (dotted (c :: cs)).head? = c.head? := by
      cases cs with
      | nil => rfl
      | cons d cs =>
        show (c ++ '.' :: dotted (d :: cs)).head? = _
        cases c with
        | nil => exact absurd rfl hc.1
        | cons => rfl
    rw [this]
    intro hh
    exact hc.2.1 (List.mem_of_head? hh)

theorem dotted_slash : ∀ {comps : List Str}, (∀ c ∈ comps, '/' ∉ c) → '/' ∉ dotted comps
  | [], _ => by simp [dotted]
  | [c], h => h c (List.mem_cons_self ..)
  | c :: d :: r, h => by
    simp only [dotted, List.mem_append, List.mem_cons, not_or]
    exact ⟨h c (List.mem_cons_self ..), by decide, dotted_slash fun e he => h e (List.mem_cons_of_mem _ he)⟩

theorem proper_slash {x : Str} (h : Proper x) : '/' ∉ x := by
  obtain ⟨comps, _, rfl, h2⟩ := h
  exact dotted_slash fun c hc => (h2 c hc).2.2

theorem proper_package {x p : Str} (h : Proper x) (hp : HasPackage x p) : Proper p := by
  obtain ⟨comps, h1, rfl, h2⟩ := h
  obtain ⟨pre, last, rfl⟩ : ∃ pre last, comps = pre ++ [last] := ⟨_, _, (List.dropLast_concat_getLast h1).symm⟩
  by_cases hpre : pre = []
  · subst hpre
    exact absurd hp.dot (h2 last (by simp)).2.1
  · have : HasPackage (dotted (pre ++ [last])) (dotted pre) := ⟨last, dotted_snoc last hpre, (h2 last (by simp)).2.1⟩
    rw [hp.unique this]
    exact ⟨pre, hpre, rfl, fun c hc => h2 c (List.mem_append_left _ hc)⟩

theorem proper_sub {t nm : Str} (h : Proper t) (h1 : nm ≠ []) (h2 : '.' ∉ nm) (h3 : '/' ∉ nm) :
    Proper (t ++ '.' :: nm) := by
  obtain ⟨comps, hne, rfl, hc⟩ := h
  refine ⟨comps ++ [nm], by simp, (dotted_snoc nm hne).symm, fun c hm => ?_⟩
  rcases List.mem_append.mp hm with hm | hm
  · exact hc c hm
  · rw [List.mem_singleton.mp hm]; exact ⟨h1, h2, h3⟩

theorem sub_unique {t t' nm nm' : Str} (h : '.' ∉ nm) (h' : '.' ∉ nm') (he : t ++ '.' :: nm = t' ++ '.' :: nm') :
    t = t' ∧ nm = nm' := by
  have h1 : HasPackage (t ++ '.' :: nm) t := .name h
  have h2 : HasPackage (t ++ '.' :: nm) t' := by rw [he]; exact .name h'
  have := h1.unique h2
  subst this
  simpa using he

theorem package_of_dot {x : Str} (h : '.' ∈ x) : ∃ p, HasPackage x p := by
  obtain ⟨cs, h1, h2, rfl⟩ := exists_comps x
  obtain ⟨pre, last, rfl⟩ : ∃ pre last, cs = pre ++ [last] := ⟨_, _, (List.dropLast_concat_getLast h1).symm⟩
  by_cases hpre : pre = []
  · subst hpre
    exact absurd h (h2 last (by simp))
  · exact ⟨_, last, dotted_snoc last hpre, h2 last (by simp)⟩

/-! ## Nodes of a project -/

section
variable {P : Project} {x : Str}

theorem node_ident : (P.node x).ident = x := by unfold Project.node; split <;> rfl
theorem node_none (h : P.item x = none) : P.node x = { ident := x, kind := .missing } := by
  simp [Project.node, h]
theorem node_loaded (h : P.item x ≠ none) : (P.node x).isLoaded = true := by
  unfold Project.node; split <;> simp_all [Node.isLoaded, Node.isModule, Node.isPackage, Node.isNamespacePkg]
theorem node_namespace : (P.node x).isNamespacePkg = true ↔ ∃ path, P.item x = some (.namespace path) := by
  unfold Project.node; split <;> simp [Node.isNamespacePkg, *]
theorem node_not_alias {t} : (P.node x).kind ≠ .alias t := by
  unfold Project.node; split <;> simp
theorem node_not_virtual {t} : (P.node x).kind ≠ .virtual t := by
  unfold Project.node; split <;> simp
theorem node_init {fr init sp hd ns} (h : (P.node x).kind = .package fr init sp hd ns) : ns = P.nsType x ∧ init.name = x := by
  unfold Project.nsType
  unfold Project.node at h
  split at h <;> simp at h
  all_goals
    obtain ⟨_, h1, _, _, h2⟩ := h
    exact ⟨by simp [*], by rw [← h1]⟩
theorem node_ns {ns} (h : P.nsType x = some ns) : ∃ fr init sp hd, (P.node x).kind = .package fr init sp hd (some ns) := by
  unfold Project.nsType at h
  split at h
  · rename_i hi
    unfold Project.node
    rw [hi]
    exact ⟨_, _, _, _, by rw [← h]⟩
  · cases h
theorem node_text {pkg tree} (h : P.text x = some (pkg, tree)) :
    ((P.node x).isPackage || (P.node x).isNamespacePkg) = pkg := by
  unfold Project.text at h
  split at h <;> simp at h <;> simp [Project.node, Node.isPackage, Node.isNamespacePkg, *]
theorem node_globals : (P.node x).globalsWritten = P.globals x := by
  unfold Project.node Project.globals; split <;> simp [*]
theorem text_item {pkg tree} (h : P.text x = some (pkg, tree)) : P.item x ≠ none := by
  unfold Project.text at h
  split at h <;> simp_all
end

section
variable {P : Project} {conf : Str → Option Implies} {x : Str}

/-- The forms of nodes. -/
theorem own_shape : P.own conf x = P.node x ∨ P.own conf x = { ident := x, kind := .excluded } ∨
    (∃ t, P.own conf x = { ident := x, kind := .alias t }) ∨ ∃ t, P.own conf x = { ident := x, kind := .virtual t } := by
  unfold Project.own
  split
  · exact .inr (.inl rfl)
  · exact .inr (.inr (.inl ⟨_, rfl⟩))
  · exact .inr (.inr (.inr ⟨_, rfl⟩))
  · exact .inl rfl

theorem shape {n} (h : P.NodeOf conf x n) : n = P.node x ∨ n = { ident := x, kind := .excluded } ∨
    (∃ t, n = { ident := x, kind := .alias t }) ∨ (∃ t, n = { ident := x, kind := .virtual t }) ∨
    n = { ident := x, kind := .missing } := by
  cases h with
  | top => rcases own_shape (P := P) (conf := conf) (x := x) with h | h | h | h <;> simp [h]
  | sub => rcases own_shape (P := P) (conf := conf) (x := x) with h | h | h | h <;> simp [h]
  | inMissing => simp
  | inExcluded => simp

theorem of_ident {n} (h : P.NodeOf conf x n) : n.ident = x := by
  rcases shape h with rfl | rfl | ⟨t, rfl⟩ | ⟨t, rfl⟩ | rfl
  · exact node_ident
  all_goals rfl

theorem of_pkg {n} (h : P.NodeOf conf x n) (hp : n.isPackage = true ∨ n.isNamespacePkg = true) : n = P.node x := by
  rcases shape h with h | rfl | ⟨t, rfl⟩ | ⟨t, rfl⟩ | rfl
  · exact h
  all_goals simp [Node.isPackage, Node.isNamespacePkg] at hp

theorem of_alias {n t} (h : P.NodeOf conf x n) (ha : n.kind = .alias t) : n = { ident := x, kind := .alias t } := by
  rcases shape h with rfl | rfl | ⟨t, rfl⟩ | ⟨t, rfl⟩ | rfl
  · exact absurd ha node_not_alias
  all_goals simp at ha
  rw [ha]

theorem of_globals {n} (h : P.NodeOf conf x n) {nm} (hn : nm ∈ n.globalsWritten) : nm ∈ P.globals x := by
  rcases shape h with rfl | rfl | ⟨t, rfl⟩ | ⟨t, rfl⟩ | rfl
  · rw [node_globals] at hn; exact hn
  all_goals cases hn
end

/-! ## The setup -/

/-- The records of the modules are those of their texts. -/
structure Scan (P : Project) (recs : Str → List ImportInfo) : Prop where
  text : ∀ x pkg tree, P.text x = some (pkg, tree) → Recs tree (recs x)
  none : ∀ x, P.text x = none → recs x = []

/-- A project as a setup. -/
def setup (P : Project) (recs : Str → List ImportInfo) (ord' : SetOrder) (conf : Str → Option Implies) (mods scripts : List Str) : Setup where
  conf := conf
  mods x := (P.item x).map fun _ => (P.node x, recs x)
  scripts path := (P.script path).map fun tree => (extractAstInfo ord' tree, P.resolve path)
  asksModule x := x ∈ mods
  asksScript x := x ∈ scripts
  dists := P.installed
  sources x := (P.snippet x).map (extractAstInfo ord')

section
variable {P : Project} {recs : Str → List ImportInfo} {ord' : SetOrder} {conf : Str → Option Implies} {mods scripts : List Str}

theorem mods_iff {x n l} : (setup P recs ord' conf mods scripts).mods x = some (n, l) ↔
    P.item x ≠ none ∧ n = P.node x ∧ l = recs x := by
  show (P.item x).map _ = _ ↔ _
  cases P.item x <;> simp
  constructor <;> rintro ⟨rfl, rfl⟩ <;> exact ⟨rfl, rfl⟩

theorem mods_none {x} : (setup P recs ord' conf mods scripts).mods x = none ↔ P.item x = none := by
  show (P.item x).map _ = _ ↔ _
  simp

theorem own_plain {x} (h : conf x = none ∨ ∃ l, conf x = some (.refs l)) : P.own conf x = P.node x := by
  unfold Project.own
  rcases h with h | ⟨l, h⟩ <;> rw [h]

theorem own_iff {x n} : (setup P recs ord' conf mods scripts).Own x n ↔ n = P.own conf x := by
  constructor
  · intro h
    cases h with
    | excluded h => unfold Project.own; rw [show conf x = _ from h]
    | alias h => unfold Project.own; rw [show conf x = _ from h]
    | virtual h => unfold Project.own; rw [show conf x = _ from h]
    | found h1 h2 =>
      rw [own_plain (conf := conf) h1]
      exact (mods_iff.mp h2).2.1
    | foundAs h1 h2 h3 =>
      rw [(mods_iff.mp h2).2.1, node_ident] at h3
      exact absurd rfl h3
    | absent h1 h2 => rw [own_plain (conf := conf) h1, node_none (mods_none.mp h2)]
  · rintro rfl
    have plain : (conf x = none ∨ ∃ l, conf x = some (.refs l)) →
        (setup P recs ord' conf mods scripts).Own x (P.own conf x) := by
      intro h
      rw [own_plain h]
      by_cases hi : P.item x = none
      · rw [node_none hi]
        exact .absent h (mods_none.mpr hi)
      · exact .found h (mods_iff.mpr ⟨hi, rfl, rfl⟩) node_ident
    cases h : conf x with
    | none => exact plain (.inl h)
    | some v =>
      cases v with
      | excluded => unfold Project.own; rw [h]; exact .excluded h
      | alias t => unfold Project.own; rw [h]; exact .alias h
      | «virtual» t => unfold Project.own; rw [h]; exact .virtual h
      | refs l => exact plain (.inr ⟨l, h⟩)

theorem node_for {x n} : (setup P recs ord' conf mods scripts).NodeFor x n ↔ P.NodeOf conf x n := by
  constructor
  · intro h
    induction h with
    | top h1 h2 => rw [own_iff.mp h2]; exact .top h1
    | sub h1 _ h3 h4 h5 ih => rw [own_iff.mp h5]; exact .sub h1 ih h3 h4
    | inMissing h1 _ h3 ih => exact .inMissing h1 ih h3
    | inExcluded h1 _ h3 ih => exact .inExcluded h1 ih h3
  · intro h
    induction h with
    | top h1 => exact .top h1 (own_iff.mpr rfl)
    | sub h1 _ h3 h4 ih => exact .sub h1 ih h3 h4 (own_iff.mpr rfl)
    | inMissing h1 _ h3 ih => exact .inMissing h1 ih h3
    | inExcluded h1 _ h3 ih => exact .inExcluded h1 ih h3

theorem of_unique {x n n'} (h : P.NodeOf conf x n) (h' : P.NodeOf conf x n') : n = n' :=
  Setup.NodeFor.unique (S := setup P (fun _ => []) id conf [] []) (node_for.mpr h) (node_for.mpr h')

theorem of_exists (x : Str) : ∃ n, P.NodeOf conf x n := by
  by_cases hd : '.' ∈ x
  · obtain ⟨p, hp⟩ := package_of_dot hd
    obtain ⟨q, hq⟩ := of_exists p
    cases hm : q.isMissing with
    | true => exact ⟨_, .inMissing hp hq hm⟩
    | false =>
      cases he : q.isExcluded with
      | true => exact ⟨_, .inExcluded hp hq he⟩
      | false => exact ⟨_, .sub hp hq hm he⟩
  · exact ⟨_, .top hd⟩
termination_by x.length
decreasing_by exact hp.shorter

theorem open_iff {x} : (setup P recs ord' conf mods scripts).Open x ↔ P.InPlace conf x := by
  constructor
  · rintro (hd | ⟨p, q, hp, hq, hm, he⟩) p' q' hp' hq'
    · exact absurd hp'.dot hd
    · have := hp'.unique hp
      subst this
      rw [of_unique hq' (node_for.mp hq)]
      exact ⟨hm, he⟩
  · intro hi
    by_cases hd : '.' ∈ x
    · obtain ⟨p, hp⟩ := package_of_dot hd
      obtain ⟨q, hq⟩ := of_exists (P := P) (conf := conf) p
      obtain ⟨hm, he⟩ := hi p q hp hq
      exact .inr ⟨p, q, hp, node_for.mpr hq, hm, he⟩
    · exact .inl hd

/-- Where names are taken from. -/
theorem source_of {t b c} (hb : (setup P recs ord' conf mods scripts).NodeFor t b)
    (h : (setup P recs ord' conf mods scripts).Source b c) : P.Source conf t c.ident ∧ P.NodeOf conf c.ident c := by
  have hb := node_for.mp hb
  rcases h with ⟨rfl, h⟩ | ⟨h1, h2⟩
  · rw [of_ident hb]
    exact ⟨.inl ⟨rfl, fun n v hn => by rw [of_unique hn hb]; exact h v⟩, hb⟩
  · have := of_alias hb h1
    subst this
    exact ⟨.inr hb, node_for.mp h2⟩

theorem of_source {t u c} (h : P.Source conf t u) (hc : P.NodeOf conf u c) :
    ∃ b, (setup P recs ord' conf mods scripts).NodeFor t b ∧ (setup P recs ord' conf mods scripts).Source b c := by
  rcases h with ⟨rfl, h⟩ | h
  · exact ⟨c, node_for.mpr hc, .inl ⟨rfl, fun v => h c v hc⟩⟩
  · refine ⟨_, node_for.mpr h, .inr ⟨?_, ?_⟩⟩
    · rw [of_ident hc]
    · rw [of_ident hc]; exact node_for.mpr hc

theorem pkg_iff {u c} (hc : P.NodeOf conf u c) : (c.isPackage = true ∨ c.isNamespacePkg = true) ↔ P.Pkg conf u :=
  ⟨fun h => ⟨c, hc, h⟩, fun ⟨_, h1, h2⟩ => by rw [of_unique hc h1]; exact h2⟩

variable (hC : P.Clear conf mods scripts)
include hC

/-- `six.moves` is not in the project. -/
theorem no_six {u c} (hc : P.NodeOf conf u c) : ¬ IsSixMoves c := by
  rintro ⟨fr, init, sp, hd, ns, hk, hi⟩
  have hc := of_pkg hc (.inl (by unfold Node.isPackage; rw [hk]))
  rw [hc] at hk
  rw [← (node_init hk).2, hi, node_none hC.noSix] at hk
  cases hk

theorem is_sub {u c nm} (hc : P.NodeOf conf u c) (hp : c.isPackage = true ∨ c.isNamespacePkg = true) :
    (setup P recs ord' conf mods scripts).IsSubmodule c nm ↔ P.Sub conf u nm := by
  have h6 := no_six hC hc
  have := of_pkg hc hp
  subst this
  unfold Setup.IsSubmodule Project.Sub
  rw [node_ident, node_namespace, node_globals]
  simp only [node_for, h6, false_and, false_or, not_false_eq_true, true_and]

theorem reached_proper {x} (h : P.Reached conf mods scripts (.module x)) : Proper x := by
  generalize hpl : Place.module x = pl at h
  induction h generalizing x with
  | asked h => cases hpl; exact hC.mentioned _ (.asked h)
  | package _ h ih => cases hpl; exact proper_package (ih rfl) h
  | along h0 h => cases hpl; exact hC.mentioned _ (.along h0 h)
  | implied h0 _ h => cases hpl; exact hC.mentioned _ (.implied h0 h)
  | text => cases hpl
  | script => cases hpl
  | imports h1 h2 => cases hpl; exact hC.mentioned _ (.imports h1 h2)
  | froms h1 h2 => cases hpl; exact hC.mentioned _ (.froms h1 h2)
  | names h1 h2 hs _ h3 =>
    cases hpl
    obtain ⟨n1, n2, n3, _⟩ := (names_from hC h1 h2).2.2 _ _ h3
    refine proper_sub (hC.mentioned _ ?_) n1 n2 n3
    rcases hs with ⟨rfl, _⟩ | hs
    · exact .froms h1 h2
    · exact .along (.froms h1 h2) (.inl ⟨_, hs, .inl rfl⟩)

omit hC in
theorem source_reached {x pkg tree way t names u} (h1 : P.Reached conf mods scripts (.text x pkg tree))
    (h2 : HasFrom x pkg tree way t names) (h3 : P.Source conf t u) : P.Reached conf mods scripts (.module u) := by
  rcases h3 with ⟨rfl, _⟩ | h3
  · exact .froms h1 h2
  · exact .along (.froms h1 h2) (.inl ⟨_, h3, .inl rfl⟩)

theorem tried_split {x} (h : P.Tried conf mods scripts x) :
    ∃ t nm, x = t ++ '.' :: nm ∧ nm ≠ [] ∧ '.' ∉ nm ∧ '/' ∉ nm ∧ P.Reached conf mods scripts (.module t) ∧
      P.Wanted conf mods scripts t nm ∧ P.Pkg conf t ∧ ¬ P.Sub conf t nm := by
  cases h with
  | mk h1 h2 hs h3 h4 hne h5 =>
    obtain ⟨n1, n2, n3, _⟩ := (names_from hC h1 h2).2.2 _ _ h4
    exact ⟨_, _, rfl, n1, n2, n3, source_reached h1 h2 hs, ⟨_, _, _, _, _, _, _, h1, h2, hs, h4, hne⟩, h3, h5⟩

theorem tried_node {x n} (h : P.Tried conf mods scripts x) (hn : P.NodeOf conf x n) : n.isMissing = true := by
  obtain ⟨t, nm, rfl, _, _, _, _, _, _, h⟩ := tried_split hC h
  rw [← Bool.not_eq_false]
  intro hm
  exact h (.inl ⟨n, hn, hm⟩)

theorem rt_proper {x} (h : P.Reached conf mods scripts (.module x) ∨ P.Tried conf mods scripts x) : Proper x := by
  rcases h with h | h
  · exact reached_proper hC h
  · obtain ⟨t, nm, rfl, n1, n2, n3, h, _⟩ := tried_split hC h
    exact proper_sub (reached_proper hC h) n1 n2 n3

theorem rt_package {x p} (h : P.Reached conf mods scripts (.module x) ∨ P.Tried conf mods scripts x)
    (hp : HasPackage x p) : P.Reached conf mods scripts (.module p) := by
  rcases h with h | h
  · exact .package h hp
  · obtain ⟨t, nm, rfl, n1, n2, n3, h, _⟩ := tried_split hC h
    rw [hp.unique (.name n2)]
    exact h

theorem rt_along {x t} (h : P.Reached conf mods scripts (.module x) ∨ P.Tried conf mods scripts x)
    (ha : P.Along conf x t) : P.Reached conf mods scripts (.module x) := by
  refine h.resolve_right fun h => ?_
  rcases ha with ⟨n, h1, h2⟩ | ⟨ns, h2, h1, -⟩
  · have := tried_node hC h h1
    unfold Node.isMissing at this
    rcases h2 with h2 | h2 <;> rw [h2] at this <;> simp at this
  · have := tried_node hC h h1
    obtain ⟨_, _, _, _, h3⟩ := node_ns h2
    unfold Node.isMissing at this
    rw [h3] at this
    simp at this

omit hC in
theorem along_package {x n fr init sp hd ns} (h : P.NodeOf conf x n) (hk : n.kind = .package fr init sp hd (some ns)) :
    P.Along conf x (Setup.nsModule ns) := by
  have := of_pkg h (.inl (by unfold Node.isPackage; rw [hk]))
  subst this
  exact .inr ⟨ns, (node_init hk).1.symm, h, rfl⟩

theorem rt_refs {x l} (h : P.Reached conf mods scripts (.module x) ∨ P.Tried conf mods scripts x)
    (hr : conf x = some (.refs l)) : P.Reached conf mods scripts (.module x) :=
  h.resolve_right fun h => hC.tried x l h hr

/-- The importing node of a text. -/
def Importer (P : Project) (m : Node) (x : Str) (pkg : Bool) : Prop :=
  m.ident = x ∧ (m.isPackage || m.isNamespacePkg) = pkg ∧
    (m = P.node x ∧ (∃ tree, P.text x = some (pkg, tree)) ∨ m = Setup.scriptNode x (P.resolve x))

/-- What a needed thing is in the project. -/
def Good (P : Project) (conf : Str → Option Implies) (mods scripts : List Str) : Setup.Thing → Prop
  | .module x false => P.Reached conf mods scripts (.module x)
  | .module x true => P.Reached conf mods scripts (.module x) ∨ P.Tried conf mods scripts x
  | .statement m i => ∃ x pkg tree, P.Reached conf mods scripts (.text x pkg tree) ∧ Importer P m x pkg ∧
      ∃ l, Recs tree l ∧ i ∈ l

omit hC in
theorem Good.rt {x tr} (h : Good P conf mods scripts (.module x tr)) :
    P.Reached conf mods scripts (.module x) ∨ P.Tried conf mods scripts x := by
  cases tr
  · exact .inl h
  · exact h

variable (ho : Scan P recs) (ho' : ord'.Ok)
include ho ho'

omit ho ho' in
/-- Statements of the setup are statements of the project. -/
theorem good_record {m i} (h : Good P conf mods scripts (.statement m i)) :
    ∃ x pkg tree, P.Reached conf mods scripts (.text x pkg tree) ∧ Importer P m x pkg ∧
      ((∃ way t a, ImportRec m tree i way t a) ∨ (∃ way t names, FromRec m x pkg tree i way t names) ∨
        ∃ way y names, OutRec m x pkg tree i way y names) := by
  obtain ⟨x, pkg, tree, h1, h2, l, h3, h4⟩ := h
  exact ⟨x, pkg, tree, h1, h2, record_of h3 hC h1 h2.1 h2.2.1 h4⟩

theorem needs_good {th} (h : (setup P recs ord' conf mods scripts).Needs th) :
    Good P conf mods scripts th := by
  induction h with
  | helper _ _ h => cases h
  | inCompiled _ _ h => cases h
  | asked h => exact .asked h
  | distribution h => exact h.elim
  | package _ h ih => exact rt_package hC ih.rt h
  | alias _ h1 h2 ih =>
    have ha : P.Along conf _ _ := .inl ⟨_, node_for.mp h1, h2⟩
    exact .along (rt_along hC ih.rt ha) ha
  | @implied x l r _ _ h1 h2 h3 ih => exact .implied (rt_refs hC ih.rt h2) (open_iff.mp h1) ⟨l, h2, h3⟩
  | @implying x l _ _ h2 ih => exact rt_refs hC ih h2
  | explicitNamespace _ h1 h2 ih =>
    have ha := along_package (node_for.mp h1) h2
    exact .along (rt_along hC ih.rt ha) ha
  | @inScript path l file i h1 h2 h3 =>
    obtain ⟨tree, h4, h5⟩ := Option.map_eq_some_iff.mp h2
    cases h5
    exact ⟨path, false, tree, .script h1 h4, ⟨rfl, rfl, .inr rfl⟩, _, .ast ho' tree, h3⟩
  | @inModule x n l i _ _ h1 h2 h3 ih =>
    have h1 := node_for.mp h1
    rw [of_ident h1] at h2
    obtain ⟨h4, rfl, rfl⟩ := mods_iff.mp h2
    have hr : P.Reached conf mods scripts (.module x) := by
      refine ih.rt.resolve_right fun h => ?_
      have h5 := tried_node hC h h1
      have h6 := node_loaded h4
      unfold Node.isMissing at h5
      unfold Node.isLoaded Node.isModule Node.isPackage Node.isNamespacePkg at h6
      split at h5 <;> simp_all
    cases ht : P.text x with
    | some p =>
      obtain ⟨pkg, tree⟩ := p
      exact ⟨x, pkg, tree, .text hr ⟨ht, h1⟩, ⟨node_ident, node_text ht, .inl ⟨rfl, _, ht⟩⟩, _, ho.text _ _ _ ht, h3⟩
    | none =>
      rw [ho.none x ht] at h3
      cases h3
  | target _ h1 ih =>
    obtain ⟨x, pkg, tree, h2, _, ⟨way, t, a, h3⟩ | ⟨way, t, names, h3⟩ | ⟨way, y, names, h3⟩⟩ := good_record hC ih
    · rw [h1.unique h3.refers]
      exact .imports h2 h3.has
    · rw [h1.unique h3.refers]
      exact .froms h2 h3.has
    · exact absurd h3.outside h1.inside
  | @name m i t b c nm _ h1 h2 h3 h4 h5 h6 ih =>
    obtain ⟨x, pkg, tree, r1, r2, ⟨way, t', a, r3⟩ | ⟨way, t', names, r3⟩ | ⟨way, y, names, r3⟩⟩ := good_record hC ih
    rotate_left 2
    · exact absurd r3.outside h1.inside
    · rw [r3.names] at h6
      cases h6
    · obtain ⟨s1, s2⟩ := source_of h2 h3
      have hF := r3.has
      rw [← h1.unique r3.refers] at hF
      obtain ⟨hnm, hne⟩ := (r3.names nm.name nm.asname).mpr h6
      by_cases hs : P.Sub conf c.ident nm.name
      · exact .inl (.names r1 hF s1 ((pkg_iff s2).mp h4) hnm hne hs)
      · exact .inr (.mk r1 hF s1 ((pkg_iff s2).mp h4) hnm hne hs)
  | sixMoves _ _ h2 h3 _ _ h6 => exact absurd h6.1 (no_six hC (source_of h2 h3).2)

/-- How the setup needs something that is reached. -/
def Need (P : Project) (recs : Str → List ImportInfo) (ord' : SetOrder) (conf : Str → Option Implies) (mods scripts : List Str) : Place → Prop
  | .module x => (setup P recs ord' conf mods scripts).Needs (.module x false) ∨
      ∃ m i c nm, (setup P recs ord' conf mods scripts).FromImport m i c nm ∧
        (c.isPackage = true ∨ c.isNamespacePkg = true) ∧
        (setup P recs ord' conf mods scripts).IsSubmodule c nm.name ∧ x = c.ident ++ '.' :: nm.name
  | .text x pkg tree => ∃ m l, Recs tree l ∧ Importer P m x pkg ∧
      ∀ i ∈ l, (setup P recs ord' conf mods scripts).Needs (.statement m i)

omit hC ho ho' in
theorem Need.module {x} (h : Need P recs ord' conf mods scripts (.module x)) :
    (setup P recs ord' conf mods scripts).NeedsModule x := by
  rcases h with h | ⟨m, i, c, nm, h1, h2, _, rfl⟩
  · exact ⟨_, h⟩
  · exact ⟨_, h1.tried h2⟩

omit ho ho' in
/-- `from` imports of the project are `from` imports of the setup. -/
theorem from_import {m i x pkg tree way t names u c nm a} (hr : P.Reached conf mods scripts (.text x pkg tree))
    (hm : (setup P recs ord' conf mods scripts).Needs (.statement m i)) (h : FromRec m x pkg tree i way t names)
    (hs : P.Source conf t u) (hc : P.NodeOf conf u c) (hnm : (nm, a) ∈ names) (hne : nm ≠ c!"*") :
    (setup P recs ord' conf mods scripts).FromImport m i c ⟨nm, a⟩ := by
  obtain ⟨b, h1, h2⟩ := of_source (recs := recs) (ord' := ord') (mods := mods) (scripts := scripts) hs hc
  refine ⟨hm, ?_, (h.names nm a).mp ⟨hnm, hne⟩, t, b, h.refers, h1, h2⟩
  rw [Bool.eq_false_iff]
  intro hst
  obtain ⟨a', h3⟩ := h.star.mp hst
  exact hne ((names_from hC hr h.has).2.1 _ _ _ h3 hnm)

theorem reached_need {pl} (h : P.Reached conf mods scripts pl) : Need P recs ord' conf mods scripts pl := by
  induction h with
  | asked h => exact .inl (.asked h)
  | package _ h ih =>
    obtain ⟨tr, ih⟩ := ih.module
    exact .inl (.package ih h)
  | along _ h ih =>
    obtain ⟨tr, ih⟩ := ih.module
    rcases h with ⟨n, h1, h2⟩ | ⟨ns, h2, h1, rfl⟩
    · exact .inl (.alias ih (node_for.mpr h1) h2)
    · obtain ⟨_, _, _, _, h3⟩ := node_ns h2
      exact .inl (.explicitNamespace ih (node_for.mpr h1) h3)
  | implied h1 h2 h3 ih =>
    obtain ⟨tr, ih⟩ := ih.module
    obtain ⟨l, h3, h4⟩ := h3
    exact .inl (.implied ih (open_iff.mpr h2) h3 h4)
  | @text x pkg tree h1 h2 ih =>
    obtain ⟨tr, ih⟩ := ih.module
    obtain ⟨h2, h3⟩ := h2
    refine ⟨P.node x, recs x, ho.text _ _ _ h2, ⟨node_ident, node_text h2, .inl ⟨rfl, _, h2⟩⟩, fun i hi => ?_⟩
    refine .inModule (infos := recs x) ih (node_for.mpr h3) ?_ ?_
    · rw [node_ident]
      exact mods_iff.mpr ⟨text_item h2, rfl, rfl⟩
    · exact hi
  | @script path tree h1 h2 =>
    refine ⟨_, _, .ast ho' tree, ⟨rfl, rfl, .inr rfl⟩, fun i hi => .inScript (infos := extractAstInfo ord' tree) h1 ?_ hi⟩
    show (P.script path).map _ = _
    rw [h2]
    rfl
  | imports h1 h2 ih =>
    obtain ⟨m, o, ok, hm, ih⟩ := ih
    obtain ⟨i, h3, h4⟩ := import_of (m := m) ok h2
    exact .inl (.target (ih i h3) h4.refers)
  | froms h1 h2 ih =>
    obtain ⟨m, o, ok, hm, ih⟩ := ih
    obtain ⟨i, h3, h4⟩ := from_of ok hC h1 hm.1 hm.2.1 h2
    exact .inl (.target (ih i h3) h4.refers)
  | @names x pkg tree way t names u nm a h1 h2 hs h3 h4 hne h5 ih =>
    obtain ⟨m, o, ok, hm, ih⟩ := ih
    obtain ⟨i, h6, h7⟩ := from_of ok hC h1 hm.1 hm.2.1 h2
    obtain ⟨c, hc, hp⟩ := h3
    refine .inr ⟨m, i, c, ⟨nm, a⟩, from_import hC h1 (ih i h6) h7 hs hc h4 hne, hp, ?_, by rw [of_ident hc]⟩
    exact (is_sub hC hc hp).mpr h5

theorem tried_need {x} (h : P.Tried conf mods scripts x) :
    (setup P recs ord' conf mods scripts).Needs (.module x true) := by
  obtain ⟨h1, h2, hs, h3, h4, hne, h5⟩ := h
  obtain ⟨m, o, ok, hm, ih⟩ := reached_need hC ho ho' h1
  obtain ⟨i, h6, h7⟩ := from_of ok hC h1 hm.1 hm.2.1 h2
  obtain ⟨c, hc, hp⟩ := h3
  have := (from_import hC h1 (ih i h6) h7 hs hc h4 hne).tried hp
  rw [of_ident hc] at this
  exact this

theorem needs_iff {x} : (setup P recs ord' conf mods scripts).NeedsModule x ↔
    (P.Reached conf mods scripts (.module x) ∨ P.Tried conf mods scripts x) := by
  constructor
  · rintro ⟨tr, h⟩
    exact (needs_good hC ho ho' h).rt
  · rintro (h | h)
    · exact (reached_need hC ho ho' h).module
    · exact ⟨_, tried_need hC ho ho' h⟩

/-- `from` imports of the setup are `from` imports of the project. -/
theorem import_from {m i c nm} (h : (setup P recs ord' conf mods scripts).FromImport m i c nm) :
    ∃ x pkg tree way t names, P.Reached conf mods scripts (.text x pkg tree) ∧ Importer P m x pkg ∧
      FromRec m x pkg tree i way t names ∧ P.Source conf t c.ident ∧ P.NodeOf conf c.ident c ∧
      (nm.name, nm.asname) ∈ names ∧ nm.name ≠ c!"*" := by
  obtain ⟨h1, h2, h3, t, b, h4, h5, h6⟩ := h
  obtain ⟨x, pkg, tree, r1, r2, ⟨way, t', a, r3⟩ | ⟨way, t', names, r3⟩ | ⟨way, y, names, r3⟩⟩ :=
    good_record hC (needs_good hC ho ho' h1)
  rotate_left 2
  · exact absurd r3.outside h4.inside
  · rw [r3.names] at h3
    cases h3
  · have ht := h4.unique r3.refers
    subst ht
    obtain ⟨s1, s2⟩ := source_of h5 h6
    obtain ⟨hnm, hne⟩ := (r3.names _ _).mpr h3
    exact ⟨x, pkg, tree, way, t, names, r1, r2, r3, s1, s2, hnm, hne⟩

/-! ## Nodes and edges -/

omit hC ho ho' in
/-- Plain modules that have global variables are those that have a text. -/
theorem module_text {u c nm} (h : P.NodeOf conf u c) (hm : c.isModule = true) (hg : nm ∈ c.globalsWritten) :
    (∃ tree, P.HasText conf u false tree) ∧ nm ∈ P.globals u := by
  have hg' := of_globals h hg
  refine ⟨?_, hg'⟩
  rcases shape h with rfl | rfl | ⟨t, rfl⟩ | ⟨t, rfl⟩ | rfl
  · unfold Project.HasText Project.text
    unfold Project.globals at hg'
    unfold Project.node at hm
    split at hg'
    case h_5 => cases hg'
    all_goals
      rename_i hi
      simp only [hi] at hm ⊢
      first | exact ⟨_, rfl, h⟩ | cases hm
  all_goals cases hg

omit hC ho ho' in
theorem text_module {u tree} (h : P.text u = some (false, tree)) : (P.node u).isModule = true := by
  unfold Project.text at h
  unfold Project.node
  split at h <;> simp_all [Node.isModule]

theorem has_node {n} : (setup P recs ord' conf mods scripts).HasNode n ↔
    (∃ x, (P.Reached conf mods scripts (.module x) ∨ P.Tried conf mods scripts x) ∧ P.NodeOf conf x n) ∨
      (∃ path ∈ scripts, n = Setup.scriptNode path (P.resolve path)) ∨
      ∃ y, P.Outside conf mods scripts y ∧ n = { ident := y, kind := .invalidRel } := by
  constructor
  · intro h
    cases h with
    | module h1 h2 => exact .inl ⟨_, (needs_iff hC ho ho').mp h1, node_for.mp h2⟩
    | @script path l file h1 h2 =>
      obtain ⟨tree, _, h5⟩ := Option.map_eq_some_iff.mp h2
      cases h5
      exact .inr (.inl ⟨path, h1, rfl⟩)
    | distribution h => exact h.elim
    | invalid h1 h2 =>
      obtain ⟨x, pkg, tree, r1, _, ⟨_, _, _, r⟩ | ⟨_, _, _, r⟩ | ⟨_, _, _, r⟩⟩ :=
        good_record hC (needs_good hC ho ho' h1)
      · exact absurd h2 r.refers.inside
      · exact absurd h2 r.refers.inside
      · exact .inr (.inr ⟨_, ⟨_, _, _, _, _, r1, r.has⟩, by rw [r.ident]⟩)
  · rintro (⟨x, h, hn⟩ | ⟨path, h, rfl⟩ | ⟨y, ⟨x, pkg, tree, way, names, h1, h2⟩, rfl⟩)
    · exact .module ((needs_iff hC ho ho').mpr h) (node_for.mpr hn)
    · have hs := (hC.script path h).1
      cases hp : P.script path with
      | none => exact absurd hp hs
      | some tree =>
        refine .script (infos := extractAstInfo ord' tree) h ?_
        show (P.script path).map _ = _
        rw [hp]
        rfl
    · obtain ⟨m, o, ok, hm, ih⟩ := reached_need hC ho ho' h1
      obtain ⟨i, h4, r⟩ := out_of ok hC h1 hm.1 hm.2.1 h2
      rw [← r.ident]
      exact .invalid (ih i h4) r.outside

theorem has_edge {a b d} : (setup P recs ord' conf mods scripts).HasEdge a b d ↔ P.Edge conf mods scripts a b d := by
  constructor
  · intro h
    induction h with
    | helper _ _ h => cases h
    | passedOn h1 h2 h3 _ h5 ih =>
      obtain ⟨x, pkg, tree, way, t, names, r1, r2, r, s1, s2, hnm, hne⟩ := import_from hC ho ho' h1
      obtain ⟨⟨tree', h6⟩, h7⟩ := module_text s2 h2 h3
      rw [r2.1]
      exact .passedOn r1 r.has s1 h6 hnm hne h7 ih h5 (r.says _ _)
    | statement h1 h2 =>
      obtain ⟨x, pkg, tree, r1, r2, ⟨way, t, a, r⟩ | ⟨way, t, names, r⟩ | ⟨way, y, names, r⟩⟩ :=
        good_record hC (needs_good hC ho ho' h1)
      rotate_left 2
      · exact absurd r.outside h2.inside
      · rw [h2.unique r.refers, r2.1]
        exact .imports r1 r.has (r.asname ▸ r.says _ _)
      · rw [h2.unique r.refers, r2.1]
        exact .froms r1 r.has (by rw [r.asname]; exact r.says _ _)
    | invalid h1 h2 =>
      obtain ⟨x, pkg, tree, r1, r2, ⟨_, _, _, r⟩ | ⟨_, _, _, r⟩ | ⟨_, _, _, r⟩⟩ :=
        good_record hC (needs_good hC ho ho' h1)
      · exact absurd h2 r.refers.inside
      · exact absurd h2 r.refers.inside
      · rw [r2.1, r.ident]
        exact .outside r1 r.has (r.says _ _)
    | distribution h => exact h.elim
    | package h1 h2 => exact .package (needs_good hC ho ho' h1) h2
    | packageOfFound h1 h2 h3 h4 =>
      have h5 := (needs_good hC ho ho' h1).rt
      refine .package (h5.resolve_right fun h => ?_) h4
      rw [tried_node hC h (node_for.mp h2)] at h3
      cases h3
    | alias h1 h2 h3 =>
      have ha : P.Along conf _ _ := .inl ⟨_, node_for.mp h2, h3⟩
      exact .along (rt_along hC ((needs_iff hC ho ho').mp h1) ha) ha
    | implied h1 h2 h3 h4 =>
      exact .implied (rt_refs hC ((needs_iff hC ho ho').mp h1) h3) (open_iff.mp h2) ⟨_, h3, h4⟩
    | explicitNamespace h1 h2 h3 =>
      have ha := along_package (node_for.mp h2) h3
      exact .along (rt_along hC ((needs_iff hC ho ho').mp h1) ha) ha
    | sixMoves h1 h2 =>
      obtain ⟨_, _, _, t, b, _, k1, k2⟩ := h1
      exact absurd h2.1 (no_six hC (source_of k1 k2).2)
    | fromName h1 h2 h3 =>
      obtain ⟨x, pkg, tree, way, t, names, r1, r2, r, s1, s2, hnm, hne⟩ := import_from hC ho ho' h1
      rw [r2.1]
      exact .names r1 r.has s1 ((pkg_iff s2).mp h2) hnm hne ((is_sub hC s2 h2).mp h3) (r.says _ _)
    | fromPackage h1 h2 h3 =>
      obtain ⟨x, pkg, tree, way, t, names, r1, r2, r, s1, s2, hnm, hne⟩ := import_from hC ho ho' h1
      refine .package (.names r1 r.has s1 ((pkg_iff s2).mp h2) hnm hne ((is_sub hC s2 h2).mp h3)) (.name ?_)
      exact ((names_from hC r1 r.has).2.2 _ _ hnm).2.1
  · intro h
    induction h with
    | @passedOn x pkg tree way t names u tree' nm a b d d' h1 h2 hs h3 h4 hne h5 _ h6 h7 ih0 =>
      obtain ⟨m, o, ok, hm, ih⟩ := reached_need hC ho ho' h1
      obtain ⟨i, h8, r⟩ := from_of ok hC h1 hm.1 hm.2.1 h2
      rw [← hm.1, says_unique h7 (r.says _ _)]
      refine .passedOn (from_import hC h1 (ih i h8) r hs h3.2 h4 hne) (text_module h3.1) ?_ ?_ h6
      · rw [node_globals]; exact h5
      · rw [node_ident]; exact ih0
    | imports h1 h2 h3 =>
      obtain ⟨m, o, ok, hm, ih⟩ := reached_need hC ho ho' h1
      obtain ⟨i, h4, r⟩ := import_of (m := m) ok h2
      rw [← hm.1, says_unique h3 (r.says _ _), ← r.asname]
      exact .statement (ih i h4) r.refers
    | froms h1 h2 h3 =>
      obtain ⟨m, o, ok, hm, ih⟩ := reached_need hC ho ho' h1
      obtain ⟨i, h4, r⟩ := from_of ok hC h1 hm.1 hm.2.1 h2
      rw [← hm.1, says_unique h3 (r.says _ _), ← r.asname]
      exact .statement (ih i h4) r.refers
    | outside h1 h2 h3 =>
      obtain ⟨m, o, ok, hm, ih⟩ := reached_need hC ho ho' h1
      obtain ⟨i, h4, r⟩ := out_of ok hC h1 hm.1 hm.2.1 h2
      rw [← hm.1, says_unique h3 (r.says _ _), ← r.ident]
      exact .invalid (ih i h4) r.outside
    | @names x pkg tree way t names u nm a d h1 h2 hs h3 h4 hne h5 h6 =>
      obtain ⟨m, o, ok, hm, ih⟩ := reached_need hC ho ho' h1
      obtain ⟨i, h7, r⟩ := from_of ok hC h1 hm.1 hm.2.1 h2
      obtain ⟨c, hc, hp⟩ := h3
      rw [← hm.1, says_unique h6 (r.says _ _)]
      have := Setup.HasEdge.fromName (from_import hC h1 (ih i h7) r hs hc h4 hne) hp ((is_sub hC hc hp).mpr h5)
      rw [of_ident hc] at this
      exact this
    | package h1 h2 =>
      rcases reached_need hC ho ho' h1 with h | ⟨m, i, c, nm, h3, h4, h5, rfl⟩
      · exact .package h h2
      · obtain ⟨x, pkg, tree, way, t, names, r1, r2, r, _, _, hnm, _⟩ := import_from hC ho ho' h3
        have := ((names_from hC r1 r.has).2.2 _ _ hnm).2.1
        rw [h2.unique (.name this)]
        exact .fromPackage h3 h4 h5
    | along h1 h2 =>
      rcases h2 with ⟨n, h2, h3⟩ | ⟨ns, h3, h2, rfl⟩
      · exact .alias ((needs_iff hC ho ho').mpr (.inl h1)) (node_for.mpr h2) h3
      · obtain ⟨_, _, _, _, h4⟩ := node_ns h3
        exact .explicitNamespace ((needs_iff hC ho ho').mpr (.inl h1)) (node_for.mpr h2) h4
    | implied h1 h2 h3 =>
      obtain ⟨l, h3, h4⟩ := h3
      exact .implied ((needs_iff hC ho ho').mpr (.inl h1)) (open_iff.mpr h2) h3 h4

omit hC ho ho' in
/-- Edges lead to what is reached, or outside. -/
theorem edge_reached {x b d} (h : P.Edge conf mods scripts x b d) :
    P.Reached conf mods scripts (.module b) ∨ P.Outside conf mods scripts b := by
  induction h with
  | imports h1 h2 => exact .inl (.imports h1 h2)
  | froms h1 h2 => exact .inl (.froms h1 h2)
  | names h1 h2 hs h3 h4 hne h5 => exact .inl (.names h1 h2 hs h3 h4 hne h5)
  | outside h1 h2 => exact .inr ⟨_, _, _, _, _, h1, h2⟩
  | package h1 h2 => exact .inl (.package h1 h2)
  | along h1 h2 => exact .inl (.along h1 h2)
  | implied h1 h2 h3 => exact .inl (.implied h1 h2 h3)
  | passedOn _ _ _ _ _ _ _ _ _ _ ih => exact ih

end
end Verif.Proj
