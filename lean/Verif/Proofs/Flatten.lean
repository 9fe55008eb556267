import Verif.Proofs.ExactDone
import Verif.Spec.SafeSpec
/-!
# Distributions are modules that are asked for

A setup with distributions needs what the setup needs in which the client asks for the modules of the
distributions.
-/
namespace Verif.Spec.Setup
open Verif Spec

/-- The client asks for the modules of the distributions instead of the distributions. -/
def flat (S : Setup) : Setup :=
  { S with
    asksModule := fun x => S.asksModule x ∨ ∃ d, S.asksDist d ∧ x ∈ d.importNames
    asksDist := fun _ => False }

variable {S : Setup}

theorem flat_own {x n} : S.flat.Own x n ↔ S.Own x n := by
  constructor
  · intro h
    cases h with
    | excluded h => exact .excluded h
    | alias h => exact .alias h
    | «virtual» h => exact .virtual h
    | found h1 h2 h3 => exact .found h1 h2 h3
    | foundAs h1 h2 h3 => exact .foundAs h1 h2 h3
    | absent h1 h2 => exact .absent h1 h2
  · intro h
    cases h with
    | excluded h => exact .excluded h
    | alias h => exact .alias h
    | «virtual» h => exact .virtual h
    | found h1 h2 h3 => exact .found h1 h2 h3
    | foundAs h1 h2 h3 => exact .foundAs h1 h2 h3
    | absent h1 h2 => exact .absent h1 h2

theorem flat_nodeFor {x n} : S.flat.NodeFor x n ↔ S.NodeFor x n := by
  constructor
  · intro h
    induction h with
    | top h1 h2 => exact .top h1 (flat_own.mp h2)
    | sub h1 _ h2 h3 h4 ih => exact .sub h1 ih h2 h3 (flat_own.mp h4)
    | inMissing h1 _ h2 ih => exact .inMissing h1 ih h2
    | inExcluded h1 _ h2 ih => exact .inExcluded h1 ih h2
  · intro h
    induction h with
    | top h1 h2 => exact .top h1 (flat_own.mpr h2)
    | sub h1 _ h2 h3 h4 ih => exact .sub h1 ih h2 h3 (flat_own.mpr h4)
    | inMissing h1 _ h2 ih => exact .inMissing h1 ih h2
    | inExcluded h1 _ h2 ih => exact .inExcluded h1 ih h2

theorem flat_open {x} : S.flat.Open x ↔ S.Open x := by
  unfold Open
  simp only [flat_nodeFor]

theorem flat_source {b c} : S.flat.Source b c ↔ S.Source b c := by
  unfold Source
  simp only [flat_nodeFor]

theorem flat_sent {c nm r} : S.flat.Sent c nm r ↔ S.Sent c nm r := by
  unfold Sent
  simp only [flat_nodeFor]

theorem flat_needs {th} : S.flat.Needs th ↔ S.Needs th := by
  constructor
  · intro h
    induction h with
    | asked h =>
      rcases h with h | ⟨d, h1, h2⟩
      · exact .asked h
      · exact .distribution h1 h2
    | distribution h => exact h.elim
    | package _ h ih => exact .package ih h
    | alias _ h1 h2 ih => exact .alias ih (flat_nodeFor.mp h1) h2
    | implied _ h1 h2 h3 ih => exact .implied ih (flat_open.mp h1) h2 h3
    | implying _ h1 h2 ih => exact .implying ih (flat_open.mp h1) h2
    | explicitNamespace _ h1 h2 ih => exact .explicitNamespace ih (flat_nodeFor.mp h1) h2
    | inScript h1 h2 h3 => exact .inScript h1 h2 h3
    | inModule _ h1 h2 h3 ih => exact .inModule ih (flat_nodeFor.mp h1) h2 h3
    | helper _ h1 h2 ih => exact .helper ih (flat_nodeFor.mp h1) h2
    | inCompiled _ h1 h2 h3 ih => exact .inCompiled ih (flat_nodeFor.mp h1) h2 h3
    | target _ h ih => exact .target ih h
    | name _ h1 h2 h3 h4 h5 h6 ih => exact .name ih h1 (flat_nodeFor.mp h2) (flat_source.mp h3) h4 h5 h6
    | sixMoves _ h1 h2 h3 h4 h5 h6 ih =>
      exact .sixMoves ih h1 (flat_nodeFor.mp h2) (flat_source.mp h3) h4 h5 (flat_sent.mp h6)
  · intro h
    induction h with
    | asked h => exact .asked (.inl h)
    | distribution h1 h2 => exact .asked (.inr ⟨_, h1, h2⟩)
    | package _ h ih => exact .package ih h
    | alias _ h1 h2 ih => exact .alias ih (flat_nodeFor.mpr h1) h2
    | implied _ h1 h2 h3 ih => exact .implied ih (flat_open.mpr h1) h2 h3
    | implying _ h1 h2 ih => exact .implying ih (flat_open.mpr h1) h2
    | explicitNamespace _ h1 h2 ih => exact .explicitNamespace ih (flat_nodeFor.mpr h1) h2
    | inScript h1 h2 h3 => exact .inScript h1 h2 h3
    | inModule _ h1 h2 h3 ih => exact .inModule ih (flat_nodeFor.mpr h1) h2 h3
    | helper _ h1 h2 ih => exact .helper ih (flat_nodeFor.mpr h1) h2
    | inCompiled _ h1 h2 h3 ih => exact .inCompiled ih (flat_nodeFor.mpr h1) h2 h3
    | target _ h ih => exact .target ih h
    | name _ h1 h2 h3 h4 h5 h6 ih => exact .name ih h1 (flat_nodeFor.mpr h2) (flat_source.mpr h3) h4 h5 h6
    | sixMoves _ h1 h2 h3 h4 h5 h6 ih =>
      exact .sixMoves ih h1 (flat_nodeFor.mpr h2) (flat_source.mpr h3) h4 h5 (flat_sent.mpr h6)

theorem flat_needsModule {x} : S.flat.NeedsModule x ↔ S.NeedsModule x := by
  unfold NeedsModule
  simp only [flat_needs]

theorem flat_fromImport {m i c nm} : S.flat.FromImport m i c nm ↔ S.FromImport m i c nm := by
  unfold FromImport
  simp only [flat_needs, flat_nodeFor, flat_source]

theorem flat_isSubmodule {c nm} : S.flat.IsSubmodule c nm ↔ S.IsSubmodule c nm := by
  unfold IsSubmodule
  simp only [flat_nodeFor]

theorem flat_hasNode {n} : S.HasNode n ↔ S.flat.HasNode n ∨ ∃ d, S.asksDist d ∧ n = distributionNode d := by
  constructor
  · intro h
    cases h with
    | module h1 h2 => exact .inl (.module (flat_needsModule.mpr h1) (flat_nodeFor.mpr h2))
    | script h1 h2 => exact .inl (.script h1 h2)
    | distribution h => exact .inr ⟨_, h, rfl⟩
    | invalid h1 h2 => exact .inl (.invalid (flat_needs.mpr h1) h2)
  · rintro (h | ⟨d, h, rfl⟩)
    · cases h with
      | module h1 h2 => exact .module (flat_needsModule.mp h1) (flat_nodeFor.mp h2)
      | script h1 h2 => exact .script h1 h2
      | distribution h => exact h.elim
      | invalid h1 h2 => exact .invalid (flat_needs.mp h1) h2
    · exact .distribution h

theorem flat_mayDefine {x nm} : S.flat.MayDefine x nm ↔ S.MayDefine x nm := by
  constructor
  · intro h
    induction h with
    | own h1 h2 => exact .own (flat_hasNode.mpr (.inl h1)) h2
    | byName h1 h2 => exact .byName (flat_needs.mp h1) h2
    | byStar h1 h2 h3 _ ih => exact .byStar (flat_needs.mp h1) h2 h3 ih
  · intro h
    induction h with
    | own h1 h2 =>
      rcases flat_hasNode.mp h1 with h1 | ⟨d, _, rfl⟩
      · exact .own h1 h2
      · cases h2
    | byName h1 h2 => exact .byName (flat_needs.mpr h1) h2
    | byStar h1 h2 h3 _ ih => exact .byStar (flat_needs.mpr h1) h2 h3 ih

theorem flat_draws {x y} : S.flat.Draws x y ↔ S.Draws x y := by
  constructor
  · intro h
    induction h with
    | self => exact .self
    | package _ h ih => exact .package ih h
    | alias _ h ih => exact .alias ih h
    | implied _ h1 h2 ih => exact .implied ih h1 h2
    | foundAs _ h ih => exact .foundAs ih h
    | explicitNamespace _ h1 h2 ih => exact .explicitNamespace ih h1 h2
  · intro h
    induction h with
    | self => exact .self
    | package _ h ih => exact .package ih h
    | alias _ h ih => exact .alias ih h
    | implied _ h1 h2 ih => exact .implied ih h1 h2
    | foundAs _ h ih => exact .foundAs ih h
    | explicitNamespace _ h1 h2 ih => exact .explicitNamespace ih h1 h2

theorem flat_drawsIn {x y} : S.flat.DrawsIn x y ↔ S.DrawsIn x y := by
  unfold DrawsIn
  rw [flat_draws]
  exact Iff.rfl

theorem flat_drawsFrom {e nm y} : S.flat.DrawsFrom e nm y ↔ S.DrawsFrom e nm y := by
  unfold DrawsFrom
  simp only [flat_drawsIn, flat_sent, flat_draws]

theorem flat_brings {x y} : S.flat.Brings x y ↔ S.Brings x y := by
  constructor
  · intro h
    induction h with
    | self => exact .self
    | package _ h ih => exact .package ih h
    | alias _ h1 h2 ih => exact .alias ih (flat_nodeFor.mp h1) h2
    | implied _ h1 h2 h3 ih => exact .implied ih (flat_open.mp h1) h2 h3
    | explicitNamespace _ h1 h2 ih => exact .explicitNamespace ih (flat_nodeFor.mp h1) h2
  · intro h
    induction h with
    | self => exact .self
    | package _ h ih => exact .package ih h
    | alias _ h1 h2 ih => exact .alias ih (flat_nodeFor.mpr h1) h2
    | implied _ h1 h2 h3 ih => exact .implied ih (flat_open.mpr h1) h2 h3
    | explicitNamespace _ h1 h2 ih => exact .explicitNamespace ih (flat_nodeFor.mpr h1) h2

/-- Modules from which names are imported are needed. -/
theorem FromImport.needed {m i c nm} (h : S.FromImport m i c nm) : S.NeedsModule c.ident := by
  obtain ⟨h1, _, _, t, b, h2, h3, h4 | h4⟩ := h
  · rw [h4.1, h3.ident]
    exact ⟨_, .target h1 h2⟩
  · exact ⟨_, .alias (.target h1 h2) h3 (.inl h4.1)⟩

section
variable (hdn : ∀ d, S.asksDist d → ¬ S.NeedsModule d.identifier)
include hdn

theorem flat_hasEdge {a b e} : S.HasEdge a b e ↔
    S.flat.HasEdge a b e ∨ ∃ d, S.asksDist d ∧ a = d.identifier ∧ b ∈ d.importNames ∧ e = defaultDep := by
  constructor
  · intro h
    induction h with
    | statement h1 h2 => exact .inl (.statement (flat_needs.mpr h1) h2)
    | invalid h1 h2 => exact .inl (.invalid (flat_needs.mpr h1) h2)
    | distribution h1 h2 => exact .inr ⟨_, h1, rfl, h2, rfl⟩
    | package h1 h2 => exact .inl (.package (flat_needs.mpr h1) h2)
    | packageOfFound h1 h2 h3 h4 => exact .inl (.packageOfFound (flat_needs.mpr h1) (flat_nodeFor.mpr h2) h3 h4)
    | alias h1 h2 h3 => exact .inl (.alias (flat_needsModule.mpr h1) (flat_nodeFor.mpr h2) h3)
    | implied h1 h2 h3 h4 => exact .inl (.implied (flat_needsModule.mpr h1) (flat_open.mpr h2) h3 h4)
    | explicitNamespace h1 h2 h3 =>
      exact .inl (.explicitNamespace (flat_needsModule.mpr h1) (flat_nodeFor.mpr h2) h3)
    | fromName h1 h2 h3 => exact .inl (.fromName (flat_fromImport.mpr h1) h2 (flat_isSubmodule.mpr h3))
    | fromPackage h1 h2 h3 => exact .inl (.fromPackage (flat_fromImport.mpr h1) h2 (flat_isSubmodule.mpr h3))
    | sixMoves h1 h2 => exact .inl (.sixMoves (flat_fromImport.mpr h1) (flat_sent.mpr h2))
    | helper h1 h2 h3 => exact .inl (.helper (flat_needsModule.mpr h1) (flat_nodeFor.mpr h2) h3)
    | passedOn h1 h2 h3 _ h5 ih =>
      rcases ih with ih | ⟨d, h6, h7, _⟩
      · exact .inl (.passedOn (flat_fromImport.mpr h1) h2 h3 ih h5)
      · exact absurd (h7 ▸ h1.needed) (hdn d h6)
  · rintro (h | ⟨d, h1, rfl, h2, rfl⟩)
    · induction h with
      | statement h1 h2 => exact .statement (flat_needs.mp h1) h2
      | invalid h1 h2 => exact .invalid (flat_needs.mp h1) h2
      | distribution h1 h2 => exact h1.elim
      | package h1 h2 => exact .package (flat_needs.mp h1) h2
      | packageOfFound h1 h2 h3 h4 => exact .packageOfFound (flat_needs.mp h1) (flat_nodeFor.mp h2) h3 h4
      | alias h1 h2 h3 => exact .alias (flat_needsModule.mp h1) (flat_nodeFor.mp h2) h3
      | implied h1 h2 h3 h4 => exact .implied (flat_needsModule.mp h1) (flat_open.mp h2) h3 h4
      | explicitNamespace h1 h2 h3 => exact .explicitNamespace (flat_needsModule.mp h1) (flat_nodeFor.mp h2) h3
      | fromName h1 h2 h3 => exact .fromName (flat_fromImport.mp h1) h2 (flat_isSubmodule.mp h3)
      | fromPackage h1 h2 h3 => exact .fromPackage (flat_fromImport.mp h1) h2 (flat_isSubmodule.mp h3)
      | sixMoves h1 h2 => exact .sixMoves (flat_fromImport.mp h1) (flat_sent.mp h2)
      | helper h1 h2 h3 => exact .helper (flat_needsModule.mp h1) (flat_nodeFor.mp h2) h3
      | passedOn h1 h2 h3 _ h5 ih => exact .passedOn (flat_fromImport.mp h1) h2 h3 ih h5
    · exact .distribution h1 h2

theorem flat_edge_of {a b e} (h : S.HasEdge a b e) (ha : ∀ d, S.asksDist d → a ≠ d.identifier) :
    S.flat.HasEdge a b e := by
  rcases (flat_hasEdge hdn).mp h with h | ⟨d, h1, h2, _⟩
  · exact h
  · exact absurd h2 (ha d h1)

theorem flat_byStatement {m j b e} : S.flat.ByStatement m j b e ↔ S.ByStatement m j b e := by
  constructor
  · intro h
    cases h with
    | target h => exact .target h
    | submodule h1 h2 h3 => exact .submodule (flat_fromImport.mp h1) h2 (flat_isSubmodule.mp h3)
    | sixMoves h1 h2 => exact .sixMoves (flat_fromImport.mp h1) (flat_sent.mp h2)
    | passedOn h1 h2 h3 h4 h5 => exact .passedOn (flat_fromImport.mp h1) h2 h3 ((flat_hasEdge hdn).mpr (.inl h4)) h5
  · intro h
    cases h with
    | target h => exact .target h
    | submodule h1 h2 h3 => exact .submodule (flat_fromImport.mpr h1) h2 (flat_isSubmodule.mpr h3)
    | sixMoves h1 h2 => exact .sixMoves (flat_fromImport.mpr h1) (flat_sent.mpr h2)
    | passedOn h1 h2 h3 h4 h5 =>
      exact .passedOn (flat_fromImport.mpr h1) h2 h3
        (flat_edge_of hdn h4 fun d hd he => hdn d hd (he ▸ h1.needed)) h5
end

/-- Edges lead to needed modules. -/
theorem HasEdge.target_named {a b e} (h : S.HasEdge a b e) : S.NeedsModule b ∨ b.head? = some '.' := by
  induction h with
  | statement h1 h2 => exact .inl ⟨_, .target h1 h2⟩
  | @invalid m i h1 h2 =>
    have := h2.1
    right
    cases hl : i.importLevel with
    | zero => omega
    | succ k => simp [List.replicate_succ]
  | distribution h1 h2 => exact .inl ⟨_, .distribution h1 h2⟩
  | package h1 h2 => exact .inl ⟨_, .package h1 h2⟩
  | packageOfFound h1 h2 h3 h4 => exact .inl ⟨_, .package h1 h4⟩
  | alias h1 h2 h3 =>
    obtain ⟨tr, h1⟩ := h1
    exact .inl ⟨_, .alias h1 h2 h3⟩
  | implied h1 h2 h3 h4 =>
    obtain ⟨tr, h1⟩ := h1
    exact .inl ⟨_, .implied h1 h2 h3 h4⟩
  | explicitNamespace h1 h2 h3 =>
    obtain ⟨tr, h1⟩ := h1
    exact .inl ⟨_, .explicitNamespace h1 h2 h3⟩
  | fromName h1 h2 h3 =>
    obtain ⟨h4, h5, h6, t, b, h7, h8, h9⟩ := h1
    exact .inl ⟨_, .name h4 h7 h8 h9 h2 h5 h6⟩
  | fromPackage h1 h2 h3 => exact .inl h1.needed
  | sixMoves h1 h2 =>
    obtain ⟨h4, h5, h6, t, b, h7, h8, h9⟩ := h1
    exact .inl ⟨_, .sixMoves h4 h7 h8 h9 h5 h6 h2⟩
  | helper h1 h2 h3 =>
    obtain ⟨tr, h1⟩ := h1
    exact .inl ⟨_, .helper h1 h2 h3⟩
  | passedOn _ _ _ _ _ ih => exact ih

theorem flat_hasMypyc (h : S.HasMypyc) : S.flat.HasMypyc := by
  obtain ⟨n, file, helper, h1, h2⟩ := h
  rcases flat_hasNode.mp h1 with h | ⟨d, _, rfl⟩
  · exact ⟨n, file, helper, h, h2⟩
  · obtain ⟨_, h3, _⟩ := h2.dist
    cases h3

/-- If the setup that asks for the modules of the distributions is tame, so is the one with distributions. -/
theorem Tame.of_flat (hT : S.flat.Tame)
    (hdn : ∀ d, S.asksDist d → ¬ S.NeedsModule d.identifier ∧ d.identifier.head? ≠ some '.' ∧
      ¬ S.asksScript d.identifier)
    (hds : ∀ d d', S.asksDist d → S.asksDist d' → d.identifier = d'.identifier → d = d')
    (hdr : ∀ d x, S.asksDist d → S.NeedsModule x → ¬ S.Draws x d.identifier)
    (hpo : ∀ m i c nm, S.FromImport m i c nm → S.MayDefine c.ident nm.name → c.isNamespacePkg = false →
      ∀ b e, S.flat.HasEdge c.ident b e → Called nm.name b e → ∀ d a a' y, S.asksDist d → a ∈ d.importNames →
      a' ∈ d.importNames → S.Draws a c.ident → S.Draws a' y → ¬ S.flat.Leads y m.ident) : S.Tame where
  loaded := hT.loaded
  extension := hT.extension
  otherName x n infos h hne := by
    obtain ⟨h1, h2, h3, h4⟩ := hT.otherName x n infos h hne
    exact ⟨h1, h2, flat_nodeFor.mp h3, h4⟩
  noDot x h := hT.noDot x (flat_needsModule.mpr h)
  plain m i nm h := hT.plain m i nm (flat_needs.mpr h)
  scriptName path h := by
    have := hT.scriptName path h
    rw [flat_needsModule] at this
    exact this
  distName := hdn
  distSame := hds
  passedOn m i c nm h hm hns b e he hc := by
    have hdn' := fun d hd => (hdn d hd).1
    have hne : ∀ d, S.asksDist d → c.ident ≠ d.identifier := fun d hd he => hdn' d hd (he ▸ h.needed)
    have he' := flat_edge_of hdn' he hne
    obtain ⟨h1, h2, h3, ⟨j, d', h4, h5, h6⟩, h7⟩ :=
      hT.passedOn m i c nm (flat_fromImport.mpr h) (flat_mayDefine.mpr hm) hns b e he' hc
    refine ⟨h1, h2, fun b' d' hb => h3 b' d' (flat_edge_of hdn' hb hne),
      ⟨j, d', flat_needs.mp h4, (flat_byStatement hdn').mp h5, h6⟩, ?_⟩
    have hmy : ¬ S.HasMypyc := fun h => h7 (.inr (flat_hasMypyc h))
    refine not_or.mpr ⟨?_, hmy⟩
    rintro ⟨y, hy, hl⟩
    have key : ∀ {y z}, (∀ d, S.asksDist d → y ≠ d.identifier) → S.Leads y z →
        S.flat.Leads y z ∧ ∀ d, S.asksDist d → z ≠ d.identifier := by
      intro y z hy h
      induction h with
      | here => exact ⟨.here, hy⟩
      | on _ he ih =>
        refine ⟨.on ih.1 (flat_edge_of hdn' he ih.2), ?_⟩
        rintro d hd rfl
        rcases he.target_named with h | h
        · exact hdn' d hd h
        · exact (hdn d hd).2.1 h
    have hdraws : ∀ {x y}, S.NeedsModule x → S.Draws x y → ∀ d, S.asksDist d → y ≠ d.identifier := by
      rintro x y h1 h2 d hd rfl
      exact hdr d x hd h1 h2
    cases hy with
    | self => exact h7 (.inl ⟨_, .self, (key hne hl).1⟩)
    | linked k1 k2 => exact h7 (.inl ⟨_, .linked k1 (flat_draws.mpr k2), (key (hdraws h.needed k2) hl).1⟩)
    | together k1 k2 k3 k4 =>
      exact h7 (.inl ⟨_, .together (flat_needsModule.mpr k1) k2 (flat_draws.mpr k3) (flat_draws.mpr k4),
        (key (hdraws k1 k4) hl).1⟩)
    | distribution k1 k2 k3 k4 k5 =>
      exact hpo m i c nm h hm hns b e he' hc _ _ _ _ k1 k2 k3 k4 k5
        (key (hdraws ⟨_, .distribution k1 k3⟩ k5) hl).1
    | names k1 k2 k3 k4 k5 =>
      refine h7 (.inl ⟨_, .names (flat_fromImport.mpr k1) (flat_fromImport.mpr k2) k3 (flat_drawsFrom.mpr k4)
        (flat_drawsFrom.mpr k5), (key ?_ hl).1⟩)
      obtain ⟨q1, q2, q3, t, b, q4, q5, q6⟩ := k2
      have hn : S.NeedsModule _ := ⟨_, .name q1 q4 q5 q6 k3 q2 q3⟩
      rcases k5 with (rfl | ⟨_, k5⟩) | ⟨r, k5, k6⟩
      · exact hdraws hn .self
      · exact hdraws hn k5
      · exact hdraws ⟨_, .sixMoves q1 q4 q5 q6 q2 q3 k5⟩ k6
  static m i c nm h hp h6 hm := by
    have := hT.static m i c nm (flat_fromImport.mpr h) hp h6 (flat_mayDefine.mpr hm)
    simpa only [flat_nodeFor] using this
  notBoth m i c nm h hp hs hn :=
    hT.notBoth m i c nm (flat_fromImport.mpr h) hp (fun h => hs (flat_isSubmodule.mp h)) (flat_needs.mpr hn)
  noSwig x h := hT.noSwig x (flat_mayDefine.mpr h)
  compiledNode x n h1 h2 h3 := hT.compiledNode x n (flat_needsModule.mpr h1) (flat_nodeFor.mpr h2) h3

theorem Safe.of_flat (hS : S.flat.Safe) : S.Safe where
  names x h := hS.names x (flat_needsModule.mpr h)
  noCode := hS.noCode
  once y p q h hp hq hb hbr :=
    hS.once y p q (flat_needsModule.mpr h) hp (flat_nodeFor.mpr hq) hb (flat_brings.mpr hbr)

end Verif.Spec.Setup
