import Verif.Props.Loaders
import Verif.Spec.ExcSpec
import Verif.Proofs.Names
/-! # C53: the attributes of nodes made for modules and packages -/
namespace Verif.Props
open Verif Verif.Spec
variable {W : Type} {L : Loaders W}

/-- The file of a module: built-in and frozen modules have none. -/
def moduleFile (spec : Verif.Spec) : Option Str :=
  if spec.loader = .builtin ∨ spec.loader = .frozen then none else spec.origin

/-- The source marks the package as an explicit namespace package. -/
def Explicit (src : Str) (read : List Str) : NsType → Prop
  | .pkgResources => c!"__import__" ∈ read ∧ c!"pkg_resources" <:+: src
  | .pkgutil => c!"__import__" ∈ read ∧ ¬ c!"pkg_resources" <:+: src ∧ c!"pkgutil" <:+: src

/-- The distribution a file belongs to. -/
def DistOf (L : Loaders W) (file : Option Str) (d : Option Dist) : Prop :=
  match file with
  | none => d = none
  | some f => ∃ w, (L.distributionForFile f w).1 = .ok d

/-- Whether the directory of the package has data files. -/
def DataOf (L : Loaders W) (file : Option Str) (data : Bool) : Prop :=
  match file with
  | none => data = false
  | some f => ∃ w, (L.containsDatafiles (L.parent f) w).1 = .ok data

theorem distFor_ok {file : Option Str} {d : Option Dist} {w w' : W}
    (h : distFor L file w = (.ok d, w')) : DistOf L file d := by
  unfold distFor at h
  unfold DistOf
  cases file with
  | none => simp only [Ext.pure, Prod.mk.injEq, Except.ok.injEq] at h; exact h.1.symm
  | some f => exact ⟨w, by rw [show L.distributionForFile f w = _ from h]⟩

theorem inspectPart_more (hS : L.Stable) {spec : Verif.Spec} {w r w'} (w0 : W)
    (h : inspectPart L spec w = (.ok r, w')) :
    DistOf L (if spec.loader = .frozen then none else spec.origin) r.2.node.distribution ∧
    (r.1 = false → (L.getSource spec w0).1 = .ok r.2.source) := by
  unfold inspectPart at h
  obtain ⟨got, w1, hg, h⟩ := Ext.bind_eq_ok h
  rcases Ext.catching_ok hg with hg | ⟨e, w2, hg2, he, h2⟩
  · obtain ⟨s, w2, hs, hp⟩ := Ext.bind_eq_ok hg
    simp only [Ext.pure, Prod.mk.injEq, Except.ok.injEq] at hp
    obtain ⟨hp1, hp2⟩ := hp
    subst hp1 hp2
    dsimp only at h
    obtain ⟨ast, w3, ha, h⟩ := Ext.bind_eq_ok h
    obtain ⟨code, w4, hc, h⟩ := Ext.bind_eq_ok h
    obtain ⟨d, w5, hd, h⟩ := Ext.bind_eq_ok h
    simp only [Ext.pure, Prod.mk.injEq, Except.ok.injEq] at h
    obtain ⟨h, -⟩ := h
    subst h
    exact ⟨distFor_ok hd, fun _ => by rw [hS.source _ _ w, hs]⟩
  · simp only [Ext.pure, Prod.mk.injEq, Except.ok.injEq] at h2
    obtain ⟨hp1, hp2⟩ := h2
    subst hp1 hp2
    dsimp only at h
    obtain ⟨d, w5, hd, h⟩ := Ext.bind_eq_ok h
    simp only [Ext.pure, Prod.mk.injEq, Except.ok.injEq] at h
    obtain ⟨h, -⟩ := h
    subst h
    exact ⟨distFor_ok hd, fun h => by simp at h⟩

/-- What `wrapPackage` puts in a package. -/
theorem wrapPackage_attrs {spec : Verif.Spec} {m : Node} {kind source imports w r}
    {fr init sp hd ns} (h : (wrapPackage L spec m kind source imports w).1 = .ok r)
    (hm : m.kind = .module kind) (hk : r.1.kind = .package fr init sp hd ns) :
    r.1.filename = m.filename.map L.parent ∧ init.filename = m.filename ∧
    r.1.distribution = m.distribution ∧ r.1.globalsRead = m.globalsRead ∧ r.1.ident = m.ident ∧
    DataOf L m.filename hd ∧
    (∀ t, ns = some t ↔ ∃ src, source = some src ∧ Explicit src m.globalsRead t) ∧
    (ns = none → spec.searchLocations = some sp) ∧
    (ns ≠ none → (∃ w', (L.importPath m.ident w').1 = .ok (some sp)) ∨
      ∃ w' e, (L.importPath m.ident w').1 = .error e ∧ ImportFails e ∧
        spec.searchLocations = some sp) := by
  unfold wrapPackage at h
  obtain ⟨p, w1, hp, h⟩ := Ext.bind_ok h
  cases p with
  | false =>
    simp only [Bool.false_eq_true, if_false, Ext.pure, Except.ok.injEq] at h
    subst h
    rw [hm] at hk; cases hk
  | true =>
    simp only [if_true] at h
    obtain ⟨nl, w2, hns, h⟩ := Ext.bind_ok h
    cases hl : nl.2 with
    | none => rw [hl] at h; simp [Ext.throw] at h
    | some locs =>
      rw [hl] at h
      obtain ⟨data, w3, hd', h⟩ := Ext.bind_ok h
      simp only [Ext.pure, Except.ok.injEq] at h
      subst h
      simp only [Kind.package.injEq] at hk
      obtain ⟨rfl, rfl, rfl, rfl, rfl⟩ := hk
      refine ⟨rfl, rfl, rfl, rfl, rfl, ?_, ?_⟩
      · unfold DataOf
        cases hf : m.filename with
        | none =>
          rw [hf] at hd'
          simp only [Option.map_none, Ext.pure, Prod.mk.injEq, Except.ok.injEq] at hd'
          exact hd'.1.symm
        | some f =>
          rw [hf] at hd'
          exact ⟨w2, by rw [show L.containsDatafiles (L.parent f) w2 = _ from hd']⟩
      · unfold namespaceType at hns
        cases source with
        | none =>
          simp only [Ext.pure, Prod.mk.injEq, Except.ok.injEq] at hns
          obtain ⟨rfl, -⟩ := hns
          exact ⟨by simp, fun _ => hl, fun h => absurd rfl h⟩
        | some src =>
          dsimp only at hns
          by_cases hc : (decide (c!"__import__" ∈ m.globalsRead) &&
            (contains c!"pkg_resources" src || contains c!"pkgutil" src)) = true
          · rw [if_pos hc] at hns
            simp only [Bool.and_eq_true, decide_eq_true_eq, Bool.or_eq_true] at hc
            obtain ⟨l, w4, hi, hns⟩ := Ext.bind_eq_ok hns
            simp only [Ext.pure, Prod.mk.injEq, Except.ok.injEq] at hns
            obtain ⟨rfl, -⟩ := hns
            simp only at hl
            subst hl
            refine ⟨?_, by simp, fun _ => ?_⟩
            · intro t
              cases hpr : contains c!"pkg_resources" src with
              | true =>
                have := contains_iff.mp hpr
                cases t <;> simp [Explicit, this, hc.1]
              | false =>
                have h1 : ¬ c!"pkg_resources" <:+: src := by
                  rw [← contains_iff, hpr]; simp
                have h2 : c!"pkgutil" <:+: src := by
                  rw [← contains_iff]; simpa [hpr] using hc.2
                cases t <;> simp [Explicit, h1, h2, hc.1]
            · rcases Ext.catching_ok hi with hi | ⟨e, w5, h1, h2, h3⟩
              · exact .inl ⟨w1, by rw [hi]⟩
              · simp only [Ext.pure, Prod.mk.injEq, Except.ok.injEq] at h3
                exact .inr ⟨w1, e, by rw [h1], (importFails_iff e).mp h2, h3.1⟩
          · rw [if_neg hc] at hns
            simp only [Ext.pure, Prod.mk.injEq, Except.ok.injEq] at hns
            obtain ⟨rfl, -⟩ := hns
            refine ⟨?_, fun _ => hl, fun h => absurd rfl h⟩
            intro t
            simp only [Bool.and_eq_true, decide_eq_true_eq, Bool.or_eq_true, contains_iff] at hc
            cases t
            · simp only [reduceCtorEq, false_iff]
              rintro ⟨src', h, h1, h2, h3⟩
              cases h
              exact hc ⟨h1, .inr h3⟩
            · simp only [reduceCtorEq, false_iff]
              rintro ⟨src', h, h1, h2⟩
              cases h
              exact hc ⟨h1, .inl h2⟩

/-- C53, packages: a package is located in the directory of the file of its `__init__`, belongs to
the distribution of that file, and has data files iff that directory has.  It is an explicit
namespace package iff its source says so; then its search path is the one found by importing it.
The search path is the one of its spec if it is an ordinary package or cannot be imported. -/
theorem C53_package (hS : L.Stable) (n : Nat) (spec : Verif.Spec) (w : W) (node : Node)
    (imports : List ImportInfo) (hp : spec.loader.Plain)
    (h : (nodeForSpec L (n + 1) spec w).1 = .ok (node, imports)) (fr : Bool) (init : InitModule)
    (sp : List Str) (hd : Bool) (ns : Option NsType) (hk : node.kind = .package fr init sp hd ns) :
    init.filename = moduleFile spec ∧ node.filename = (moduleFile spec).map L.parent ∧
    DistOf L (moduleFile spec) node.distribution ∧ DataOf L (moduleFile spec) hd ∧
    (∀ t, ns = some t ↔ (spec.loader = .inspect ∨ spec.loader = .frozen) ∧
      ∃ src, (L.getSource spec w).1 = .ok (some src) ∧ Explicit src node.globalsRead t) ∧
    (ns = none → spec.searchLocations = some sp) ∧
    (ns ≠ none → (∃ w', (L.importPath spec.name w').1 = .ok (some sp)) ∨
      ∃ w' e, (L.importPath spec.name w').1 = .error e ∧ ImportFails e ∧
        spec.searchLocations = some sp) := by
  have insp : spec.loader = .inspect ∨ spec.loader = .frozen → _ := fun hl => inspect_result hl h
  cases hl : spec.loader with
  | none_ | «namespace» =>
    rw [nodeForSpec] at h
    simp only [hl] at h
    cases hs : spec.searchLocations with
    | none => rw [hs] at h; simp [Ext.throw] at h
    | some locs =>
      rw [hs] at h
      simp only [Ext.pure, Except.ok.injEq, Prod.mk.injEq] at h
      obtain ⟨rfl, rfl⟩ := h
      cases hk
  | builtin =>
    rw [nodeForSpec] at h
    simp only [hl] at h
    obtain ⟨h1, h2, h3, h4, h5, h6, h7, h8, h9⟩ := wrapPackage_attrs h rfl hk
    have hf : moduleFile spec = none := by simp [moduleFile, hl]
    rw [hf]
    refine ⟨h2, h1, h3, h6, ?_, h8, h9⟩
    intro t
    rw [h7 t]
    simp
  | extension =>
    rw [nodeForSpec] at h
    simp only [hl] at h
    obtain ⟨d, w', hd', h⟩ := Ext.bind_ok h
    obtain ⟨h1, h2, h3, h4, h5, h6, h7, h8, h9⟩ := wrapPackage_attrs h rfl hk
    have hf : moduleFile spec = spec.origin := by simp [moduleFile, hl]
    rw [hf]
    refine ⟨h2, h1, ?_, h6, ?_, h8, h9⟩
    · simp only at h3
      rw [h3]; exact distFor_ok hd'
    · intro t
      rw [h7 t]
      simp
  | inspect | frozen =>
    obtain ⟨p, w', hp', hr⟩ := insp (by simp [hl])
    obtain ⟨hfile, hq⟩ := inspectPart_ok hS w hp'
    obtain ⟨hdist, hsrc⟩ := inspectPart_more hS w hp'
    have hmf : moduleFile spec = (if spec.loader = .frozen then none else spec.origin) := by
      simp [moduleFile, hl]
    rcases hr with ⟨hb, hr⟩ | ⟨hb, hr⟩
    · exfalso
      rcases hq with ⟨-, -, -, hkk, -⟩ | ⟨hb', -⟩
      · simp only [Prod.mk.injEq] at hr
        obtain ⟨rfl, -⟩ := hr
        rw [hkk] at hk; cases hk
      · rw [hb] at hb'; cases hb'
    · rcases hq with ⟨hb', -⟩ | ⟨-, hid, hkk, -⟩
      · rw [hb] at hb'; cases hb'
      · obtain ⟨h1, h2, h3, h4, h5, h6, h7, h8, h9⟩ := wrapPackage_attrs hr hkk hk
        simp only at h1 h3 h4
        rw [hmf, ← hfile]
        refine ⟨h2, h1, ?_, h6, ?_, h8, by rw [hid] at h9; exact h9⟩
        · rw [h3, hfile]; exact hdist
        · intro t
          rw [h7 t, h4, hsrc hb]
          simp
  | six | vendor | distutils | unknown => rw [hl] at hp; exact hp.elim

/-- C53, modules that are no packages: the file and the distribution. -/
theorem C53_module (hS : L.Stable) (n : Nat) (spec : Verif.Spec) (w : W) (node : Node)
    (imports : List ImportInfo) (hp : spec.loader.Plain)
    (h : (nodeForSpec L (n + 1) spec w).1 = .ok (node, imports)) (k : ModKind)
    (hk : node.kind = .module k) :
    node.filename = moduleFile spec ∧ DistOf L (moduleFile spec) node.distribution := by
  have insp : spec.loader = .inspect ∨ spec.loader = .frozen → _ := fun hl => inspect_result hl h
  have wrap : ∀ {m kind source i w'}, (wrapPackage L spec m kind source i w').1 = .ok (node, imports) →
      node = m := by
    intro m kind source i w' h
    obtain ⟨-, ⟨-, h⟩ | ⟨-, -, -, -, -, -, _, _, _, h⟩⟩ := wrapPackage_ok hS w h
    · exact h
    · simp only at h
      rw [hk] at h; cases h
  cases hl : spec.loader with
  | none_ | «namespace» =>
    rw [nodeForSpec] at h
    simp only [hl] at h
    cases hs : spec.searchLocations with
    | none => rw [hs] at h; simp [Ext.throw] at h
    | some locs =>
      rw [hs] at h
      simp only [Ext.pure, Except.ok.injEq, Prod.mk.injEq] at h
      obtain ⟨rfl, rfl⟩ := h
      cases hk
  | builtin =>
    rw [nodeForSpec] at h
    simp only [hl] at h
    rw [wrap h]
    simp [moduleFile, hl, DistOf]
  | extension =>
    rw [nodeForSpec] at h
    simp only [hl] at h
    obtain ⟨d, w', hd', h⟩ := Ext.bind_ok h
    rw [wrap h]
    have hf : moduleFile spec = spec.origin := by simp [moduleFile, hl]
    rw [hf]
    exact ⟨rfl, distFor_ok hd'⟩
  | inspect | frozen =>
    obtain ⟨p, w', hp', hr⟩ := insp (by simp [hl])
    obtain ⟨hfile, -⟩ := inspectPart_ok hS w hp'
    obtain ⟨hdist, -⟩ := inspectPart_more hS w hp'
    have hmf : moduleFile spec = (if spec.loader = .frozen then none else spec.origin) := by
      simp [moduleFile, hl]
    have : node = p.2.node := by
      rcases hr with ⟨-, hr⟩ | ⟨-, hr⟩
      · exact (Prod.mk.inj hr).1
      · exact wrap hr
    rw [this, hmf]
    exact ⟨hfile, hdist⟩
  | six | vendor | distutils | unknown => rw [hl] at hp; exact hp.elim

/-- A package that calls `__import__("pkg_resources").declare_namespace`. -/
def nsLoaders (path : Except Exc (Option (List Str))) : Loaders Unit :=
  { demoLoaders with
    getSource := fun _ w => (.ok (some c!"__import__('pkg_resources')"), w)
    getCode := fun _ w => (.ok (some (.mk 0 [c!"__import__"] [⟨.loadName, some 0⟩] .nil)), w)
    isPackage := fun _ w => (.ok true, w)
    containsDatafiles := fun d w => (.ok (d = c!"/n/__init__.py"), w)
    importPath := fun _ w => (path, w) }

/-- The hypotheses hold for it, whether or not it can be imported. -/
example :
    let spec : Verif.Spec := ⟨c!"n", .inspect, some c!"/n/__init__.py", some [c!"/n"]⟩
    ((nodeForSpec (nsLoaders (.ok (some [c!"/n", c!"/o"]))) 1 spec ()).1.toOption.map (·.1.kind)) =
      some (.package false ⟨c!"n", .source, some c!"/n/__init__.py"⟩ [c!"/n", c!"/o"] true
        (some .pkgResources)) ∧
    ((nodeForSpec (nsLoaders (.error .importError)) 1 spec ()).1.toOption.map (·.1.kind)) =
      some (.package false ⟨c!"n", .source, some c!"/n/__init__.py"⟩ [c!"/n"] true
        (some .pkgResources)) := by
  decide +kernel

end Verif.Props
