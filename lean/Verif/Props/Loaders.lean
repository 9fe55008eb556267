import Verif.Spec.HookSpec
import Verif.Proofs.SixTable
import Verif.Proofs.NodeForSpec
import Verif.Spec.Demo
/-! # C36: the node made for a module -/
namespace Verif.Props
open Verif Verif.Spec
variable {W : Type} {L : Loaders W}

/-- The result of the branch for loaders that give source and code. -/
theorem inspect_result {n : Nat} {spec : Verif.Spec} {w : W} {r}
    (hl : spec.loader = .inspect ∨ spec.loader = .frozen)
    (h : (nodeForSpec L (n + 1) spec w).1 = .ok r) :
    ∃ p w', inspectPart L spec w = (.ok p, w') ∧
      ((p.1 = true ∧ r = (p.2.node, p.2.imports)) ∨
       (p.1 = false ∧ (wrapPackage L spec p.2.node p.2.kind p.2.source p.2.imports w').1 = .ok r)) := by
  rw [nodeForSpec] at h
  rcases hl with hl | hl <;> simp only [hl] at h
  all_goals
    obtain ⟨p, w', hp, h⟩ := Ext.bind_ok h
    refine ⟨p, w', hp, ?_⟩
    cases hb : p.1 with
    | true =>
      simp only [hb, if_true, Ext.pure, Except.ok.injEq] at h
      exact .inl ⟨rfl, h.symm⟩
    | false =>
      simp only [hb, Bool.false_eq_true, if_false] at h
      exact .inr ⟨rfl, h⟩

/-- C36 for loaders that find the module itself: the node has the name of the module.  A module
without loader gives a namespace package without imports.  Otherwise there is a module of the class
its loader calls for, and a package around it if the loader says so (frozen if it is the frozen
importer).  Missing: a package whose source cannot be decoded because of a syntax error gets no
package around it (`C36_invalid_package`). -/
theorem C36_class_partial (hS : L.Stable) (n : Nat) (spec : Verif.Spec) (w : W) (node : Node)
    (imports : List ImportInfo) (hp : spec.loader.Plain)
    (h : (nodeForSpec L (n + 1) spec w).1 = .ok (node, imports)) :
    node.ident = spec.name ∧
    (((spec.loader = .none_ ∨ spec.loader = .namespace) ∧ imports = [] ∧
        ∃ locs, spec.searchLocations = some locs ∧ node.kind = .namespacePkg locs) ∨
     ∃ k, ClassOf L w spec k ∧
      (((L.isPackage spec w).1 = .ok false ∧ node.kind = .module k) ∨
       ((spec.loader = .inspect ∨ spec.loader = .frozen) ∧
          (L.getSource spec w).1 = .error .syntaxError ∧ node.kind = .module k) ∨
       ((L.isPackage spec w).1 = .ok true ∧ ∃ init locs data ns,
          node.kind = .package (decide (spec.loader = .frozen)) init locs data ns ∧
          init.name = spec.name ∧ init.kind = k))) := by
  have wrap : ∀ (m : Node) (k : ModKind) (src : Option Str) (i : List ImportInfo) (w' : W),
      m.ident = spec.name → m.kind = .module k → ClassOf L w spec k →
      (wrapPackage L spec m k src i w').1 = .ok (node, imports) →
      node.ident = spec.name ∧ ∃ k, ClassOf L w spec k ∧
      (((L.isPackage spec w).1 = .ok false ∧ node.kind = .module k) ∨
       ((spec.loader = .inspect ∨ spec.loader = .frozen) ∧
          (L.getSource spec w).1 = .error .syntaxError ∧ node.kind = .module k) ∨
       ((L.isPackage spec w).1 = .ok true ∧ ∃ init locs data ns,
          node.kind = .package (decide (spec.loader = .frozen)) init locs data ns ∧
          init.name = spec.name ∧ init.kind = k)) := by
    intro m k src i w' hm hk hc h
    obtain ⟨-, ⟨h1, h2⟩ | ⟨h1, h2, -, -, -, -, locs, data, ns, h3⟩⟩ := wrapPackage_ok hS w h
    · subst h2
      exact ⟨hm, k, hc, .inl ⟨h1, hk⟩⟩
    · exact ⟨h2.trans hm, k, hc, .inr (.inr ⟨h1, _, locs, data, ns, h3, hm, rfl⟩)⟩
  have insp : spec.loader = .inspect ∨ spec.loader = .frozen → _ := fun hl =>
    inspect_result hl h
  cases hl : spec.loader with
  | none_ | «namespace» =>
    rw [nodeForSpec] at h
    simp only [hl] at h
    cases hs : spec.searchLocations with
    | none => rw [hs] at h; simp [Ext.throw] at h
    | some locs =>
      rw [hs] at h
      simp only [Ext.pure, Except.ok.injEq, Prod.mk.injEq] at h
      obtain ⟨rfl, rfl⟩ := h
      exact ⟨rfl, .inl ⟨by simp, rfl, locs, rfl, rfl⟩⟩
  | builtin =>
    rw [nodeForSpec] at h
    simp only [hl] at h
    obtain ⟨h1, h2⟩ := wrap _ _ _ _ _ rfl rfl (.builtin hl) h
    exact ⟨h1, .inr (by simpa only [hl] using h2)⟩
  | extension =>
    rw [nodeForSpec] at h
    simp only [hl] at h
    obtain ⟨d, w', hd, h⟩ := Ext.bind_ok h
    obtain ⟨h1, h2⟩ := wrap _ _ _ _ _ rfl rfl (.extension hl) h
    exact ⟨h1, .inr (by simpa only [hl] using h2)⟩
  | inspect | frozen =>
    have hl' : spec.loader = .inspect ∨ spec.loader = .frozen := by simp [hl]
    obtain ⟨p, w', hp', hr⟩ := insp hl'
    obtain ⟨-, hq⟩ := inspectPart_ok hS w hp'
    rcases hq with ⟨hb, hs, hk, hk2, hi, -⟩ | ⟨hb, hi, hk, source, ast, code, hs, ha, hc, hkind, -⟩
    · rcases hr with ⟨-, hr⟩ | ⟨hb', -⟩
      · simp only [Prod.mk.injEq] at hr
        obtain ⟨rfl, rfl⟩ := hr
        refine ⟨hi, .inr ⟨.invalid, .invalid hl' (.inl hs), .inr (.inl ⟨by simp, hs, hk2⟩)⟩⟩
      · simp [hb] at hb'
    · rcases hr with ⟨hb', -⟩ | ⟨-, hr⟩
      · simp [hb] at hb'
      · have hcl : ClassOf L w spec p.2.kind := by
          rw [hkind]
          by_cases hbad : BadSyntax L w spec
          · rw [if_pos]
            · exact .invalid hl' hbad
            · rcases hbad with h1 | ⟨src, f, h1, h2, h3⟩ | h1
              · rw [hs] at h1; cases h1
              · rcases ha with ⟨ha, -⟩ | ⟨src', f', ha, hf, ha'⟩
                · rw [hs] at h1; simp [ha] at h1
                · rw [hs, ha] at h1
                  rw [hf] at h2
                  simp only [Except.ok.injEq, Option.some.injEq] at h1 h2
                  subst h1 h2
                  rcases ha' with ⟨a, ha', -⟩ | ⟨-, ha'⟩
                  · rw [h3] at ha'; cases ha'
                  · simp [ha']
              · rcases hc with ⟨c, i, hc, -⟩ | ⟨-, hc⟩
                · rw [h1] at hc; cases hc
                · simp [hc]
          · have hA : ast.2 = false := by
              rcases ha with ⟨-, rfl⟩ | ⟨src', f', ha, hf, ⟨a, ha', rfl⟩ | ⟨ha', -⟩⟩
              · rfl
              · rfl
              · exact absurd (.inr (.inl ⟨src', f', by rw [hs, ha], hf, ha'⟩)) hbad
            have hC : code.isNone = false := by
              rcases hc with ⟨c, i, hc, -, rfl⟩ | ⟨hc, -⟩
              · rfl
              · exact absurd (.inr (.inr hc)) hbad
            simp only [hA, hC, Bool.or_self, Bool.false_eq_true, if_false]
            by_cases hf : spec.loader = .frozen
            · rw [if_pos hf]; exact .frozen hf hbad
            · rw [if_neg hf]
              have hin : spec.loader = .inspect := by grind
              cases source with
              | none => exact .bytecode hin hbad hs
              | some src => exact .source src hin hbad hs
        obtain ⟨h1, h2⟩ := wrap _ _ _ _ _ hi hk hcl hr
        exact ⟨h1, .inr (by simpa only [hl] using h2)⟩
  | six | vendor | distutils | unknown => rw [hl] at hp; exact hp.elim

/-- C36: the module (the `__init__` of a package) is an `InvalidModule` iff its source or its code has
a syntax error. -/
theorem C36_invalid (hS : L.Stable) (n : Nat) (spec : Verif.Spec) (w : W) (node : Node)
    (imports : List ImportInfo) (hl : spec.loader = .inspect ∨ spec.loader = .frozen)
    (h : (nodeForSpec L (n + 1) spec w).1 = .ok (node, imports)) :
    codeClass node = some .invalid ↔ BadSyntax L w spec := by
  have hp : spec.loader.Plain := by rcases hl with h | h <;> simp [h, Loader.Plain]
  obtain ⟨-, ⟨h1, -⟩ | ⟨k, hk, h1⟩⟩ := C36_class_partial hS n spec w node imports hp h
  · rcases h1 with h1 | h1 <;> rw [h1] at hl <;> simp at hl
  · have hc : codeClass node = some k := by
      rcases h1 with ⟨-, h1⟩ | ⟨-, -, h1⟩ | ⟨-, init, locs, data, ns, h1, -, h2⟩
      · simp [codeClass, h1]
      · simp [codeClass, h1]
      · simp [codeClass, h1, h2]
    rw [hc]
    cases hk with
    | builtin hx | extension hx => rw [hx] at hl; simp at hl
    | invalid _ hb => simp [hb]
    | frozen _ hb | source _ _ hb | bytecode _ hb => simp [hb]

/-- C36: the imports are those of the syntax tree if there is source that can be parsed, and otherwise
those of the bytecode; there are none if the syntax is too bad for both. -/
theorem C36_imports (hS : L.Stable) (n : Nat) (spec : Verif.Spec) (w : W) (node : Node)
    (imports : List ImportInfo) (hl : spec.loader = .inspect ∨ spec.loader = .frozen)
    (h : (nodeForSpec L (n + 1) spec w).1 = .ok (node, imports)) :
    (∃ src f a, (L.getSource spec w).1 = .ok (some src) ∧ spec.origin = some f ∧
      (L.parse src f w).1 = .ok a ∧ imports = extractAstInfo L.order a) ∨
    (((L.getSource spec w).1 = .ok none ∨ (∃ src f, (L.getSource spec w).1 = .ok (some src) ∧
        spec.origin = some f ∧ (L.parse src f w).1 = .error .syntaxError)) ∧
      ((∃ c gw gr, (L.getCode spec w).1 = .ok (some c) ∧
          extractBytecodeInfo L.new c = .ok (imports, gw, gr)) ∨
       ((L.getCode spec w).1 = .error .syntaxError ∧ imports = []))) ∨
    ((L.getSource spec w).1 = .error .syntaxError ∧ imports = []) := by
  obtain ⟨p, w', hp', hr⟩ := inspect_result hl h
  obtain ⟨-, hq⟩ := inspectPart_ok hS w hp'
  rcases hq with ⟨hb, hs, hk, hk2, hi, hi2, -⟩ | ⟨hb, hi, hk, source, ast, code, hs, ha, hc, hkind, hi2, -⟩
  · rcases hr with ⟨-, hr⟩ | ⟨hb', -⟩
    · simp only [Prod.mk.injEq] at hr
      obtain ⟨rfl, rfl⟩ := hr
      exact .inr (.inr ⟨hs, hi2⟩)
    · simp [hb] at hb'
  · rcases hr with ⟨hb', -⟩ | ⟨-, hr⟩
    · simp [hb] at hb'
    · have hI : imports = p.2.imports := (wrapPackage_ok hS w hr).1
      rw [hi2] at hI
      have byte : ast.1 = none → ((∃ c gw gr, (L.getCode spec w).1 = .ok (some c) ∧
          extractBytecodeInfo L.new c = .ok (imports, gw, gr)) ∨
          ((L.getCode spec w).1 = .error .syntaxError ∧ imports = [])) := by
        intro ha
        rw [ha] at hI
        rcases hc with ⟨c, i, hc, hx, rfl⟩ | ⟨hc, rfl⟩
        · refine .inl ⟨c, i.2.1, i.2.2, hc, ?_⟩
          rw [hx, hI]; rfl
        · exact .inr ⟨hc, hI⟩
      rcases ha with ⟨rfl, rfl⟩ | ⟨src', f', rfl, hf, ⟨a, ha', rfl⟩ | ⟨ha', rfl⟩⟩
      · exact .inr (.inl ⟨.inl hs, byte rfl⟩)
      · exact .inl ⟨src', f', a, hs, hf, ha', hI⟩
      · exact .inr (.inl ⟨.inr ⟨src', f', hs, hf, ha'⟩, byte rfl⟩)

/-- The names a module writes and reads are those of the scan of its code, also for the source and
the package. -/
theorem C36_globals (hS : L.Stable) (n : Nat) (spec : Verif.Spec) (w : W) (node : Node)
    (imports : List ImportInfo) (hl : spec.loader = .inspect ∨ spec.loader = .frozen)
    (h : (nodeForSpec L (n + 1) spec w).1 = .ok (node, imports))
    (hs : (L.getSource spec w).1 ≠ .error .syntaxError) (c : Code)
    (hc : (L.getCode spec w).1 = .ok (some c)) :
    ∃ i, extractBytecodeInfo L.new c = .ok (i, node.globalsWritten, node.globalsRead) := by
  obtain ⟨p, w', hp', hr⟩ := inspect_result hl h
  obtain ⟨-, hq⟩ := inspectPart_ok hS w hp'
  rcases hq with ⟨hb, hs', -⟩ | ⟨hb, hi, hk, source, ast, code, -, ha, hc', hkind, -, hw, hrd⟩
  · exact absurd hs' hs
  · rcases hr with ⟨hb', -⟩ | ⟨-, hr⟩
    · simp [hb] at hb'
    · have hg : node.globalsWritten = p.2.node.globalsWritten ∧
          node.globalsRead = p.2.node.globalsRead := by
        obtain ⟨-, ⟨-, h2⟩ | ⟨-, -, h2, h3, -⟩⟩ := wrapPackage_ok hS w hr
        · exact ⟨congrArg Node.globalsWritten h2, congrArg Node.globalsRead h2⟩
        · exact ⟨h2, h3⟩
      rcases hc' with ⟨c', i, hc', hx, rfl⟩ | ⟨hc', -⟩
      · rw [hc] at hc'
        simp only [Except.ok.injEq, Option.some.injEq] at hc'
        subst hc'
        refine ⟨i.1, ?_⟩
        rw [hx, hg.1, hg.2, hw, hrd]; rfl
      · rw [hc] at hc'; cases hc'

/-- The names under which a module is looked up by the loaders that find it elsewhere. -/
inductive MovedTo (spec : Verif.Spec) : Str → Prop where
  | six {actual} : spec.loader = .six → ¬ endsWith c!".moves" spec.name →
      (sixRelative spec.name, actual) ∈ sixMovesTo → MovedTo spec actual
  | vendor {root pkg} : spec.loader = .vendor root pkg →
      MovedTo spec (pkg ++ '.' :: spec.name.drop (root.length + 1))
  | system {root pkg} : spec.loader = .vendor root pkg →
      MovedTo spec (spec.name.drop (root.length + 1))
  | distutils : spec.loader = .distutils → spec.name = c!"distutils" →
      MovedTo spec c!"setuptools._distutils"

theorem findAgain_some {self actual : Str} {w m w'} (h : findAgain L self actual w = (.ok (some m), w')) :
    ∃ w1, (L.findSpec actual w1).1 = .ok (some m) := by
  unfold findAgain at h
  obtain ⟨sp, w1, h1, h⟩ := Ext.bind_eq_ok h
  cases sp with
  | none => simp [Ext.pure] at h
  | some m' =>
    dsimp only at h
    split at h
    · obtain ⟨_, w2, _, h⟩ := Ext.bind_eq_ok h
      obtain ⟨_, w3, _, h⟩ := Ext.bind_eq_ok h
      exact ⟨w3, by rw [h]⟩
    · simp only [Ext.pure, Prod.mk.injEq, Except.ok.injEq, Option.some.injEq] at h
      exact ⟨w, by rw [h1, h.1]⟩

/-- C36 for loaders that find a module elsewhere (`six.moves`, vendored packages, `distutils`): the
result is the one for another module, found under the name it moved to; or a `MissingModule`
without imports; or the package `six.moves`. -/
theorem C36_moved (n : Nat) (spec : Verif.Spec) (w : W) (node : Node)
    (imports : List ImportInfo) (hm : spec.loader.Moved)
    (h : (nodeForSpec L (n + 1) spec w).1 = .ok (node, imports)) :
    (∃ actual moved w1 w2, MovedTo spec actual ∧ (L.findSpec actual w1).1 = .ok (some moved) ∧
      moved.name ≠ spec.name ∧ (nodeForSpec L n moved w2).1 = .ok (node, imports)) ∨
    (node.isMissing = true ∧ imports = [] ∧ (node.ident = spec.name ∨ MovedTo spec node.ident)) ∨
    ((spec.loader = .six ∧ endsWith c!".moves" spec.name = true) ∧ node.isPackage = true ∧ node.ident = spec.name ∧
      node.globalsWritten = sixMovesGlobals ∧ imports = [] ∧ codeClass node = some .frozen) := by
  have step : ∀ {actual : Str} {sp : Option Verif.Spec} {w2 : W} {k : Verif.Spec → Ext W (Node × List ImportInfo)}
      {miss : Str}, (miss = spec.name ∨ MovedTo spec miss) → MovedTo spec actual →
      (∀ m, sp = some m → ∃ w1, (L.findSpec actual w1).1 = .ok (some m)) →
      ((match sp with
        | none => Ext.pure (missingNode miss, [])
        | some moved => if spec.name = moved.name then Ext.throw .assertion else nodeForSpec L n moved : Ext W _) w2).1
        = .ok (node, imports) →
      (∃ actual moved w1 w2, MovedTo spec actual ∧ (L.findSpec actual w1).1 = .ok (some moved) ∧
        moved.name ≠ spec.name ∧ (nodeForSpec L n moved w2).1 = .ok (node, imports)) ∨
      (node.isMissing = true ∧ imports = [] ∧ (node.ident = spec.name ∨ MovedTo spec node.ident)) := by
    intro actual sp w2 k miss hmiss ha hsp h
    cases sp with
    | none =>
      simp only [Ext.pure, Except.ok.injEq, Prod.mk.injEq] at h
      obtain ⟨rfl, rfl⟩ := h
      exact .inr ⟨rfl, rfl, hmiss⟩
    | some moved =>
      obtain ⟨w1, h1⟩ := hsp moved rfl
      dsimp only at h
      split at h
      · simp [Ext.throw] at h
      · next hne => exact .inl ⟨actual, moved, w1, w2, ha, h1, fun e => hne e.symm, h⟩
  rw [nodeForSpec] at h
  cases hl : spec.loader with
  | six =>
    simp only [hl] at h
    split at h
    · next he =>
      obtain ⟨d, w1, _, h⟩ := Ext.bind_ok h
      simp only [Ext.pure, Except.ok.injEq, Prod.mk.injEq] at h
      obtain ⟨rfl, rfl⟩ := h
      exact .inr (.inr ⟨⟨rfl, he⟩, rfl, rfl, rfl, rfl, rfl⟩)
    · next he =>
      cases hx : sixMove (sixRelative spec.name) with
      | none =>
        rw [hx] at h
        simp only [Ext.pure, Except.ok.injEq, Prod.mk.injEq] at h
        obtain ⟨rfl, rfl⟩ := h
        exact .inr (.inl ⟨rfl, rfl, .inl rfl⟩)
      | some actual =>
        rw [hx] at h
        obtain ⟨sp, w2, h1, h⟩ := Ext.bind_ok h
        have hmv : MovedTo spec actual := .six hl he (sixMove_mem hx)
        rcases step (k := nodeForSpec L n) (miss := actual) (.inr hmv) hmv (fun m hm => findAgain_some (hm ▸ h1)) h with h | h
        · exact .inl h
        · exact .inr (.inl h)
  | vendor root pkg =>
    simp only [hl] at h
    obtain ⟨sp, w2, h1, h⟩ := Ext.bind_ok h
    have hfull : MovedTo spec (pkg ++ '.' :: spec.name.drop (root.length + 1)) := .vendor hl
    rcases Ext.catching_ok h1 with h1 | ⟨e, w3, -, -, h1⟩
    · rcases step (k := nodeForSpec L n) (.inr hfull) hfull (fun m hm => findAgain_some (hm ▸ h1)) h with h | h
      · exact .inl h
      · exact .inr (.inl h)
    · rcases step (k := nodeForSpec L n) (actual := spec.name.drop (root.length + 1)) (.inr hfull) (.system hl)
        (fun m hm => ⟨w3, by rw [h1, hm]⟩) h with h | h
      · exact .inl h
      · exact .inr (.inl h)
  | distutils =>
    simp only [hl] at h
    split at h
    · simp [Ext.throw] at h
    · next hn =>
      simp only [Decidable.not_not, ne_eq] at hn
      obtain ⟨_, w1, _, h⟩ := Ext.bind_ok h
      obtain ⟨_, w2, _, h⟩ := Ext.bind_ok h
      obtain ⟨sp, w3, h1, h⟩ := Ext.bind_ok h
      rcases step (k := nodeForSpec L n) (.inl hn.symm) (.distutils hl hn) (fun m hm => ⟨w2, by rw [h1, hm]⟩) h with h | h
      · exact .inl h
      · exact .inr (.inl h)
  | none_ | «namespace» | builtin | extension | inspect | frozen | unknown => rw [hl] at hm; exact hm.elim

/-- C36: every node that is made is a `Module`, `Package`, `NamespacePackage` or `MissingModule`. -/
theorem C36_kinds (n : Nat) (spec : Verif.Spec) (w : W) (node : Node) (imports : List ImportInfo)
    (h : (nodeForSpec L n spec w).1 = .ok (node, imports)) :
    node.isLoaded = true ∨ node.isMissing = true := by
  have wrap : ∀ (sp : Verif.Spec) (m : Node) (k : ModKind) (src : Option Str) (i : List ImportInfo) (w' : W),
      m.kind = .module k → (wrapPackage L sp m k src i w').1 = .ok (node, imports) →
      node.isLoaded = true := by
    intro sp m k src i w' hm h
    unfold wrapPackage at h
    obtain ⟨p, w1, hp, h⟩ := Ext.bind_ok h
    cases p with
    | false =>
      simp only [Bool.false_eq_true, if_false, Ext.pure, Except.ok.injEq, Prod.mk.injEq] at h
      obtain ⟨rfl, -⟩ := h
      simp [Node.isLoaded, Node.isModule, hm]
    | true =>
      simp only [if_true] at h
      obtain ⟨ns, w2, hns, h⟩ := Ext.bind_ok h
      cases hl : ns.2 with
      | none => rw [hl] at h; simp [Ext.throw] at h
      | some locs =>
        rw [hl] at h
        obtain ⟨data, w3, hd, h⟩ := Ext.bind_ok h
        simp only [Ext.pure, Except.ok.injEq, Prod.mk.injEq] at h
        obtain ⟨rfl, -⟩ := h
        rfl
  induction n generalizing spec w with
  | zero => simp [nodeForSpec, Ext.throw] at h
  | succ n ih =>
    by_cases hm : spec.loader.Moved
    · rcases C36_moved n spec w node imports hm h with ⟨_, moved, _, w2, _, _, _, h⟩ | ⟨h, -⟩ | ⟨-, h, -⟩
      · exact ih _ _ h
      · exact .inr h
      · exact .inl (by simp [Node.isLoaded, h])
    · left
      have insp : spec.loader = .inspect ∨ spec.loader = .frozen → node.isLoaded = true := by
        intro hl
        obtain ⟨p, w', hp', hr⟩ := inspect_result hl h
        have hk : p.2.node.kind = .module p.2.kind := by
          unfold inspectPart at hp'
          obtain ⟨got, w1, hg, h⟩ := Ext.bind_eq_ok hp'
          cases got with
          | none =>
            obtain ⟨d, w5, hd, h⟩ := Ext.bind_eq_ok h
            simp only [Ext.pure, Prod.mk.injEq, Except.ok.injEq] at h
            obtain ⟨h, -⟩ := h
            subst h; rfl
          | some s =>
            obtain ⟨ast, w3, ha, h⟩ := Ext.bind_eq_ok h
            obtain ⟨code, w4, hc, h⟩ := Ext.bind_eq_ok h
            obtain ⟨d, w5, hd, h⟩ := Ext.bind_eq_ok h
            simp only [Ext.pure, Prod.mk.injEq, Except.ok.injEq] at h
            obtain ⟨h, -⟩ := h
            subst h; rfl
        rcases hr with ⟨-, hr⟩ | ⟨-, hr⟩
        · simp only [Prod.mk.injEq] at hr
          rw [hr.1]
          simp [Node.isLoaded, Node.isModule, hk]
        · exact wrap _ _ _ _ _ _ hk hr
      cases hl : spec.loader with
      | none_ | «namespace» =>
        rw [nodeForSpec] at h
        simp only [hl] at h
        cases hs : spec.searchLocations with
        | none => rw [hs] at h; simp [Ext.throw] at h
        | some locs =>
          rw [hs] at h
          simp only [Ext.pure, Except.ok.injEq, Prod.mk.injEq] at h
          obtain ⟨rfl, rfl⟩ := h
          rfl
      | builtin =>
        rw [nodeForSpec] at h
        simp only [hl] at h
        exact wrap _ _ _ _ _ _ rfl h
      | extension =>
        rw [nodeForSpec] at h
        simp only [hl] at h
        obtain ⟨d, w', hd, h⟩ := Ext.bind_ok h
        exact wrap _ _ _ _ _ _ rfl h
      | inspect | frozen => exact insp (by simp [hl])
      | six | vendor | distutils => exact absurd trivial (by rw [hl] at hm; exact hm)
      | unknown =>
        rw [nodeForSpec] at h
        simp only [hl] at h
        simp [Ext.throw] at h

/-- The assumption `MakesModules` of theorems about graphs holds for this `node_for_spec`. -/
theorem C36_makes_modules (env : Env W) (n : Nat) : (env.withLoaders L n).MakesModules :=
  fun spec w node imports h => C36_kinds n spec w node imports h

/-- The assumption `LoadsModules` of theorems about graphs holds iff no module that moved elsewhere
turns out to be missing. -/
theorem C36_loads_modules (env : Env W) (n : Nat) :
    (env.withLoaders L n).LoadsModules ↔
      ∀ spec w node imports, (nodeForSpec L n spec w).1 = .ok (node, imports) → node.isMissing = false := by
  constructor
  · intro h spec w node imports hr
    have := h spec w node imports hr
    unfold Node.isLoaded Node.isModule Node.isPackage Node.isNamespacePkg at this
    unfold Node.isMissing
    cases hk : node.kind <;> simp_all
  · intro h spec w node imports hr
    rcases C36_kinds n spec w node imports hr with h1 | h1
    · exact h1
    · rw [h spec w node imports hr] at h1; cases h1

/-! ## Examples -/

/-- Three modules: `p`, a package with source that does not compile; `q`, a package whose source
cannot be decoded; `m`, a module without source. -/
def demoLoaders : Loaders Unit where
  findSpec := fun n w => (.ok (if n = c!"urllib.parse" then
    some { name := n, loader := .inspect } else none), w)
  getSource := fun s w =>
    (if s.name = c!"p" then .ok (some c!"import x")
     else if s.name = c!"q" then .error .syntaxError else .ok none, w)
  parse := fun _ _ w => (.ok (.other [.import_ [(c!"x", none)]]), w)
  getCode := fun s w =>
    (if s.name = c!"p" then .error .syntaxError else
      .ok (some (.mk 0 [c!"y"] [⟨.storeName, some 0⟩] .nil)), w)
  isPackage := fun s w => (.ok (s.name = c!"p" || s.name = c!"q"), w)
  distributionForFile := fun _ w => (.ok none, w)
  containsDatafiles := fun _ w => (.ok false, w)
  importPath := fun _ w => (.error .importError, w)
  delModule := fun _ w => (.ok (), w)
  invalidate := fun w => (.ok (), w)
  parent := id
  new := true
  order := fun l => l

theorem demoLoaders_stable : demoLoaders.Stable :=
  ⟨fun _ _ _ => rfl, fun _ _ _ _ => rfl, fun _ _ _ => rfl, fun _ _ _ => rfl⟩

/-- The hypotheses of the theorems above hold, and the classes are as they say. -/
example :
    ((nodeForSpec demoLoaders 1 ⟨c!"p", .inspect, some c!"/p/__init__.py", some [c!"/p"]⟩ ()).1.toOption.map
        (·.1)) =
      some { ident := c!"p", filename := some c!"/p/__init__.py",
             kind := .package false ⟨c!"p", .invalid, some c!"/p/__init__.py"⟩ [c!"/p"] false none } ∧
    ((nodeForSpec demoLoaders 1 ⟨c!"m", .inspect, some c!"/m.pyc", none⟩ ()).1.toOption.map (·.1)) =
      some { ident := c!"m", filename := some c!"/m.pyc", kind := .module .bytecode,
             globalsWritten := [c!"y"] } ∧
    ((nodeForSpec demoLoaders 1 ⟨c!"m", .frozen, none, none⟩ ()).1.toOption.map (·.1)) =
      some { ident := c!"m", kind := .module .frozen, globalsWritten := [c!"y"] } := by
  decide +kernel

/-- `six.moves.urllib.parse` is `urllib.parse`. -/
example : (nodeForSpec demoLoaders 2 ⟨c!"six.moves.urllib.parse", .six, none, none⟩ ()).1.toOption.map
      (·.1.ident) = some c!"urllib.parse" ∧
    ((c!"urllib.parse", c!"urllib.parse") ∈ sixMovesTo) ∧
    sixRelative c!"six.moves.urllib.parse" = c!"urllib.parse" := by
  decide +kernel

/-- C36 fails for a package whose source has a syntax error that `get_source` notices (such as a bad
encoding declaration): its node is an `InvalidModule`, there is no package around it. -/
theorem C36_invalid_package :
    (demoLoaders.isPackage ⟨c!"q", .inspect, some c!"/q/__init__.py", some [c!"/q"]⟩ ()).1 = .ok true ∧
    ((nodeForSpec demoLoaders 1 ⟨c!"q", .inspect, some c!"/q/__init__.py", some [c!"/q"]⟩ ()).1.toOption.map
        (·.1)) =
      some { ident := c!"q", filename := some c!"/q/__init__.py", kind := .module .invalid } := by
  decide +kernel

/-- A module of `six.moves` that does not exist gives a `MissingModule`, so that `LoadsModules` does
not hold. -/
theorem C36_six_missing :
    (nodeForSpec demoLoaders 1 ⟨c!"six.moves.nope", .six, none, none⟩ ()).1 =
      .ok (missingNode c!"six.moves.nope", []) := by
  decide +kernel

/-- A world in which `six` is installed and there is nothing else. -/
def sixEnv : Env Unit :=
  { Demo.env {} with
    findSpec := fun n w => (.ok (sixSpec n), w)
    findSpecRel := fun n p w => (.ok (sixSpec (p ++ '.' :: n)), w) }.withLoaders demoLoaders 2
where
  sixSpec (n : Str) : Option Verif.Spec :=
    if n = c!"six" then some { name := n, loader := .inspect }
    else if startsWith c!"six.moves" n then some { name := n, loader := .six }
    else none

/-- C21 fails for a module of `six.moves` that does not exist: there is a `MissingModule`, but the
missing hooks were not asked for it (they are for `nope`). -/
theorem C21_six_not_asked :
    let s := (runClient sixEnv 30 (Demo.client [.addMissingHook (.user 0),
      .addModule c!"six.moves.nope", .addModule c!"nope"]) (initState () [] true)).2
    Event.failed ∉ s.log ∧ missingNode c!"six.moves.nope" ∈ s.nodes ∧ missingNode c!"nope" ∈ s.nodes ∧
      .user 0 ∈ Spec.askedFor c!"nope" s.log ∧ .user 0 ∉ Spec.askedFor c!"six.moves.nope" s.log := by
  decide +kernel

end Verif.Props
