import Verif.Spec.LoaderSpec
import Verif.Proofs.BytecodeErr
/-! # `node_for_spec`: inversion -/
namespace Verif
variable {W α β : Type}

theorem Ext.bind_ok {x : Ext W α} {f : α → Ext W β} {w : W} {b : β}
    (h : (Ext.bind x f w).1 = .ok b) : ∃ a w', x w = (.ok a, w') ∧ (f a w').1 = .ok b := by
  unfold Ext.bind at h
  cases hx : x w with
  | mk r w' =>
    rw [hx] at h
    cases r with
    | error e => cases h
    | ok a => exact ⟨a, w', rfl, h⟩

theorem Ext.catching_ok {x : Ext W α} {p : Exc → Bool} {hd : Ext W α} {w : W} {a : α} {w' : W}
    (h : Ext.catching x p hd w = (.ok a, w')) :
    x w = (.ok a, w') ∨ ∃ e w1, x w = (.error e, w1) ∧ p e = true ∧ hd w1 = (.ok a, w') := by
  unfold Ext.catching at h
  cases hx : x w with
  | mk r w1 =>
    rw [hx] at h
    cases r with
    | ok b => exact .inl h
    | error e =>
      dsimp only at h
      split at h
      · next hp => exact .inr ⟨e, w1, rfl, hp, h⟩
      · cases h

theorem Ext.bind_eq_ok {x : Ext W α} {f : α → Ext W β} {w : W} {b : β} {w2 : W}
    (h : Ext.bind x f w = (.ok b, w2)) : ∃ a w', x w = (.ok a, w') ∧ f a w' = (.ok b, w2) := by
  unfold Ext.bind at h
  cases hx : x w with
  | mk r w' =>
    rw [hx] at h
    cases r with
    | error e => cases h
    | ok a => exact ⟨a, w', rfl, h⟩

theorem Ext.bind_eq_error {x : Ext W α} {f : α → Ext W β} {w : W} {e : Exc} {w2 : W}
    (h : Ext.bind x f w = (.error e, w2)) :
    x w = (.error e, w2) ∨ ∃ a w', x w = (.ok a, w') ∧ f a w' = (.error e, w2) := by
  unfold Ext.bind at h
  cases hx : x w with
  | mk r w' =>
    rw [hx] at h
    cases r with
    | error e => exact .inl (by simpa using h)
    | ok a => exact .inr ⟨a, w', rfl, h⟩

variable {L : Loaders W}

/-- The part for the syntax tree. -/
theorem astPart_ok (hS : L.Stable) {spec : Spec} {source w r w'} (w0 : W)
    (h : astPart L spec source w = (.ok r, w')) :
    (source = none ∧ r = (none, false)) ∨
    ∃ src f, source = some src ∧ spec.origin = some f ∧
      ((∃ a, (L.parse src f w0).1 = .ok a ∧ r = (some (extractAstInfo L.order a), false)) ∨
       ((L.parse src f w0).1 = .error .syntaxError ∧ r = (none, true))) := by
  unfold astPart at h
  cases source with
  | none => simp only [Ext.pure, Prod.mk.injEq, Except.ok.injEq] at h; exact .inl ⟨rfl, h.1.symm⟩
  | some src =>
    right
    cases ho : spec.origin with
    | none => rw [ho] at h; simp [Ext.throw] at h
    | some f =>
      rw [ho] at h
      refine ⟨src, f, rfl, rfl, ?_⟩
      rcases Ext.catching_ok h with h | ⟨e, w1, h, he, h2⟩
      · obtain ⟨a, w1, ha, h⟩ := Ext.bind_eq_ok h
        simp only [Ext.pure, Prod.mk.injEq, Except.ok.injEq] at h
        refine .inl ⟨a, ?_, h.1.symm⟩
        rw [hS.parse _ _ _ w, ha]
      · rcases Ext.bind_eq_error h with h | ⟨a, w3, _, h⟩
        · simp only [Ext.pure, Prod.mk.injEq, Except.ok.injEq] at h2
          simp only [beq_iff_eq] at he
          subst he
          refine .inr ⟨?_, h2.1.symm⟩
          rw [hS.parse _ _ _ w, h]
        · simp [Ext.pure] at h

/-- The part for the code object. -/
theorem codePart_ok (hS : L.Stable) {spec : Spec} {w r w'} (w0 : W)
    (h : codePart L spec w = (.ok r, w')) :
    (∃ c i, (L.getCode spec w0).1 = .ok (some c) ∧ extractBytecodeInfo L.new c = .ok i ∧
      r = some i) ∨
    ((L.getCode spec w0).1 = .error .syntaxError ∧ r = none) := by
  unfold codePart at h
  rcases Ext.catching_ok h with h | ⟨e, w1, h, he, h2⟩
  · obtain ⟨c, w1, hc, h⟩ := Ext.bind_eq_ok h
    cases c with
    | none => simp [Ext.throw] at h
    | some code =>
      dsimp only at h
      cases hx : extractBytecodeInfo L.new code with
      | error e => rw [hx] at h; simp [Ext.throw] at h
      | ok i =>
        rw [hx] at h
        simp only [Ext.pure, Prod.mk.injEq, Except.ok.injEq] at h
        exact .inl ⟨code, i, by rw [hS.code _ _ w, hc], hx, h.1.symm⟩
  · simp only [beq_iff_eq] at he
    subst he
    simp only [Ext.pure, Prod.mk.injEq, Except.ok.injEq] at h2
    rcases Ext.bind_eq_error h with h | ⟨c, w3, hc, h⟩
    · exact .inr ⟨by rw [hS.code _ _ w, h], h2.1.symm⟩
    · exfalso
      cases c with
      | none => simp [Ext.throw] at h
      | some code =>
        dsimp only at h
        cases hx : extractBytecodeInfo L.new code with
        | ok i => rw [hx] at h; simp [Ext.pure] at h
        | error e =>
          rw [hx] at h
          simp only [Ext.throw, Prod.mk.injEq, Except.error.injEq] at h
          have := extractBytecodeInfo_err _ _ _ hx
          rw [h.1] at this
          simp at this

/-- The branch for loaders that give source and code. -/
theorem inspectPart_ok (hS : L.Stable) {spec : Spec} {w r w'} (w0 : W)
    (h : inspectPart L spec w = (.ok r, w')) :
    r.2.node.filename = (if spec.loader = .frozen then none else spec.origin) ∧
    ((r.1 = true ∧ (L.getSource spec w0).1 = .error .syntaxError ∧ r.2.kind = .invalid ∧
      r.2.node.kind = .module .invalid ∧ r.2.node.ident = spec.name ∧ r.2.imports = [] ∧
      r.2.node.globalsWritten = [] ∧ r.2.node.globalsRead = []) ∨
    (r.1 = false ∧ r.2.node.ident = spec.name ∧ r.2.node.kind = .module r.2.kind ∧
      ∃ source ast code, (L.getSource spec w0).1 = .ok source ∧
        ((source = none ∧ ast = (none, false)) ∨
          ∃ src f, source = some src ∧ spec.origin = some f ∧
            ((∃ a, (L.parse src f w0).1 = .ok a ∧ ast = (some (extractAstInfo L.order a), false)) ∨
             ((L.parse src f w0).1 = .error .syntaxError ∧ ast = (none, true)))) ∧
        ((∃ c i, (L.getCode spec w0).1 = .ok (some c) ∧ extractBytecodeInfo L.new c = .ok i ∧
            code = some i) ∨
          ((L.getCode spec w0).1 = .error .syntaxError ∧ code = none)) ∧
        r.2.kind = (if ast.2 || code.isNone then .invalid
          else if spec.loader = .frozen then .frozen
          else if source.isSome then .source else .bytecode) ∧
        r.2.imports = ast.1.getD (code.getD ([], [], [])).1 ∧
        r.2.node.globalsWritten = (code.getD ([], [], [])).2.1 ∧
        r.2.node.globalsRead = (code.getD ([], [], [])).2.2)) := by
  unfold inspectPart at h
  obtain ⟨got, w1, hg, h⟩ := Ext.bind_eq_ok h
  rcases Ext.catching_ok hg with hg | ⟨e, w2, hg2, he, h2⟩
  · obtain ⟨s, w2, hs, hp⟩ := Ext.bind_eq_ok hg
    simp only [Ext.pure, Prod.mk.injEq, Except.ok.injEq] at hp
    obtain ⟨hp1, hp2⟩ := hp
    subst hp1 hp2
    dsimp only at h
    obtain ⟨ast, w3, ha, h⟩ := Ext.bind_eq_ok h
    obtain ⟨code, w4, hc, h⟩ := Ext.bind_eq_ok h
    obtain ⟨d, w5, hd, h⟩ := Ext.bind_eq_ok h
    simp only [Ext.pure, Prod.mk.injEq, Except.ok.injEq] at h
    obtain ⟨h, -⟩ := h
    subst h
    refine ⟨rfl, .inr ?_⟩
    refine ⟨rfl, rfl, rfl, s, ast, code, by rw [hS.source _ _ w, hs], astPart_ok hS w0 ha,
      codePart_ok hS w0 hc, rfl, rfl, rfl, rfl⟩
  · simp only [Ext.pure, Prod.mk.injEq, Except.ok.injEq] at h2
    simp only [beq_iff_eq] at he
    subst he
    obtain ⟨hp1, hp2⟩ := h2
    subst hp1 hp2
    dsimp only at h
    obtain ⟨d, w5, hd, h⟩ := Ext.bind_eq_ok h
    simp only [Ext.pure, Prod.mk.injEq, Except.ok.injEq] at h
    obtain ⟨h, -⟩ := h
    subst h
    refine ⟨rfl, .inl ⟨rfl, ?_, rfl, rfl, rfl, rfl, rfl, rfl⟩⟩
    rcases Ext.bind_eq_error hg2 with hg | ⟨a, w3, _, hg⟩
    · rw [hS.source _ _ w, hg]
    · simp [Ext.pure] at hg

/-- The package around a node. -/
theorem wrapPackage_ok (hS : L.Stable) {spec : Spec} {node : Node} {kind source imports w r} (w0 : W)
    (h : (wrapPackage L spec node kind source imports w).1 = .ok r) :
    r.2 = imports ∧
    (((L.isPackage spec w0).1 = .ok false ∧ r.1 = node) ∨
     ((L.isPackage spec w0).1 = .ok true ∧ r.1.ident = node.ident ∧
      r.1.globalsWritten = node.globalsWritten ∧ r.1.globalsRead = node.globalsRead ∧
      r.1.distribution = node.distribution ∧ r.1.filename = node.filename.map L.parent ∧
      ∃ locs data ns, r.1.kind = .package (decide (spec.loader = .frozen))
        { name := node.ident, kind := kind, filename := node.filename } locs data ns)) := by
  unfold wrapPackage at h
  obtain ⟨p, w1, hp, h⟩ := Ext.bind_ok h
  have hp' : (L.isPackage spec w0).1 = .ok p := by rw [hS.package _ _ w, hp]
  cases p with
  | false =>
    simp only [Bool.false_eq_true, if_false, Ext.pure, Except.ok.injEq] at h
    subst h
    exact ⟨rfl, .inl ⟨hp', rfl⟩⟩
  | true =>
    simp only [if_true] at h
    obtain ⟨ns, w2, hns, h⟩ := Ext.bind_ok h
    cases hl : ns.2 with
    | none => rw [hl] at h; simp [Ext.throw] at h
    | some locs =>
      rw [hl] at h
      obtain ⟨data, w3, hd, h⟩ := Ext.bind_ok h
      simp only [Ext.pure, Except.ok.injEq] at h
      subst h
      exact ⟨rfl, .inr ⟨hp', rfl, rfl, rfl, rfl, rfl, locs, data, ns.1, rfl⟩⟩

end Verif
