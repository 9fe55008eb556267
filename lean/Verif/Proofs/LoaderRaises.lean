import Verif.Spec.LookupSpec
import Verif.Proofs.BytecodeTree
import Verif.Proofs.BytecodeErr
/-! # Exceptions of `node_for_spec` -/
namespace Verif
open Spec
variable {W : Type} {P : Exc → Prop}

theorem scanQueue_error {new n} : ∀ {q : List Code} {ps acc e}, (∀ c ∈ q, ∀ d ∈ codes c, Compiled new d) →
    scanQueue new n q ps acc = .error e → e = .fuel := by
  induction n with
  | zero =>
    intro q ps acc e hq h
    cases q with
    | nil => simp [scanQueue] at h
    | cons c q => simp only [scanQueue, Except.error.injEq] at h; exact h.symm
  | succ n ih =>
    intro q ps acc e hq h
    cases q with
    | nil => simp [scanQueue] at h
    | cons c q =>
      rw [scanQueue] at h
      have hc : Compiled new c := hq c (by simp) c (self_mem_codes c)
      obtain ⟨f, hf, -⟩ := extractSingle_ok hc (isCodeForFunction c (ps c) acc.funcs)
        (decide (Const.code c ∈ acc.classes))
      rw [hf] at h
      refine ih ?_ h
      intro d hd
      simp only [List.mem_append] at hd
      rcases hd with hd | hd
      · exact hq d (List.mem_cons_of_mem _ hd)
      · exact fun x hx => hq c (by simp) x (codes_trans (child_mem (self_mem_codes c) hd) hx)

theorem extract_compiled {new : Bool} {c : Code} (hc : ∀ d ∈ codes c, Compiled new d) :
    ∃ r, extractBytecodeInfo new c = .ok r := by
  cases h : extractBytecodeInfo new c with
  | ok r => exact ⟨r, rfl⟩
  | error e =>
    exfalso
    have h1 : e = .fuel := by
      unfold extractBytecodeInfo at h
      cases hq : scanQueue new c.count [c] (fun _ => []) {} with
      | ok f => rw [hq] at h; cases h
      | error e' =>
        rw [hq] at h
        cases h
        exact scanQueue_error (by simpa using hc) hq
    subst h1
    rcases extractBytecodeInfo_err new c _ h with h | h | h <;> cases h

section
variable {α β : Type}

theorem Spec.Raises.bind {x : Ext W α} {f : α → Ext W β} (hx : Raises P x)
    (hf : ∀ a, (∃ w, (x w).1 = .ok a) → Raises P (f a)) : Raises P (Ext.bind x f) := by
  intro w e h
  unfold Ext.bind at h
  cases hr : x w with
  | mk r w' =>
    rw [hr] at h
    cases r with
    | ok a => exact hf a ⟨w, by rw [hr]⟩ w' e h
    | error e' => cases h; exact hx w e (by rw [hr])

theorem Spec.Raises.pure {a : α} : Raises P (Ext.pure a : Ext W α) := by
  intro w e h; cases h
theorem Spec.Raises.throw {e} (h : P e) : Raises P (Ext.throw e : Ext W α) := by
  rintro w _ ⟨⟩; exact h
theorem Spec.Raises.catching {x : Ext W α} {p : Exc → Bool} {y : Ext W α}
    (hx : Raises (fun e => p e = false → P e) x) (hy : Raises P y) : Raises P (Ext.catching x p y) := by
  intro w e h
  unfold Ext.catching at h
  cases hr : x w with
  | mk r w' =>
    rw [hr] at h
    cases r with
    | ok a => cases h
    | error e' =>
      simp only [] at h
      split at h
      · exact hy w' e h
      · rename_i hp
        cases h
        exact hx w e (by rw [hr]) (by simpa using hp)
theorem Spec.Raises.weaken {P' : Exc → Prop} {x : Ext W α} (h : Raises P x) (hp : ∀ e, P e → P' e) : Raises P' x :=
  fun w e hr => hp e (h w e hr)
end

section
variable {L : Loaders W} (hL : LoadersRaise P L) (hA : P .assertion) (hF : P .fuel) (hU : P .runtimeError)

include hL in
theorem distFor_raises (o) : Raises P (distFor L o) := by
  unfold distFor
  split
  · exact hL.distributionForFile _
  · exact .pure

include hL hA in
theorem astPart_raises (spec src) : Raises P (astPart L spec src) := by
  unfold astPart
  split
  · exact .pure
  split
  · exact .throw hA
  · refine .catching (.bind ?_ fun _ _ => .pure) .pure
    exact (hL.parse _ _).weaken fun e h he => h (by simpa using he)

include hL hA in
theorem codePart_raises (spec) : Raises P (codePart L spec) := by
  unfold codePart
  refine .catching (.bind ?_ fun c hc => ?_) .pure
  · exact (hL.getCode _).weaken fun e h he => h (by simpa using he)
  · cases c with
    | none => exact .throw fun _ => hA
    | some code =>
      obtain ⟨w, hw⟩ := hc
      obtain ⟨r, hr⟩ := extract_compiled (hL.compiled _ _ _ hw)
      simp only [hr]
      exact .pure

include hL hA in
theorem inspectPart_raises (spec) : Raises P (inspectPart L spec) := by
  unfold inspectPart
  refine .bind (.catching (.bind ?_ fun _ _ => .pure) .pure) fun got _ => ?_
  · exact (hL.getSource _).weaken fun e h he => h (by simpa using he)
  · cases got with
    | none => exact .bind (distFor_raises hL _) fun _ _ => .pure
    | some src =>
      exact .bind (astPart_raises hL hA _ _) fun _ _ => .bind (codePart_raises hL hA _) fun _ _ =>
        .bind (distFor_raises hL _) fun _ _ => .pure

include hL in
theorem namespaceType_raises (spec node src) : Raises P (namespaceType L spec node src) := by
  unfold namespaceType
  split
  · exact .pure
  split
  · refine .bind (.catching ?_ .pure) fun _ _ => .pure
    exact (hL.importPath _).weaken fun e h he => h (by rw [← importFails_iff]; simp [he])
  · exact .pure

include hL hA in
theorem wrapPackage_raises (spec node kind src imports) : Raises P (wrapPackage L spec node kind src imports) := by
  unfold wrapPackage
  refine .bind (hL.isPackage _) fun b _ => ?_
  split
  · refine .bind (namespaceType_raises hL _ _ _) fun ns _ => ?_
    split
    · exact .throw hA
    · refine .bind ?_ fun _ _ => .pure
      split
      · exact hL.containsDatafiles _
      · exact .pure
  · exact .pure

include hL in
theorem findAgain_raises (a b) : Raises P (findAgain L a b) := by
  unfold findAgain
  refine .bind (hL.findSpec _) fun sp _ => ?_
  split
  · exact .pure
  split
  · exact .bind (hL.delModule _) fun _ _ => .bind hL.invalidate fun _ _ => hL.findSpec _
  · exact .pure

include hL hA hF hU in
theorem nodeForSpec_raises (n : Nat) (spec) : Raises P (nodeForSpec L n spec) := by
  induction n generalizing spec with
  | zero => exact .throw hF
  | succ n ih =>
    rw [nodeForSpec]
    have moved : ∀ (m : Spec), Raises P (if spec.name = m.name then Ext.throw .assertion else nodeForSpec L n m) := by
      intro m
      split
      · exact .throw hA
      · exact ih m
    cases spec.loader with
    | none_ | «namespace» =>
      simp only []
      split
      · exact .throw hA
      · exact .pure
    | builtin => exact wrapPackage_raises hL hA _ _ _ _ _
    | extension => exact .bind (distFor_raises hL _) fun _ _ => wrapPackage_raises hL hA _ _ _ _ _
    | inspect | frozen =>
      refine .bind (inspectPart_raises hL hA _) fun r _ => ?_
      split
      · exact .pure
      · exact wrapPackage_raises hL hA _ _ _ _ _
    | six =>
      simp only []
      split
      · exact .bind (distFor_raises hL _) fun _ _ => .pure
      split
      · exact .pure
      · refine .bind (findAgain_raises hL _ _) fun sp _ => ?_
        cases sp with
        | none => exact .pure
        | some m => exact moved m
    | vendor root pkg =>
      refine .bind (.catching ((findAgain_raises hL _ _).weaken fun e h _ => h) (hL.findSpec _)) fun sp _ => ?_
      cases sp with
      | none => exact .pure
      | some m => exact moved m
    | distutils =>
      simp only []
      split
      · exact .throw hA
      refine .bind (hL.delModule _) fun _ _ => .bind hL.invalidate fun _ _ => .bind (hL.findSpec _) fun sp _ => ?_
      cases sp with
      | none => exact .pure
      | some m => exact moved m
    | unknown => exact .throw hU

end
end Verif
