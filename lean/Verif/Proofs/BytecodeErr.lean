import Verif.Proofs.BytecodeTree
/-! # The bytecode scan ends, and the exceptions it can raise -/
namespace Verif
open Verif.Spec

/-- The exceptions of the scan: a failed `assert`, an index that is out of range, or a level that is
not a number. -/
def ScanErr {α : Type} (x : Except Exc α) : Prop :=
  ∀ e, x = .error e → e = .assertion ∨ e = .indexError ∨ e = .typeError

theorem ScanErr.ok {α : Type} (a : α) : ScanErr (.ok a) := by intro e h; cases h
theorem ScanErr.pure {α : Type} (a : α) : ScanErr (pure a : Except Exc α) := by intro e h; cases h

theorem pyGet_err {α : Type} (l : List α) (k : Nat) : ScanErr (pyGet l k) := by
  unfold pyGet; split <;> intro e h <;> simp_all

theorem pyBack_err (l : List Instr) (o k : Nat) : ScanErr (pyBack l o k) := by
  unfold pyBack
  split
  · exact pyGet_err _ _
  · split
    · exact pyGet_err _ _
    · intro e h; simp_all

theorem argOf_err (i : Instr) : ScanErr (argOf i) := by
  unfold argOf; split <;> intro e h <;> simp_all

theorem ScanErr.bind {α β : Type} {x : Except Exc α} {f : α → Except Exc β} (h : ScanErr x)
    (hf : ∀ a, ScanErr (f a)) : ScanErr (x >>= f) := by
  cases x with
  | error e => intro e' he; exact h _ (by simpa [Bind.bind, Except.bind] using he)
  | ok a => exact hf a

theorem scanInst_err (new : Bool) (c : Code) (fn cl : Bool) (o : Nat) (i : Instr) :
    ScanErr (scanInst new c fn cl o i) := by
  have name : ∀ (k : Nat) (g : Str → Found), ScanErr (do let n ← pyGet c.names k; return g n : Except Exc Found) :=
    fun k g => .bind (pyGet_err _ _) fun _ => .pure _
  have thr : ∀ {β : Type} (e : Exc), (e = .assertion ∨ e = .typeError) → ScanErr (throw e : Except Exc β) := by
    intro β e he e' h
    simp only [throw, throwThe, MonadExceptOf.throw, Except.error.injEq] at h
    grind
  unfold scanInst
  split
  · unfold scanImport
    refine .bind (pyBack_err _ _ _) fun a => .bind (pyBack_err _ _ _) fun b =>
      .bind (pyBack_err _ _ _) fun f => ?_
    simp only []
    split
    · exact thr .assertion (.inl rfl)
    refine .bind (pyBack_err _ _ _) fun l => ?_
    split
    · exact thr .assertion (.inl rfl)
    refine .bind (argOf_err _) fun _ => .bind (argOf_err _) fun _ =>
      .bind (pyGet_err _ _) fun fl => ?_
    split
    all_goals
      refine .bind (by first | exact pyGet_err _ _ | exact .ok _) fun lv => ?_
      split
      all_goals
        refine .bind (by first | exact .ok _ | exact thr _ (.inl rfl)) fun nm => .bind (argOf_err _) fun _ =>
          .bind (pyGet_err _ _) fun m => ?_
        split
        · exact .pure _
        · exact thr _ (.inr rfl)
  · split
    · exact .ok _
    · exact .bind (argOf_err _) fun k => name k _
  · split
    · exact .ok _
    · exact .bind (argOf_err _) fun k => name k _
  · split
    · exact .ok _
    · exact .bind (argOf_err _) fun k => name k _
  · exact .bind (argOf_err _) fun k => name _ _
  · unfold scanMake
    refine .bind (pyBack_err _ _ _) fun _ => .bind (argOf_err _) fun _ =>
      .bind (pyGet_err _ _) fun _ => ?_
    split <;> exact .pure _
  · exact .ok _

theorem scanFrom_err (new : Bool) (c : Code) (fn cl : Bool) (o : Nat) (l : List Instr) :
    ScanErr (scanFrom new c fn cl o l) := by
  induction l generalizing o with
  | nil => exact .ok _
  | cons i l ih =>
    rw [scanFrom]
    exact .bind (scanInst_err _ _ _ _ _ _) fun _ => .bind (ih _) fun _ => .pure _

theorem extractBytecodeInfo_err (new : Bool) (root : Code) :
    ScanErr (extractBytecodeInfo new root) := by
  have loop : ∀ n q parents acc, (q.flatMap codes).length ≤ n →
      ScanErr (scanQueue new n q parents acc) := by
    intro n
    induction n with
    | zero =>
      intro q parents acc h
      cases q with
      | nil => rw [scanQueue]; exact .ok _
      | cons c q => rw [List.flatMap_cons, codes_eq] at h; simp at h
    | succ n ih =>
      intro q parents acc h
      cases q with
      | nil => rw [scanQueue]; exact .ok _
      | cons c q =>
        rw [scanQueue]
        refine .bind (scanFrom_err _ _ _ _ _ _) fun f => ih _ _ _ ?_
        rw [List.flatMap_cons, codes_eq] at h
        simp only [List.cons_append, List.length_cons, List.length_append, List.flatMap_append] at h ⊢
        omega
  unfold extractBytecodeInfo
  exact .bind (loop _ _ _ _ (by rw [count_codes]; simp)) fun _ => .pure _

end Verif
