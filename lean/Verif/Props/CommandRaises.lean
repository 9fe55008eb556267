import Verif.Spec.OutputSpec
import Verif.Props.Lookup
import Verif.Props.MainOutput
/-!
# C85: with which exceptions the command ends
-/
namespace Verif.Props
open Verif Spec
variable {W : Type} {P : Exc → Prop}

theorem buildGraph_raises {env : Env W} (hW : WorldRaises P env) (hH : HooksCareful P env) (n : Nat) (table : List (Str × Implies))
    (a : Args) (w : W) (e : Exc) (h : (buildGraph env n table a w).1 = .error e) : Allowed P e := by
  have hc := calls_fine hW hH n
  have hf : Fine P (fun _ _ => True) (initState w table true)
      ((M.bind ((calls env n).op (.addExcludes a.excludes)) fun _ =>
        M.forEach (a.names.getD []) fun name =>
          M.bind ((calls env n).op (addNamed a.nodeType name)) fun _ => M.pure ()) (initState w table true)) := by
    refine .bind (hc.op _ [] _ (initial_keptIn w table true) (by simp) trivial) fun _ s1 h1 _ _ => ?_
    refine .forEach h1 (fun name _ s2 h2 _ => ?_) (fun _ => trivial)
    refine .bind (hc.op _ [] _ h2 (by simp) ?_) fun _ s3 h3 _ _ => .pure h3 trivial
    cases a.nodeType <;> trivial
  unfold buildGraph at h
  simp only [] at h
  have h3 := hf.2.2
  split at h
  · cases h
  · rename_i hq
    rw [hq] at h3
    cases h
    exact h3

theorem writeFile_raises {o : Output W} (hO : OutputRaises P o) (file text : Str) :
    Raises (fun e => e ≠ .osError → P e) (writeFile o file text) := by
  intro w e h
  unfold writeFile at h
  have h1 := hO.openFile file w
  cases hq : o.openFile file w with
  | mk r w1 =>
    rw [hq] at h h1
    cases r with
    | error e' => cases h; exact h1 e rfl
    | ok fp =>
      simp only [] at h
      have h2 := hO.write fp text w1
      cases hq2 : o.write fp text w1 with
      | mk r w2 =>
        rw [hq2] at h h2
        have h3 := hO.close fp w2
        cases r with
        | ok _ => exact h3 e h
        | error e' =>
          simp only [] at h
          cases hq3 : o.close fp w2 with
          | mk r w3 =>
            rw [hq3] at h h3
            cases r with
            | ok _ => cases h; exact h2 e rfl
            | error e'' => cases h; exact h3 e rfl

/-- **C85.**  An exception with which the command ends was raised outside, or is `AssertionError` or `ValueError`.  An `OSError` of the
output file is none of them.  Missing for the full claim: wrong names give tracebacks, see `C85_unknown_distribution`. -/
theorem C85_exceptions_partial (P : Exc → Prop) (o : Output W) (hO : OutputRaises P o) (sp : SysPath W) (env : Env W)
    (hW : WorldRaises P env) (hH : HooksCareful P env) (n : Nat) (table : List (Str × Implies)) (stdlib : List Str)
    (iter : St W → Iter) (argv : List Arg) (w : W) (e : Exc)
    (h : (main o sp env n table stdlib iter argv w).1 = .raised e) :
    P e ∨ e = .assertion ∨ e = .valueError false ∨ e = .fuel := by
  unfold main at h
  cases hp : parseArguments stdlib argv with
  | none => rw [hp] at h; cases h
  | some a =>
    rw [hp] at h
    simp only [] at h
    have hm : ∀ e, (makeGraph sp env n table a w).1 = .error e → Allowed P e :=
      fun e he => buildGraph_raises hW hH n table a _ e he
    cases hg : makeGraph sp env n table a w with
    | mk r w1 =>
      rw [hg] at h hm
      cases r with
      | error e' => cases h; exact hm e rfl
      | ok s =>
        simp only [] at h
        unfold formatGraph at h
        split at h
        · have hs := hO.stdout (graphText a.format (iter s)) w1
          split at h
          · cases h
          · rename_i hq; rw [hq] at hs; cases h; exact .inl (hs e rfl)
        · rename_i file _
          have hs := writeFile_raises hO file (graphText a.format (iter s)) w1
          split at h
          · cases h
          · rename_i hq
            rw [hq] at hs
            split at h
            · cases h
            · rename_i hne
              cases h
              exact .inl (hs e rfl hne)

/-! ## Examples -/

/-- C85 is false as stated: a distribution that is not installed, a name that is no module name and a script that does not exist
end the command with an exception, and so does a standard output that cannot be written to; an output file that cannot be written
is reported. -/
theorem C85_unknown_distribution (iter : St Disk → Iter) :
    (main Disk.output Disk.path Disk.env 20 [] [] iter [.nodeType .distribution, .names [c!"nosuch"]] {}).1 =
      .raised (.valueError false) ∧
    (main Disk.output Disk.path Disk.env 20 [] [] iter [.names [c!".m"]] {}).1 = .raised (.valueError false) ∧
    (main Disk.output Disk.path Disk.env 20 [] [] iter [.nodeType .script, .names [c!"nosuch"]] {}).1 = .raised .osError ∧
    (main { Disk.output with stdout := fun _ w => (.error .osError, w) } Disk.path Disk.env 20 [] [] iter [.names [c!"m"]] {}).1 =
      .raised .osError ∧
    (main Disk.output Disk.path Disk.env 20 [] [] iter [.output c!"/ro/t", .names [c!"m"]] {}).1 = .status 1 :=
  ⟨rfl, rfl, rfl, rfl, rfl⟩

/-- The hypotheses of `C85_exceptions_partial` are met: no command ends with a `KeyError`, whatever its arguments, although
`sys.modules.pop` raises one. -/
example (iter : St Disk → Iter) (n : Nat) (argv : List Arg) (w : Disk) :
    (main Disk.output Disk.path Disk.env n [] [] iter argv w).1 ≠ .raised .keyError := by
  intro h
  have hO : OutputRaises (fun e => ¬ LookupFails e) Disk.output := by
    constructor
    · rintro t w _ ⟨⟩
    · intro x w e h
      simp only [Disk.output] at h
      split at h <;> cases h
      simp
    · rintro fp t w _ ⟨⟩
    · intro fp w e h
      simp only [Disk.output] at h
      split at h <;> cases h
      simp [LookupFails]
  have hW : WorldRaises (fun e => ¬ LookupFails e) Disk.env := by
    constructor
    case popModule => rintro x w _ ⟨⟩ h; exact absurd ⟨nofun, nofun⟩ h
    case order => exact fun _ _ _ h => h
    case findSpecRel => rintro x y w e ⟨⟩
    all_goals
      intro x w e h
      simp only [Disk.env] at h
      cases h
    all_goals simp [LookupFails]
  rcases C85_exceptions_partial _ Disk.output hO Disk.path Disk.env hW
    ⟨fun _ _ => (nofun : ∀ n : Node, (none : Option Node) = some n → _),
      fun _ _ _ => (nofun : ∀ n : Node, (none : Option Node) = some n → _)⟩ n [] [] iter argv w _ h with h | h | h | h
  · exact h (.inl rfl)
  all_goals cases h

end Verif.Props
