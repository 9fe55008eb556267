import Verif.Proofs.Completed
import Verif.Props.Builtin
import Verif.Props.Queue
import Verif.Props.Api
/-!
# The hook for modules compiled with mypyc runs for every module

If no call failed and the queue is empty, the hook ran to its end for every node whose
post-processing was started.
-/
namespace Verif
open M Spec
variable {W : Type}

/-- The hook for mypyc is registered, after at least `k` others. -/
def MypycLast (k : Nat) (s : St W) : Prop := ∃ pre, s.postHooks = pre ++ [.mypyc] ∧ k ≤ pre.length

theorem mypycLastClosed (k : Nat) : SimplyClosed (MypycLast (W := W) k) := by
  have same : ∀ {s s' : St W}, s'.postHooks = s.postHooks → MypycLast k s → MypycLast k s' :=
    fun he ⟨pre, h1, h2⟩ => ⟨pre, he.trans h1, h2⟩
  constructor
  case postHook =>
    intro s h ⟨pre, h1, h2⟩
    exact ⟨h :: pre, by simp [h1], by simp; omega⟩
  case addEdge => intro s a b d h _ _; exact same (by unfold St.addEdge; split <;> rfl) h
  case addRoot => intro s a h _; exact same (by unfold St.addRoot; split <;> rfl) h
  case imply => intro s p h; exact same (by unfold addImply; split <;> rfl) h
  case schedule => intro s n i h; exact same (by rw [schedule_postHooks]) h
  case popExcluded => intro s name h _ _; exact same (by rw [schedule_postHooks]; rfl) h
  all_goals (intros; exact same rfl ‹_›)

theorem initState_mypyc (w : W) (stdlib : List (Str × Implies)) : MypycLast 0 (initState w stdlib true) := by
  have key : ∀ (s : St W) p, (addImply s p).postHooks = s.postHooks := by
    intro s p
    unfold addImply
    split <;> rfl
  unfold initState
  simp only [ite_true]
  have := foldl_pres (P := fun s : St W => s.postHooks = []) (f := addImply)
    (fun s a h => by rw [key]; exact h) stdlib
    ({ world := w, lazy := fun k => if k = c!"__main__" then some .excluded else none } : St W) rfl
  exact ⟨[], by simp [this], Nat.zero_le _⟩

theorem callPost_grew (env : Env W) (n k : Nat) (node : Node) {s s' : St W} {r}
    (h : (calls env n).callPost k node s = (r, s')) : Grew s s' := by
  have := (((grewClosed s).good env n).callPost k node [] s trivial (.refl s) fun _ _ _ h _ => h).2
  rw [h] at this
  cases r <;> exact this

theorem runStack_grew (env : Env W) (n : Nat) {s s' : St W} {r}
    (h : (calls env n).runStack s = (r, s')) : Grew s s' := by
  have := ((grewClosed s).good env n).runStack [] trivial s (.refl s)
  rw [h] at this
  unfold Out at this
  cases r <;> exact this.2

theorem callPost_mypyc (env : Env W) : ∀ (n k : Nat) (node : Node) (s s' : St W), MypycLast k s →
    (calls env n).callPost k node s = (.ok (), s') →
    ∃ m s2 s3, mypycHook env (calls env m) node s2 = (.ok (), s3) ∧ Grew s3 s' := by
  intro n
  induction n with
  | zero => intro k node s s' _ h; simp [calls, callsZero, M.throw] at h
  | succ n ih =>
    intro k node s s' hk h
    obtain ⟨pre, h1, h2⟩ := hk
    change callPostBody env (calls env n) k node s = _ at h
    unfold callPostBody at h
    rw [M.bind_get] at h
    cases hi : s.postHooks[k]? with
    | none =>
      rw [h1] at hi
      simp at hi
      omega
    | some hook =>
      rw [hi] at h
      simp only [] at h
      rw [M.bind_modify] at h
      obtain ⟨_, s3, h3, h4⟩ := M.bind_ok h
      cases hook with
      | mypyc => exact ⟨n, _, s3, h3, callPost_grew env n (k + 1) node h4⟩
      | user j =>
        obtain ⟨_, s4, h5, h6⟩ := M.bind_ok h3
        obtain ⟨_, rfl⟩ := M.pure_ok h6
        have hlt : k < pre.length := by
          refine Nat.lt_of_le_of_ne h2 fun he => ?_
          rw [h1, he] at hi
          simp at hi
        have := (mypycLastClosed (k + 1)).client (env := env) n (env.userPost j node)
          (s.event (.called (.user j) node.ident)) ⟨pre, h1, hlt⟩
        unfold runClient at this
        rw [h5] at this
        exact ih (k + 1) node _ s' this h4

/-- What the hook did for the module `n`. -/
structure MypycRan (s : St W) (n : Node) (helper : Str) (infos : List ImportInfo) : Prop where
  root : helper ∈ s.roots
  edge : (n.ident, helper, defaultDep) ∈ s.edges
  sched : infos = [] ∨ Event.scheduled n.ident infos ∈ s.log

theorem MypycRan.grew {s s' : St W} {n helper infos} (h : MypycRan s n helper infos) (hg : Grew s s') :
    MypycRan s' n helper infos :=
  ⟨hg.roots _ h.root, hg.edges _ h.edge, h.sched.imp id fun h => hg.log.subset h⟩

theorem mypycHook_ran {env : Env W} (hM : ∀ k i n, (env.userMissing k i n).Passive) {m : Nat} {n : Node}
    {file helper source : Str} {infos : List ImportInfo}
    (h : MypycModule n file helper) (hs : SourceOf file source) (hfile : ∀ w, (env.isFile source w).1 ≠ .ok false)
    (hread : ∀ w w' code l, (env.readBytes source w).1 = .ok code → (env.compileAst code w').1 = .ok l → l = infos)
    (hbad : ∀ w w' code, (env.readBytes source w).1 = .ok code →
      (env.compileAst code w').1 = .error .syntaxError → infos = [])
    {s s' : St W} (hr : mypycHook env (calls env m) n s = (.ok (), s')) : MypycRan s' n helper infos := by
  rw [Props.mypycHook_eq env (calls env m) h hs] at hr
  obtain ⟨b, s1, h1, h2⟩ := M.bind_ok hr
  obtain ⟨hb, rfl⟩ := M.ext_ok h1
  cases b with
  | false => exact absurd hb (hfile _)
  | true =>
    replace h2 : M.bind ((calls env m).op (.addModule helper)) _ _ = _ := h2
    obtain ⟨r, s2, h3, h4⟩ := M.bind_ok h2
    obtain ⟨hn, rfl, h5, _, h6, _⟩ := Props.C16_result env hM m helper _ s2 r h3
    simp only [] at h4
    obtain ⟨_, s3, h7, h8⟩ := M.bind_ok h4
    obtain ⟨_, _, rfl⟩ := M.addEdge_ok h7
    have hroot : helper ∈ (s2.addEdge n.ident hn.ident defaultDep).roots := (grew_addEdge ..).roots _ h6
    have hedge : (n.ident, helper, defaultDep) ∈ (s2.addEdge n.ident hn.ident defaultDep).edges := by
      rw [h5]; exact (mem_addEdge ..).mpr (.inr rfl)
    obtain ⟨code, s4, h9, h10⟩ := M.bind_ok h8
    obtain ⟨hc, rfl⟩ := M.ext_ok h9
    obtain ⟨r, s5, h11, h12⟩ := M.bind_ok h10
    cases hcomp : (M.ext (env.compileAst code)) { s2.addEdge n.ident hn.ident defaultDep with
        world := (env.readBytes source (s2.addEdge n.ident hn.ident defaultDep).world).2 } with
    | mk r1 t =>
    rcases M.attempt_cases hcomp with ⟨e, ha⟩ | ha
    · rw [ha] at h11; cases h11
    · rw [ha] at h11
      cases h11
      have ht : s5.roots = (s2.addEdge n.ident hn.ident defaultDep).roots ∧
          s5.edges = (s2.addEdge n.ident hn.ident defaultDep).edges ∧
          ((env.compileAst code) (env.readBytes source (s2.addEdge n.ident hn.ident defaultDep).world).2).1 = r := by
        unfold M.ext at hcomp
        cases hcomp
        exact ⟨rfl, rfl, rfl⟩
      obtain ⟨ht1, ht2, ht3⟩ := ht
      rw [← ht1] at hroot
      rw [← ht2] at hedge
      cases r with
      | error e =>
        cases e <;> first
          | (cases h12; done)
          | (cases h12; exact ⟨hroot, hedge, .inl (hbad _ _ _ hc ht3)⟩)
      | ok imports =>
        cases hread _ _ _ _ hc ht3
        simp only [] at h12
        split at h12
        · rename_i he
          cases h12
          exact ⟨hroot, hedge, .inl (by simpa using he)⟩
        · obtain ⟨_, s6, h13, h14⟩ := M.bind_ok h12
          have hg := runStack_grew env m h14
          cases h13
          have hg' := (grew_schedule s5 n infos).trans hg
          exact ⟨hg'.roots _ hroot, hg'.edges _ hedge, .inr (hg.log.subset (by rw [log_schedule]; simp))⟩

theorem client_mypyc (env : Env W) (hM : ∀ k i n, (env.userMissing k i n).Passive) (k : Nat) (p : Hook W) (w : W)
    (stdlib : List (Str × Implies)) :
    let s := (runClient env k p (initState w stdlib true)).2
    Event.failed ∉ s.log → ∀ n, Event.started (.pp n) ∈ s.log → ∀ {file helper source : Str} {infos : List ImportInfo},
      MypycModule n file helper → SourceOf file source → (∀ w, (env.isFile source w).1 ≠ .ok false) →
      (∀ w w' code l, (env.readBytes source w).1 = .ok code → (env.compileAst code w').1 = .ok l → l = infos) →
      (∀ w w' code, (env.readBytes source w).1 = .ok code →
        (env.compileAst code w').1 = .error .syntaxError → infos = []) → MypycRan s n helper infos := by
  intro s hf n hn file helper source infos h1 h2 h3 h4 h5
  obtain ⟨_, h⟩ := client_completed_of (mypycLastClosed 0) env k p w stdlib true (initState_mypyc w stdlib)
  obtain ⟨s1, s2, h6, h7, _, h8⟩ := h.resolve_left hf (.pp n) rfl hn
  obtain ⟨m, h9⟩ := h7.1.1
  obtain ⟨m', t, t', h10, h11⟩ := callPost_mypyc env m 0 n s1 s2 h6 h9
  exact ((mypycHook_ran hM h1 h2 h3 h4 h5 h10).grew h11).grew h8.toGrew

end Verif
