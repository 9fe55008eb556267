import Verif.Spec.RecipeSpec
import Verif.Proofs.PostNodes
import Verif.Proofs.MypycDone
import Verif.Proofs.PackageWalk
/-!
# What the hooks ask for is done

If no call failed and the queue is empty, every hook that was registered in the beginning ran to its end
for every node whose post-processing was started.
-/
namespace Verif
open M Spec
variable {W : Type}

/-- The hook is registered, after at least `k` others. -/
def HookAfter (h : PostHook) (k : Nat) (s : St W) : Prop :=
  ∃ pre post, s.postHooks = pre ++ h :: post ∧ k ≤ pre.length

theorem hookAfterClosed (h : PostHook) (k : Nat) : SimplyClosed (HookAfter (W := W) h k) := by
  have same : ∀ {s s' : St W}, s'.postHooks = s.postHooks → HookAfter h k s → HookAfter h k s' :=
    fun he ⟨pre, post, h1, h2⟩ => ⟨pre, post, he.trans h1, h2⟩
  constructor
  case postHook =>
    intro s h ⟨pre, post, h1, h2⟩
    exact ⟨h :: pre, post, by simp [h1], by simp; omega⟩
  case addEdge => intro s a b d h _ _; exact same (by unfold St.addEdge; split <;> rfl) h
  case addRoot => intro s a h _; exact same (by unfold St.addRoot; split <;> rfl) h
  case imply => intro s p h; exact same (by unfold addImply; split <;> rfl) h
  case schedule => intro s n i h; exact same (by rw [schedule_postHooks]) h
  case popExcluded => intro s name h _ _; exact same (by rw [schedule_postHooks]; rfl) h
  all_goals (intros; exact same rfl ‹_›)

theorem mypycHook_after (env : Env W) (h : PostHook) (k n : Nat) (node : Node) {s s' : St W} {r}
    (hk : HookAfter h k s) (hr : mypycHook env (calls env n) node s = (r, s')) : HookAfter h k s' := by
  have := (mypycHook_pres (hookAfterClosed h k).closed (env := env) ((hookAfterClosed h k).good env n) node [] trivial s hk)
  rw [hr] at this
  unfold Out at this
  cases r <;> exact this.2

theorem callPost_kept (env : Env W) (n k : Nat) (node : Node) {s s' : St W} {r}
    (h : (calls env n).callPost k node s = (r, s')) : Kept s s' := by
  have := (((keptClosed s).good env n).callPost k node [] s trivial (.refl s) fun _ _ _ h _ => h).2
  rw [h] at this
  cases r <;> exact this

theorem callPost_user (env : Env W) (j : Nat) : ∀ (n k : Nat) (node : Node) (s s' : St W), HookAfter (.user j) k s →
    (calls env n).callPost k node s = (.ok (), s') →
    ∃ m s2 r s3, interp (calls env m) (env.userPost j node) s2 = (.ok r, s3) ∧ Kept s3 s' := by
  intro n
  induction n with
  | zero => intro k node s s' _ h; simp [calls, callsZero, M.throw] at h
  | succ n ih =>
    intro k node s s' hk h
    obtain ⟨pre, post, h1, h2⟩ := hk
    change callPostBody env (calls env n) k node s = _ at h
    unfold callPostBody at h
    rw [M.bind_get] at h
    cases hi : s.postHooks[k]? with
    | none =>
      rw [h1] at hi
      simp at hi
      omega
    | some hook =>
      rw [hi] at h
      simp only [] at h
      rw [M.bind_modify] at h
      obtain ⟨_, s3, h3, h4⟩ := M.bind_ok h
      have hlt : hook ≠ .user j → k < pre.length := fun hne => by
        refine Nat.lt_of_le_of_ne h2 fun he => ?_
        rw [h1, he] at hi
        simp at hi
        exact hne hi.symm
      cases hook with
      | mypyc =>
        exact ih (k + 1) node _ s' (mypycHook_after env _ _ n node
          (s := s.event (.called .mypyc node.ident)) ⟨pre, post, h1, hlt nofun⟩ h3) h4
      | user i =>
        obtain ⟨r, s4, h5, h6⟩ := M.bind_ok h3
        obtain ⟨_, rfl⟩ := M.pure_ok h6
        by_cases hij : i = j
        · subst hij
          exact ⟨n, _, r, _, h5, callPost_kept env n (k + 1) node h4⟩
        · have := (hookAfterClosed (.user j) (k + 1)).client (env := env) n (env.userPost i node)
            (s.event (.called (.user i) node.ident)) ⟨pre, post, h1, hlt (by simpa using hij)⟩
          unfold runClient at this
          rw [h5] at this
          exact ih (k + 1) node _ s' this h4

theorem op_failed {env : Env W} {n : Nat} {o : ApiOp} {s s' : St W} {e : Exc}
    (h : (calls env n).op o s = (.error e, s')) (he : e ≠ .fuel) : Event.failed ∈ s'.log := by
  cases n with
  | zero => simp [calls, callsZero, M.throw] at h; exact absurd h.1.symm he
  | succ n =>
    change opBody env (calls env n) o s = _ at h
    unfold opBody at h
    split at h
    · cases h
    · cases h; simp [St.event]

theorem interp_kept (env : Env W) (n : Nat) (p : Hook W) {s s' : St W} {r}
    (h : interp (calls env n) p s = (r, s')) : Kept s s' := by
  have := (keptClosed s).client (env := env) n p s (.refl s)
  unfold runClient at this
  rw [h] at this
  exact this

theorem interp_asks (env : Env W) (n : Nat) (o : ApiOp) {p : Hook W} (hp : p.Asks o) : ∀ {s s' : St W} {r},
    interp (calls env n) p s = (.ok r, s') → Event.failed ∉ s'.log →
    ∃ t r' t', (calls env n).op o t = (.ok r', t') ∧ Kept t' s' := by
  induction hp with
  | raise => intro s s' r h; cases h
  | look _ ih => intro s s' r h hf; exact ih _ h hf
  | setWorld _ ih => intro s s' r h hf; exact ih h hf
  | here =>
    intro s s' r h hf
    obtain ⟨q, s1, h1, h2⟩ := M.bind_ok h
    have hg := interp_kept env n _ h2
    cases hq : (calls env n).op o s with
    | mk r1 s2 =>
      unfold M.attempt at h1
      rw [hq] at h1
      cases r1 with
      | error e =>
        cases he : e <;> subst he <;> first
          | (cases h1; done)
          | (cases h1; exact absurd (hg.log.subset (op_failed hq (by simp))) hf)
      | ok r1 => cases h1; exact ⟨s, r1, s1, hq, hg⟩
  | call hk ih =>
    intro s s' r h hf
    rename_i o' k
    obtain ⟨q, s1, h1, h2⟩ := M.bind_ok h
    have hg := interp_kept env n _ h2
    cases hq : (calls env n).op o' s with
    | mk r1 s2 =>
      unfold M.attempt at h1
      rw [hq] at h1
      cases r1 with
      | error e =>
        cases he : e <;> subst he <;> first
          | (cases h1; done)
          | (cases h1; exact absurd (hg.log.subset (op_failed hq (by simp))) hf)
      | ok r1 => cases h1; exact ih r1 h2 hf

theorem register_run (env : Env W) (n : Nat) (p : Hook W) : ∀ (hs : List PostHook) (s : St W),
    runClient env (n + 1) (register hs p) s =
      runClient env (n + 1) p { s with postHooks := hs.reverse ++ s.postHooks } := by
  intro hs
  induction hs with
  | nil => intro s; rfl
  | cons h hs ih =>
    intro s
    have : runClient env (n + 1) (register (h :: hs) p) s =
        runClient env (n + 1) (register hs p) { s with postHooks := h :: s.postHooks } := rfl
    rw [this, ih]
    simp

theorem register_only {P : ApiOp → Prop} {hs : List PostHook} {p : Hook W} (hp : p.Only P)
    (h : ∀ h, P (.addPostHook h)) : (register hs p).Only P := by
  induction hs with
  | nil => exact hp
  | cons a hs ih => exact .call (h a) fun _ => ih

theorem client_asks (env : Env W) (n : Nat) (p : Hook W) (w : W) (stdlib : List (Str × Implies)) (builtin : Bool)
    (hs : List PostHook) :
    let s := (runClient env (n + 1) (register hs p) (initState w stdlib builtin)).2
    Event.failed ∉ s.log → ∀ m, Event.started (.pp m) ∈ s.log → ∀ k, .user k ∈ hs → ∀ o, (env.userPost k m).Asks o →
      ∃ d t r t', (calls env d).op o t = (.ok r, t') ∧ Kept t' s := by
  intro s hf m hm k hk o ho
  have h0 : HookAfter (.user k) 0 { initState w stdlib builtin with
      postHooks := hs.reverse ++ (initState w stdlib builtin).postHooks } := by
    obtain ⟨a, b, h⟩ := List.append_of_mem (List.mem_append_left (initState w stdlib builtin).postHooks
      (List.mem_reverse.mpr hk))
    exact ⟨a, b, h, Nat.zero_le _⟩
  obtain ⟨_, h⟩ := client_completed_from (hookAfterClosed (.user k) 0) env (n + 1) p _ h0
    (initState_view w stdlib builtin).2
  rw [← register_run] at h
  obtain ⟨s1, s2, h6, h7, _, h8⟩ := h.resolve_left hf (.pp m) rfl hm
  obtain ⟨d, h9⟩ := h7.1.1
  obtain ⟨d', t, r, t', h10, h11⟩ := callPost_user env k d 0 m s1 s2 h6 h9
  have hg := h11.trans h8
  obtain ⟨u, r', u', h12, h13⟩ := interp_asks env d' o ho h10 fun h => hf (hg.log.subset h)
  exact ⟨d', u, r', u', h12, h13.trans hg⟩

end Verif
