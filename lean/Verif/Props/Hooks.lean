import Verif.Proofs.MissFacts
import Verif.Proofs.Fuel
import Verif.Props.Nodes
/-!
# C20, C21: calling hooks
-/
namespace Verif.Props
open Verif Spec

variable {W : Type}

/-! ## C20 -/

/-- A new hook is put in front of the older ones. -/
theorem C20_registration (env : Env W) (n : Nat) (s : St W) (h : PostHook) (h' : MissHook) :
    (calls env (n + 1)).op (.addPostHook h) s = (.ok none, { s with postHooks := h :: s.postHooks }) ∧
    (calls env (n + 1)).op (.addMissingHook h') s =
      (.ok none, { s with missHooks := h' :: s.missHooks }) := ⟨rfl, rfl⟩

theorem callMissing_chain (env : Env W) (hP : ∀ k n, (env.userPost k n).Only ApiOp.NoHookReg)
    (hH : ∀ k i n, (env.userMissing k i n).Only ApiOp.NoHookReg) (n : Nat) (importing : Option Node)
    (name : Str) (k : Nat) (s s' : St W) (r : Except Exc (Option Node))
    (h : (calls env n).callMissing k importing name s = (r, s')) (hr : r ≠ .error .fuel) :
    AskChain env importing name (s.missHooks.drop k) s r s' := by
  induction n generalizing k s with
  | zero => simp [calls, callsZero, M.throw] at h; exact absurd h.1.symm hr
  | succ n ih =>
    change callMissingBody env (calls env n) k importing name s = _ at h
    unfold callMissingBody at h
    rw [M.bind_get] at h
    cases hi : s.missHooks[k]? with
    | none =>
      rw [hi] at h
      obtain ⟨rfl, rfl⟩ : .ok none = r ∧ s = s' := by simpa [M.pure] using h
      rw [List.drop_eq_nil_of_le (List.getElem?_eq_none_iff.mp hi)]
      exact .none_left _
    | some hk =>
      obtain ⟨hil, hie⟩ := List.getElem?_eq_some_iff.mp hi
      rw [List.drop_eq_getElem_cons hil, hie]
      rw [hi] at h
      simp only [] at h
      rw [M.bind_modify] at h
      change M.bind (missCode env n importing name hk) _ _ = _ at h
      have hs : SameHooks s.missHooks s.postHooks
          (missCode env n importing name hk (s.event (.asked hk name importing))).2 := by
        cases hk with
        | swig => exact swig_hooks (env := env) importing name (s.event (.asked .swig name importing))
        | user j => exact interp_hooks hP hH (hH j importing name) n (s.event (.asked (.user j) name importing))
      cases hm : missCode env n importing name hk (s.event (.asked hk name importing)) with
      | mk q s1 =>
        rw [hm] at hs
        cases q with
        | error e =>
          rw [M.bind_of_error hm] at h
          obtain ⟨rfl, rfl⟩ := Prod.mk.inj h
          exact .raised n hm
        | ok q =>
          rw [M.bind_of_ok hm] at h
          cases q with
          | some nd =>
            obtain ⟨rfl, rfl⟩ := Prod.mk.inj h
            exact .supplied n hm
          | none =>
            have := ih (k + 1) s1 h
            rw [hs.1] at this
            exact .next n hm this

/-- C20, missing hooks: calling the list of missing hooks asks them from the front (most recently
added first) until one supplies a node, which is the result; the later ones are not called.  Hooks
do not register hooks while they run. -/
theorem C20_missing (env : Env W) (hP : ∀ k n, (env.userPost k n).Only ApiOp.NoHookReg)
    (hH : ∀ k i n, (env.userMissing k i n).Only ApiOp.NoHookReg) (n : Nat) (importing : Option Node)
    (name : Str) (s s' : St W) (r : Except Exc (Option Node))
    (h : (calls env n).callMissing 0 importing name s = (r, s')) (hr : r ≠ .error .fuel) :
    AskChain env importing name s.missHooks s r s' :=
  callMissing_chain env hP hH n importing name 0 s s' r h hr

/-- What the chain means for the log when hooks do not use the graph: the hooks asked are the first
ones of the list; all of them when nobody supplied a node; and when one supplied a node, it is the
last one that was asked. -/
theorem C20_missing_log (env : Env W)
    (hH : ∀ k i n, (env.userMissing k i n).Only fun _ => False) (importing : Option Node)
    (name : Str) (hs : List MissHook) (s s' : St W) (r : Except Exc (Option Node))
    (h : AskChain env importing name hs s r s') :
    ∃ k ≤ hs.length, askedFor name s'.log = askedFor name s.log ++ hs.take k ∧
      (r = .ok none → k = hs.length) ∧
      (∀ node, r = .ok (some node) → ∃ hook d t, hs[k - 1]? = some hook ∧ 0 < k ∧
        missCode env d importing name hook t = (.ok (some node), s')) := by
  have quiet : ∀ d hook (t : St W),
      askedFor name (missCode env d importing name hook t).2.log = askedFor name t.log := by
    intro d hook t
    cases hook with
    | swig => exact congrArg _ (swig_log env importing name t)
    | user j =>
      have := hH j importing name
      show askedFor name (interp (calls env d) (env.userMissing j importing name) t).2.log = _
      revert this
      generalize env.userMissing j importing name = p
      intro hp
      induction hp generalizing t with
      | ret r => rfl
      | raise e => rfl
      | look _ ih =>
        refine (ih t (t.event _)).trans ?_
        simp [St.event, askedFor]
      | setWorld _ ih => exact ih { t with world := _ }
      | call h => exact h.elim
  have one : ∀ (t : St W) hook, askedFor name (t.event (.asked hook name importing)).log =
      askedFor name t.log ++ [hook] := by
    intro t hook; simp [St.event, askedFor]
  induction h with
  | none_left s => exact ⟨0, by simp, by simp, by simp, by simp⟩
  | @supplied hook rest s node s' d hm =>
    refine ⟨1, by simp, ?_, by simp, ?_⟩
    · have := quiet d hook (s.event (.asked hook name importing))
      rw [hm, one] at this
      simpa using this
    · intro node' hn
      obtain rfl : node = node' := by simpa using hn
      exact ⟨hook, d, _, by simp, by omega, hm⟩
  | @raised hook rest s e s' d hm =>
    refine ⟨1, by simp, ?_, by simp, by simp⟩
    have := quiet d hook (s.event (.asked hook name importing))
    rw [hm, one] at this
    simpa using this
  | @next hook rest s s1 r s' d hm _ ih =>
    obtain ⟨k, hk, h1, h2, h3⟩ := ih
    refine ⟨k + 1, by simpa using hk, ?_, fun hr => by simpa using h2 hr, ?_⟩
    · have := quiet d hook (s.event (.asked hook name importing))
      rw [hm, one] at this
      rw [h1, this]; simp
    · intro node hn
      obtain ⟨hook', d', t, h4, h5, h6⟩ := h3 node hn
      refine ⟨hook', d', t, ?_, by omega, h6⟩
      obtain ⟨j, rfl⟩ : ∃ j, k = j + 1 := ⟨k - 1, by omega⟩
      simpa using h4

theorem callPost_chain (env : Env W) (hP : ∀ k n, (env.userPost k n).Only ApiOp.NoHookReg)
    (hH : ∀ k i n, (env.userMissing k i n).Only ApiOp.NoHookReg) (n : Nat) (node : Node)
    (k : Nat) (s s' : St W) (r : Except Exc Unit)
    (h : (calls env n).callPost k node s = (r, s')) (hr : r ≠ .error .fuel) :
    CallChain env node (s.postHooks.drop k) s r s' := by
  induction n generalizing k s with
  | zero => simp [calls, callsZero, M.throw] at h; exact absurd h.1.symm hr
  | succ n ih =>
    change callPostBody env (calls env n) k node s = _ at h
    unfold callPostBody at h
    rw [M.bind_get] at h
    cases hi : s.postHooks[k]? with
    | none =>
      rw [hi] at h
      obtain ⟨rfl, rfl⟩ : .ok () = r ∧ s = s' := by simpa [M.pure] using h
      rw [List.drop_eq_nil_of_le (List.getElem?_eq_none_iff.mp hi)]
      exact .none_left _
    | some hk =>
      obtain ⟨hil, hie⟩ := List.getElem?_eq_some_iff.mp hi
      rw [List.drop_eq_getElem_cons hil, hie]
      rw [hi] at h
      simp only [] at h
      rw [M.bind_modify] at h
      change M.bind (postCode env n node hk) _ _ = _ at h
      have hs : SameHooks s.missHooks s.postHooks
          (postCode env n node hk (s.event (.called hk node.ident))).2 := by
        cases hk with
        | mypyc => exact mypyc_hooks hP hH n node (s.event (.called .mypyc node.ident))
        | user j =>
          have := interp_hooks hP hH (hP j node) n (s.event (.called (.user j) node.ident))
          show SameHooks _ _ (M.bind (interp (calls env n) (env.userPost j node)) _ _).2
          cases hm : interp (calls env n) (env.userPost j node)
              (s.event (.called (.user j) node.ident)) with
          | mk q s1 =>
            rw [hm] at this
            cases q with
            | ok a => rw [M.bind_of_ok hm]; exact this
            | error e => rw [M.bind_of_error hm]; exact this
      cases hm : postCode env n node hk (s.event (.called hk node.ident)) with
      | mk q s1 =>
        rw [hm] at hs
        cases q with
        | error e =>
          rw [M.bind_of_error hm] at h
          obtain ⟨rfl, rfl⟩ := Prod.mk.inj h
          exact .raised n hm
        | ok q =>
          rw [M.bind_of_ok hm] at h
          have := ih (k + 1) s1 h
          rw [hs.2] at this
          exact .next n hm this

/-- C20, post-processing hooks: all of them are called, from the front of the list (most recently
added first), unless one raises.  Hooks do not register hooks while they run. -/
theorem C20_post (env : Env W) (hP : ∀ k n, (env.userPost k n).Only ApiOp.NoHookReg)
    (hH : ∀ k i n, (env.userMissing k i n).Only ApiOp.NoHookReg) (n : Nat) (node : Node)
    (s s' : St W) (r : Except Exc Unit)
    (h : runItem env (calls env n) (.pp node) s = (r, s')) (hr : r ≠ .error .fuel) :
    CallChain env node s.postHooks s r s' :=
  callPost_chain env hP hH n node 0 s s' r h hr

/-- Three hooks, the first two of which decline; the built-in one is the oldest and is not asked. -/
example :
    let t : Demo.Table := { Demo.small with
      missing := fun k _ nm => if k = 1 ∧ nm = c!"m" then .ret (some (Demo.src c!"m")) else .ret none }
    (∀ k i n, ((Demo.env t).userMissing k i n).Only fun _ => False) ∧
    ∃ s', (calls (Demo.env t) 9).callMissing 0 none c!"m"
      { initState () [] true with missHooks := [.user 0, .user 2, .user 1, .swig] } =
        (.ok (some (Demo.src c!"m")), s') ∧
      askedFor c!"m" s'.log = [.user 0, .user 2, .user 1] := by
  refine ⟨?_, _, Prod.ext (by decide +kernel) rfl, by decide +kernel⟩
  intro k i n
  show Hook.Only _ (if _ then _ else _)
  split <;> exact .ret _

/-- The assumption is needed: a hook that registers another one while it runs is asked again,
because the list is iterated while it grows at the front. -/
theorem C20_hook_asked_twice :
    let t : Demo.Table := {
      missing := fun k _ _ => if k = 0
        then .look fun s => if s.missHooks.contains (.user 1) then .ret none
          else .call (.addMissingHook (.user 1)) fun _ => .ret none
        else .ret none }
    askedFor c!"m" (Demo.run t [.addMissingHook (.user 0), .addModule c!"m"]).2.log =
      [.user 0, .user 0, .swig] := by decide +kernel

/-! ## C21 -/

/-- C21, one call: `_create_missing_module` asks the missing hooks; if one supplies a node, that
node is the result and nothing else is done; if none does, a `MissingModule` is made. -/
theorem C21_first_say (env : Env W) (hP : ∀ k n, (env.userPost k n).Only ApiOp.NoHookReg)
    (hH : ∀ k i n, (env.userMissing k i n).Only ApiOp.NoHookReg) (n : Nat) (importing : Option Node)
    (name : Str) (s s' : St W) (m : Node)
    (h : (calls env n).createMissing importing name s = (.ok m, s')) :
    AskChain env importing name s.missHooks s (.ok (some m)) s' ∨
    (m = missingNode name ∧ ∃ s1, AskChain env importing name s.missHooks s (.ok none) s1 ∧
      s' = (s1.addNode m).schedule m []) := by
  cases n with
  | zero => simp [calls, callsZero, M.throw] at h
  | succ n =>
    obtain ⟨r, s1, h1, h2⟩ := M.bind_ok h
    have hc := C20_missing env hP hH n importing name s s1 (.ok r) h1 (by simp)
    cases r with
    | some x =>
      obtain ⟨rfl, rfl⟩ := M.pure_ok h2
      exact .inl hc
    | none =>
      obtain ⟨_, s2, h3, h2⟩ := M.bind_ok h2
      obtain ⟨_, rfl⟩ := M.addNode_ok h3
      rw [M.bind_schedule] at h2
      obtain ⟨rfl, rfl⟩ := M.pure_ok h2
      exact .inr ⟨rfl, s1, hc, rfl⟩

/-- C21, whole runs: whatever a client program does, each `MissingModule` in the graph was offered
to every missing hook that was registered at the start, unless its name was resolved and it is what
`node_for_spec` made of the spec (see `C36_moved` and `C21_six_not_asked`).  The user's missing hooks
are passive here (what happens when they supply a node is the previous theorem). -/
theorem C21_all_asked (env : Env W)
    (hP : ∀ k n, (env.userPost k n).Only ApiOp.NoAddNode)
    (hM : ∀ k i n, (env.userMissing k i n).Passive) (n : Nat) (p : Hook W)
    (hp : p.Only ApiOp.NoAddNode) (s : St W) :
    let s' := (runClient env n p s).2
    ∀ x ∈ s'.nodes, x.isMissing = true → x ∉ s.nodes →
      (∀ h ∈ s.missHooks, ∃ i, Event.asked h x.ident i ∈ s'.log) ∨
      ∃ name spec w w' imports, Locates env name w spec ∧
        (env.nodeForSpec spec w').1 = .ok (x, imports) := by
  intro s' x hx hm hnew
  have := client_ctx (askCtx env s.missHooks (fun x => x ∈ s.nodes ∨
      ∃ name spec w w' imports, Locates env name w spec ∧
        (env.nodeForSpec spec w').1 = .ok (x, imports))
      (fun name x imports h => by
        obtain ⟨spec, w, w', h1, h2⟩ := h
        exact .inr ⟨name, spec, w, w', imports, locates_iff.mpr h1, h2⟩)) hP hM n hp s
    ⟨fun _ h => h, fun x hx _ => .inl (.inl hx)⟩
  rcases this.asked x hx hm with (h | h) | h
  · exact absurd h hnew
  · exact .inr h
  · exact .inl h

/-- A missing module, with two user hooks and the built-in one. -/
example :
    let s : St Unit := { initState () [] true with missHooks := [.user 1, .user 0, .swig] }
    let s' := (runClient (Demo.env Demo.small) 30 (Demo.client [.addModule c!"a"]) s).2
    (Demo.env Demo.small).LoadsModules ∧ missingNode c!"m" ∈ s'.nodes ∧ s.nodes = [] :=
  ⟨demo_loads _ (by decide +kernel), by decide +kernel⟩

/-- A hook that supplies a node for `m`: no missing module. -/
example :
    let t : Demo.Table := { Demo.small with
      missing := fun _ _ nm => if nm = c!"m" then
        .call (.addNode (Demo.src c!"m")) fun _ => .ret (some (Demo.src c!"m")) else .ret none }
    let s' := (Demo.run t [.addMissingHook (.user 0), .addModule c!"a"]).2
    s'.nodes.all (fun x => !x.isMissing) ∧ (c!"a", c!"m", defaultDep) ∈ s'.edges := by decide +kernel

end Verif.Props
