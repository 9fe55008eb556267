import Verif.Proofs.Guard
/-!
# C63 without conditions on worlds that do not arise

In C63 the outside world shows the same modules whatever happened before.  Here this is only so in worlds with a
property `I` that searching and reading the modules of the setup keep, for example "the search path is this, and no
module was removed".  What hooks, replaced modules or searches for other names would do no longer matters.
-/
namespace Verif.Props
open Verif M Spec
variable {W : Type}

theorem conf_via (v : W × Bool) (stdlib : List (Str × Implies)) (builtin : Bool) (excludes : List Str)
    (implies : List (Str × Implies)) :
    (confState v stdlib builtin excludes implies).via Prod.fst = confState v.1 stdlib builtin excludes implies := by
  have key : ∀ (v : W × Bool) stdlib builtin, (initState v stdlib builtin).via Prod.fst = initState v.1 stdlib builtin := by
    intro v stdlib builtin
    unfold initState
    simp only []
    have := (foldl_via (f := Prod.fst) (g' := addImply) (g := addImply) (fun s p => (addImply_via (f := Prod.fst) s p).1)
      (fun s p => (addImply_via s p).2) stdlib
      ({ world := v, lazy := fun k => if k = c!"__main__" then some .excluded else none } : St (W × Bool))).2
    cases builtin
    · exact this.symm
    · exact congrArg (fun s : St W => { s with postHooks := [.mypyc], missHooks := [.swig] }) this.symm
  unfold confState
  rw [← key]
  rw [← (foldl_via (f := Prod.fst) (g' := addImply) (g := addImply) (fun s p => (addImply_via (f := Prod.fst) s p).1)
      (fun s p => (addImply_via s p).2) _ _).2,
    ← (foldl_via (f := Prod.fst) (g' := addExclude) (g := addExclude) (fun _ _ => rfl) (fun _ _ => rfl) _ _).2]

theorem doAll_sim {V : Type} {f : V → W} {good : V → Prop} {env' : Env V} {env : Env W}
    (hE : EnvSim f good env' env) (n : Nat) (ops : List ApiOp) :
    MSim f good (runClient env' n (doAll ops)) (runClient env n (doAll ops)) := by
  induction ops with
  | nil => exact .pure none
  | cons o l ih => exact .bind (.attempt ((calls_sim hE n).op o)) fun _ => ih

/-- C63 in worlds with `I`: the calls come to an end, all succeed, the graph has exactly the described nodes, edges
and roots, and the world still has `I`. -/
theorem C63_in_worlds (S : Setup) (hT : S.Tame) (hS : S.Safe) (I : W → Prop) (env : Env W) (hV : S.ShownIn I env)
    (hO : env.OrderExact) (ops : List ApiOp) (ha : S.AskedBy ops) (hs : ScriptsOnce ops)
    (w : W) (hw : I w) (stdlib : List (Str × Implies)) (builtin : Bool) (excludes : List Str)
    (implies : List (Str × Implies)) (hc : S.conf = configured excludes (stdlib ++ implies))
    (he : S.mods [] = none) (dom : List Str) (hdom : ∀ x p, S.mods x = some p → x ∈ dom)
    (hb : builtin = true ∨ ∀ n, S.HasNode n → S.compiled n = none) :
    ∃ N, ∀ n, N ≤ n →
      let r := runClient env n (configureThen excludes implies (doAll ops)) (initState w stdlib builtin)
      r.1 = .ok none ∧ Event.failed ∉ r.2.log ∧ I r.2.world ∧
      (∀ m, m ∈ r.2.nodes ↔ S.HasNode m) ∧ (∀ a b d, (a, b, d) ∈ r.2.edges ↔ S.HasEdge a b d) ∧
        ∀ x, x ∈ r.2.roots ↔ S.HasRoot x := by
  have hD := Guard.guarded_describes hV hw
  have hW := Guard.guarded_works hV hw
  have hO' : (Guard.guarded S I env w).OrderExact := fun v l x => hO v.1 l x
  obtain ⟨N, hN⟩ := C63_finite S hT hS (Guard.guarded S I env w) hD hW hO' ops ha hs (w, true) stdlib builtin
    excludes implies hc (Guard.guarded_returns hV hw) (Guard.guarded_fakes hV hw he) dom hdom
    (fun x m infos hm => Guard.guarded_compiled hV hw (.inr ⟨x, infos, hm⟩))
    (Guard.guarded_makes hV hw hT) (fun _ _ => .setWorld (.ret none)) (fun _ _ _ => .setWorld .ret) hb
  refine ⟨N + 1, fun n hn => ?_⟩
  obtain ⟨n, rfl⟩ : ∃ k, n = k + 1 := ⟨n - 1, by omega⟩
  obtain ⟨h1, h2, h3⟩ := hN (n + 1) (by omega)
  have hr := conf_ready (Guard.Inv I) S (w, true) stdlib builtin excludes implies hc ⟨rfl, hw⟩
  obtain ⟨h4, _, _, _, _, h5⟩ := conf_rest (w, true) stdlib builtin excludes implies
  have hne := doAll_ne hO' hT hS hD hW (Guard.guarded_stays hV hw) n ops (fun o ho => ?_) hs _ hr
    (by simp [AliasOk, h4]) (by simp [St.has, h4])
  · have hsim := doAll_sim (Guard.guarded_sim (S := S) (I := I) (env := env) (w0 := w)) (n + 1) ops
      (confState (w, true) stdlib builtin excludes implies)
    rw [conf_via] at hsim
    change (runClient _ (n + 1) (doAll ops) (confState _ stdlib builtin excludes implies)).1 = _ at h1
    change _ ∉ (runClient _ (n + 1) (doAll ops) (confState _ stdlib builtin excludes implies)).2.log at h2
    intro r
    change (∀ m, m ∈ (runClient _ (n + 1) (doAll ops) (confState _ stdlib builtin excludes implies)).2.nodes ↔ _) ∧
      (∀ a b d, (a, b, d) ∈ (runClient _ (n + 1) (doAll ops) (confState _ stdlib builtin excludes implies)).2.edges ↔ _) ∧
      (∀ x, x ∈ (runClient _ (n + 1) (doAll ops) (confState _ stdlib builtin excludes implies)).2.roots ↔ _) at h3
    have hr' : r = runClient env (n + 1) (doAll ops) (confState w stdlib builtin excludes implies) := rfl
    clear_value r
    revert hne hsim h1 h2 h3
    generalize runClient (Guard.guarded S I env w) (n + 1) (doAll ops) _ = q
    intro hne hsim h1 h2 h3
    obtain ⟨q, s⟩ := q
    simp only at h1
    subst h1
    have hi := hne.1.inv
    obtain ⟨_, hsim⟩ := hsim hi.1
    rw [← hr'] at hsim
    subst hsim
    exact ⟨rfl, h2, hi.2, h3⟩
  · exact ⟨ha.only o ho, asks_of_asked ha ho⟩

end Verif.Props
