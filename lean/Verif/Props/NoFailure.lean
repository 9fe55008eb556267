import Verif.Proofs.NoErrApi
import Verif.Props.ExactExample
import Verif.Props.Termination
import Verif.Proofs.Universe
/-!
# C63: building a graph works

If all needed modules can be searched and read, and nothing that is needed makes the graph builder
stumble (`Spec/SafeSpec.lean`), then no call fails.  With C42 and C61: a list of calls comes to an end,
without failures, and with exactly the graph that is described in `Spec/ExactSpec.lean`.
-/
namespace Verif.Props
open Verif M Spec
variable {W : Type}

theorem conf_world (w : W) (stdlib : List (Str × Implies)) (builtin : Bool) (excludes : List Str)
    (implies : List (Str × Implies)) : (confState w stdlib builtin excludes implies).world = w := by
  have key : ∀ (s : St W) p, (addImply s p).world = s.world := by
    intro s p
    unfold addImply
    split <;> rfl
  refine foldl_pres (P := fun s : St W => s.world = w) (fun s a h => by rw [key]; exact h) implies _ ?_
  refine foldl_pres (P := fun s : St W => s.world = w) (f := addExclude) (fun s a h => h) excludes _ ?_
  unfold initState
  simp only []
  have := foldl_pres (P := fun s : St W => s.world = w) (f := addImply) (fun s a h => by rw [key]; exact h) stdlib
    ({ world := w, lazy := fun k => if k = c!"__main__" then some .excluded else none } : St W) rfl
  split
  · exact this
  · exact this

theorem conf_ready (I : W → Prop) (S : Setup) (w : W) (stdlib : List (Str × Implies)) (builtin : Bool) (excludes : List Str)
    (implies : List (Str × Implies)) (hc : S.conf = configured excludes (stdlib ++ implies)) (hI : I w) :
    Ready I S (confState w stdlib builtin excludes implies) := by
  have hh := conf_hooks w stdlib builtin excludes implies
  have hl := conf_lazy w stdlib builtin excludes implies
  obtain ⟨h1, h2, h3, h4, h5, h6⟩ := conf_rest w stdlib builtin excludes implies
  have hw : I (confState w stdlib builtin excludes implies).world := by rw [conf_world]; exact hI
  revert hh hl h1 h2 h3 h4 h5 h6 hw
  generalize confState w stdlib builtin excludes implies = s
  intro hh hl h1 h2 h3 h4 h5 h6 hw
  refine ⟨⟨by simp [h1], by simp [h2], by simp [h3], by simp [h4], by simp [h1], ?_, by simp [h5, h6]⟩,
    hh.1, hh.2, hw, by simp [h2]⟩
  intro x
  rw [hl, hc]
  exact .inl rfl

section
variable (S : Setup) (hT : S.Tame) (hS : S.Safe) (env : Env W) (hD : S.Describes env) (hW : S.Works env)
  (hO : env.OrderExact) (ops : List ApiOp) (ha : S.AskedBy ops) (hs : ScriptsOnce ops)
  (w : W) (stdlib : List (Str × Implies)) (builtin : Bool) (excludes : List Str) (implies : List (Str × Implies))
  (hc : S.conf = configured excludes (stdlib ++ implies))
include hT hS hD hW hO ha hs hc

/-- C63: no call fails.  (The exception `fuel` stands for the recursion depth of the model.) -/
theorem C63_no_failure (n : Nat) :
    let r := runClient env (n + 1) (configureThen excludes implies (doAll ops)) (initState w stdlib builtin)
    r.1 ≠ .error .fuel → (∃ x, r.1 = .ok x) ∧ Event.failed ∉ r.2.log := by
  intro r hf
  have hr := conf_ready (fun _ => True) S w stdlib builtin excludes implies hc trivial
  obtain ⟨h1, _, _, _, _, h6⟩ := conf_rest w stdlib builtin excludes implies
  have := doAll_ne hO hT hS hD hW (.trivial S env) n ops (fun o ho => ?_) hs _ hr (by simp [AliasOk, h1]) (by simp [St.has, h1])
  · change NE r _ at this
    clear_value r
    obtain ⟨r, s⟩ := r
    cases r with
    | error e => exact absurd (congrArg Except.error this) hf
    | ok x =>
      refine ⟨⟨x, rfl⟩, fun h => ?_⟩
      have := this.2.fail h
      rw [h6] at this
      cases this
  · exact ⟨ha.only o ho, asks_of_asked ha ho⟩

/-- C63, for each call: it returns if the calls before it did. -/
theorem C63_returns (n : Nat) (pre post : List ApiOp) (o : ApiOp) (hops : ops = pre ++ o :: post) :
    let r := runClient env (n + 1) (configureThen excludes implies (doAll pre)) (initState w stdlib builtin)
    r.1 ≠ .error .fuel → ((calls env (n + 1)).op o r.2).1 ≠ .error .fuel →
      ∃ x, ((calls env (n + 1)).op o r.2).1 = .ok x := by
  intro r hf hf'
  have hr := conf_ready (fun _ => True) S w stdlib builtin excludes implies hc trivial
  obtain ⟨h1, _, _, _, _, h6⟩ := conf_rest w stdlib builtin excludes implies
  have hask : ∀ o ∈ ops, S.Adds o ∧ S.Asks o := fun o ho => ⟨ha.only o ho, asks_of_asked ha ho⟩
  subst hops
  have hsp := List.pairwise_append.mp hs
  have := doAll_ne hO hT hS hD hW (.trivial S env) n pre (fun o ho => hask o (List.mem_append_left _ ho)) hsp.1 _ hr
    (by simp [AliasOk, h1]) (by simp [St.has, h1])
  change NE r _ at this
  revert hf hf'
  clear_value r
  obtain ⟨r, s⟩ := r
  intro hf hf'
  cases r with
  | error e => exact absurd (congrArg Except.error this) hf
  | ok x =>
    obtain ⟨h2, h3⟩ : Ready _ S s ∧ Adds _ _ s := this
    have hal : AliasOk s := AliasOk.grew (by simp [AliasOk, h1]) h3
    have := op_ne hT hD hW (.trivial S env) (NEGood.calls hO hT hS hD hW (.trivial S env) n) (hask o (by simp)).1 (hask o (by simp)).2 s h2 hal ?_
    · change NE ((calls env (n + 1)).op o s) _ at this
      revert hf' this
      generalize (calls env (n + 1)).op o s = q
      intro hf' this
      obtain ⟨q, s'⟩ := q
      cases q with
      | ok a => exact ⟨a, rfl⟩
      | error e => exact absurd (congrArg Except.error this) hf'
    · intro x hx
      refine h3.fresh (by simp [St.has, h1]) ?_
      subst hx
      have hask' := (ha.script x).mpr (by simp)
      rintro (((h4 | h4) | ⟨d, h4, rfl⟩) | h4)
      · exact (hT.scriptName x hask').1 h4
      · exact (hT.scriptName x hask').2 h4
      · exact (hT.distName d h4).2.2 hask'
      · exact hsp.2.2 _ h4 _ (List.mem_cons_self ..) x rfl rfl

/-- C63, with C42 and C61: in a finite environment the calls come to an end, all succeed, and the graph
has exactly the described nodes, edges and roots. -/
theorem C63_total {U : Universe} (hr : env.Returns) (hk : env.KeepsFakes) (hF : FiniteImports env U)
    (ht : TableOk U stdlib) (hi : TableOk U implies) (ho : ∀ o ∈ ops, OpOk env U o) (hL : env.MakesModules)
    (hP : ∀ k n, (env.userPost k n).Only S.Asks) (hM : ∀ k i n, (env.userMissing k i n).Passive)
    (hb : builtin = true ∨ ∀ n, S.HasNode n → S.compiled n = none) :
    ∃ N, ∀ n, N ≤ n →
      let r := runClient env n (configureThen excludes implies (doAll ops)) (initState w stdlib builtin)
      r.1 = .ok none ∧ Event.failed ∉ r.2.log ∧
      (∀ m, m ∈ r.2.nodes ↔ S.HasNode m) ∧ (∀ a b d, (a, b, d) ∈ r.2.edges ↔ S.HasEdge a b d) ∧
        ∀ x, x ∈ r.2.roots ↔ S.HasRoot x := by
  refine ⟨Term.R U (Term.nodeCost U * U.names.length) + 1, fun n hn => ?_⟩
  obtain ⟨n, rfl⟩ : ∃ k, n = k + 1 := ⟨n - 1, by omega⟩
  intro r
  have hat : Term.At env U (Term.top U) (Term.nodeCost U * U.names.length)
      (confState w stdlib builtin excludes implies) :=
    Term.interp_at (p := configureThen excludes implies (.ret none)) (Term.calls_fin hr hk hF (n + 1))
      (.call trivial fun _ => .call hi fun _ => .ret none) (Term.init_at w ht builtin)
  have hfuel : r.1 ≠ .error .fuel := Term.doAll_fuel hr hk hF hn ops ho hat
  obtain ⟨⟨x, hx⟩, hf⟩ := C63_no_failure S hT hS env hD hW hO ops ha hs w stdlib builtin excludes implies hc n hfuel
  have hx' : x = none := by
    have key : ∀ (l : List ApiOp) (s : St W) x s', runClient env (n + 1) (doAll l) s = (.ok x, s') → x = none := by
      intro l
      induction l with
      | nil => intro s x s' h; cases h; rfl
      | cons o l ih =>
        intro s x s' h
        obtain ⟨_, s1, _, h1⟩ := M.bind_ok h
        exact ih _ _ _ h1
    exact key ops _ x r.2 (by rw [← hx]; rfl)
  subst hx'
  exact ⟨hx, hf, C61_built S hT env hD hO hL hP hM n ops ha w stdlib builtin excludes implies hc hb hf⟩

/-- The same with a plain condition on finiteness: there are finitely many modules (`dom`), and the setup
also tells for the modules that are not needed whether they are compiled with mypyc. -/
theorem C63_finite (hr : env.Returns) (hk : env.KeepsFakes) (dom : List Str)
    (hdom : ∀ x p, S.mods x = some p → x ∈ dom)
    (hmy : ∀ x m infos, S.mods x = some (m, infos) → S.CompiledIn env m) (hL : env.MakesModules)
    (hP : ∀ k n, (env.userPost k n).Only S.Asks) (hM : ∀ k i n, (env.userMissing k i n).Passive)
    (hb : builtin = true ∨ ∀ n, S.HasNode n → S.compiled n = none) :
    ∃ N, ∀ n, N ≤ n →
      let r := runClient env n (configureThen excludes implies (doAll ops)) (initState w stdlib builtin)
      r.1 = .ok none ∧ Event.failed ∉ r.2.log ∧
      (∀ m, m ∈ r.2.nodes ↔ S.HasNode m) ∧ (∀ a b d, (a, b, d) ∈ r.2.edges ↔ S.HasEdge a b d) ∧
        ∀ x, x ∈ r.2.roots ↔ S.HasRoot x :=
  C63_total S hT hS env hD hW hO ops ha hs w stdlib builtin excludes implies hc
    (U := Univ.univ S dom (stdlib ++ implies) ops) hr hk (Univ.finite env hD hdom hT.loaded hmy)
    (Univ.table fun _ h => List.mem_append_left _ h) (Univ.table fun _ h => List.mem_append_right _ h)
    (Univ.ops_ok env hD ha.only) hL hP hM hb

end
end Verif.Props
