import Verif.Proofs.Exact
import Verif.Proofs.Exec
import Verif.Spec.SafeSpec
/-!
# Building a graph does not fail

A walk over all methods that are used when modules and scripts are added: in a setup that is `Tame` and
`Safe`, and a world that `Works`, no method ends with an exception.
-/
namespace Verif
open M Spec
variable {W : Type} {α β : Type}

/-- The outcome is no exception (but the recursion depth of the model may not suffice). -/
def NE (r : Except Exc α × St W) (Q : α → St W → Prop) : Prop :=
  match r.1 with
  | .ok a => Q a r.2
  | .error e => e = .fuel

theorem NE.bind {m : M W α} {f : α → M W β} {s : St W} {P Q} (h : NE (m s) P)
    (k : ∀ a s', P a s' → NE (f a s') Q) : NE (M.bind m f s) Q := by
  unfold M.bind
  cases hm : m s with
  | mk r s1 =>
    rw [hm] at h
    cases r with
    | ok a => exact k a s1 h
    | error e => exact h

theorem NE.weaken {r : Except Exc α × St W} {P Q} (h : NE r P) (k : ∀ a s', P a s' → Q a s') : NE r Q := by
  cases r with
  | mk r s =>
    cases r with
    | ok a => exact k a s h
    | error e => exact h

theorem NE.forEach {I : St W → Prop} {f : α → M W Unit} {l : List α}
    (h : ∀ x ∈ l, ∀ s, I s → NE (f x s) fun _ => I) {s : St W} (hs : I s) :
    NE (M.forEach l f s) fun _ => I := by
  induction l generalizing s with
  | nil => exact hs
  | cons x l ih =>
    refine .bind (h x (List.mem_cons_self ..) s hs) fun _ s1 h1 => ?_
    exact ih (fun y hy => h y (List.mem_cons_of_mem _ hy)) h1

/-- What a method adds: nodes with property `B`, aliases together with their targets. -/
structure Adds (B : Str → Prop) (s s' : St W) : Prop where
  nodes : ∀ n ∈ s.nodes, n ∈ s'.nodes
  log : ∀ e ∈ s.log, e ∈ s'.log
  new : ∀ n ∈ s'.nodes, n ∈ s.nodes ∨ (B n.ident ∧ ∀ t, n.kind = .alias t → Has s' t)
  post : s'.postHooks = s.postHooks
  miss : s'.missHooks = s.missHooks
  fail : .failed ∈ s'.log → .failed ∈ s.log
  edges : ∀ a b d, (a, b, d) ∈ s'.edges → (a, b, d) ∈ s.edges ∨ Has s' b

section
variable {B B' : Str → Prop} {s s' s'' : St W}

theorem Adds.refl (s : St W) : Adds B s s := ⟨fun _ h => h, fun _ h => h, fun _ h => .inl h, rfl, rfl, fun h => h,
  fun _ _ _ h => .inl h⟩

theorem Adds.has (h : Adds B s s') {x} (hx : Has s x) : Has s' x := by
  obtain ⟨n, h1, h2⟩ := hx
  exact ⟨n, h.nodes n h1, h2⟩

theorem Adds.trans (h : Adds B s s') (h' : Adds B s' s'') : Adds B s s'' := by
  refine ⟨fun n hn => h'.nodes n (h.nodes n hn), fun e he => h'.log e (h.log e he), ?_,
    h'.post.trans h.post, h'.miss.trans h.miss, fun hf => h.fail (h'.fail hf),
    fun a b d he => (h'.edges a b d he).elim (fun he => (h.edges a b d he).imp id h'.has) .inr⟩
  intro n hn
  rcases h'.new n hn with h1 | h1
  · exact (h.new n h1).imp (fun h => h) fun h2 => ⟨h2.1, fun t ht => h'.has (h2.2 t ht)⟩
  · exact .inr h1

theorem Adds.imp (h : Adds B s s') (hB : ∀ x, B x → B' x) : Adds B' s s' :=
  ⟨h.nodes, h.log, fun n hn => (h.new n hn).imp (fun h => h) fun h2 => ⟨hB _ h2.1, h2.2⟩, h.post, h.miss,
    h.fail, h.edges⟩

/-- Same nodes. -/
theorem Adds.same (hn : s'.nodes = s.nodes) (hl : ∀ e ∈ s.log, e ∈ s'.log) (hp : s'.postHooks = s.postHooks)
    (hm : s'.missHooks = s.missHooks) (hf : .failed ∈ s'.log → .failed ∈ s.log)
    (he : s'.edges = s.edges := by rfl) : Adds B s s' :=
  ⟨by rw [hn]; exact fun _ h => h, hl, by rw [hn]; exact fun _ h => .inl h, hp, hm, hf,
    by rw [he]; exact fun _ _ _ h => .inl h⟩

theorem Adds.addEdge (s : St W) (a b d) (hb : Has s b) : Adds B s (s.addEdge a b d) := by
  unfold St.addEdge
  split
  · exact .refl s
  · refine ⟨fun _ h => h, fun _ h => h, fun _ h => .inl h, rfl, rfl, fun h => h, fun a' b' d' he => ?_⟩
    rcases List.mem_append.mp he with he | he
    · exact .inl he
    · cases List.mem_singleton.mp he
      exact .inr hb

theorem Adds.addRoot (s : St W) (a) : Adds B s (s.addRoot a) := by
  unfold St.addRoot
  split
  · exact .refl s
  · exact .same rfl (fun _ h => h) rfl rfl fun h => h

theorem Adds.schedule (s : St W) (n i) : Adds B s (s.schedule n i) := by
  have hl := log_schedule s n i
  refine .same ?_ (fun e he => by rw [hl]; exact List.mem_append_left _ he) ?_ ?_ (by rw [hl]; simp) ?_ <;>
    (unfold St.schedule; simp only []; split <;> rfl)

theorem Adds.popLazy (s : St W) (n) : Adds B s (s.popLazy n) := .same rfl (fun _ h => h) rfl rfl fun h => h

theorem Adds.world (s : St W) (w) : Adds B s { s with world := w } := .same rfl (fun _ h => h) rfl rfl fun h => h

theorem Adds.event (s : St W) (e) (hf : e ≠ .failed) : Adds B s (s.event e) :=
  .same rfl (fun _ h => List.mem_append_left _ h) rfl rfl (by simp [St.event, hf.symm])

/-- A new node, and then something that makes up for it if it is an alias. -/
theorem Adds.addNodeThen {n : Node} (hn : B n.ident) (h : Adds B (s.addNode n) s')
    (ha : ∀ t, n.kind = .alias t → Has s' t) : Adds B s s' := by
  refine ⟨fun m hm => h.nodes m (List.mem_append_left _ hm), fun e he => h.log e he, ?_, h.post, h.miss, h.fail,
    fun a b d he => h.edges a b d he⟩
  intro m hm
  rcases h.new m hm with h1 | h1
  · rcases List.mem_append.mp h1 with h2 | h2
    · exact .inl h2
    · simp only [List.mem_singleton] at h2
      subst h2
      exact .inr ⟨hn, ha⟩
  · exact .inr h1

theorem Adds.fresh (h : Adds B s s') {x} (hx : s.has x = false) (hb : ¬ B x) : s'.has x = false := by
  cases hh : s'.has x with
  | false => rfl
  | true =>
    obtain ⟨n, h1, rfl⟩ := (has_iff s' x).mp hh
    rcases h.new n h1 with h2 | h2
    · rw [has_of_Has ⟨n, h2, rfl⟩] at hx; cases hx
    · exact absurd h2.1 hb

end

theorem Spec.Setup.Brings.trans {S : Setup} {x y z : Str} (h : S.Brings x y) (h' : S.Brings y z) :
    S.Brings x z := by
  induction h' with
  | self => exact h
  | package _ h2 ih => exact .package ih h2
  | alias _ h2 h3 ih => exact .alias ih h2 h3
  | implied _ h2 h3 h4 ih => exact .implied ih h2 h3 h4
  | explicitNamespace _ h2 h3 ih => exact .explicitNamespace ih h2 h3

section
variable (I : W → Prop) (S : Setup)

/-- The invariant, with the built-in hooks only, in a world with `I`. -/
structure Ready (s : St W) : Prop where
  core : XCore S s
  post : ∀ h ∈ s.postHooks, h = .mypyc
  miss : ∀ h ∈ s.missHooks, h = .swig
  inv : I s.world
  ends : ∀ a b d, (a, b, d) ∈ s.edges → Has s b

/-- The outcome of loading `name`. -/
def Gives (name : Str) (s : St W) (n : Node) (s' : St W) : Prop :=
  Ready I S s' ∧ n ∈ s'.nodes ∧ n.ident = name ∧ Adds (S.Brings name) s s'

/-- Aliases have their targets. -/
def AliasOk (s : St W) : Prop := ∀ n ∈ s.nodes, ∀ t, n.kind = .alias t → Has s t

/-- The names of nodes that are added when the queue is worked on. -/
def Spec.Setup.NodeName (x : Str) : Prop := S.NeedsModule x ∨ x.head? = some '.'

structure NEGood (rec : Calls W) : Prop where
  findOrLoad : ∀ imp name lm s, Ready I S s → S.Needs (.module name (!lm)) →
    NE (rec.findOrLoad imp name lm s) (Gives I S name s)
  implied : ∀ imp name s, Ready I S s → S.NeedsModule name → S.Open name →
    NE (rec.implied imp name s) fun r s' =>
      (∀ n, r = some n → Gives I S name s n s') ∧ (r = none → s' = s ∧ (s.has name = true ∨ s.lazy name = none))
  loadModule : ∀ imp name s, Ready I S s → S.NeedsModule name → S.Open name →
    (s.has name = true ∨ s.lazy name = none) → NE (rec.loadModule imp name s) (Gives I S name s)
  createMissing : ∀ imp name s, Ready I S s → S.HasNode (missingNode name) → s.has name = false →
    NE (rec.createMissing imp name s) (Gives I S name s)
  callMissing : ∀ i imp name s, Ready I S s → NE (rec.callMissing i imp name s) fun r s' =>
    r = none ∧ Ready I S s' ∧ s'.nodes = s.nodes ∧ Adds (fun _ => False) s s'
  runStack : ∀ s, Ready I S s → AliasOk s → NE (rec.runStack s) fun _ s' => Ready I S s' ∧ Adds S.NodeName s s'
  callPost : ∀ i n s, Ready I S s → AliasOk s → n ∈ s.nodes → NE (rec.callPost i n s) fun _ s' =>
    Ready I S s' ∧ Adds S.NodeName s s'
  addModule : ∀ x s, Ready I S s → AliasOk s → S.Needs (.module x false) → S.HasRoot x →
    NE (rec.op (.addModule x) s) fun r s' => Ready I S s' ∧ Adds S.NodeName s s' ∧
      ∃ h, r = some h ∧ h ∈ s'.nodes ∧ h.ident = x
end

section
variable {I : W → Prop} {S : Setup} {env : Env W} {rec : Calls W} {s s' : St W}

theorem Ready.grew {B} (h : Ready I S s) (hc : XCore S s') (hg : Adds B s s')
    (hw : s'.world = s.world := by first | rfl | exact schedule_world _ _ _ | exact addEdge_world _ _ _ _) : Ready I S s' :=
  ⟨hc, by rw [hg.post]; exact h.post, by rw [hg.miss]; exact h.miss, by rw [hw]; exact h.inv,
    fun a b d he => (hg.edges a b d he).elim (fun he => hg.has (h.ends a b d he)) id⟩

theorem Ready.world (h : Ready I S s) (w : W) (hw : I w) : Ready I S { s with world := w } :=
  ⟨h.core.same rfl rfl rfl rfl rfl (fun _ h => h) (.inl rfl), h.post, h.miss, hw, h.ends⟩

theorem Ready.event (h : Ready I S s) (e : Event) (he : ∀ it, e ≠ .started it) :
    Ready I S (s.event e) :=
  ⟨h.core.event e he, h.post, h.miss, h.inv, h.ends⟩

theorem Ready.addEdge (h : Ready I S s) {a b d} (he : S.HasEdge a b d) (hb : Has s b) : Ready I S (s.addEdge a b d) :=
  h.grew (h.core.addEdge he) (B := fun _ => True) (.addEdge s a b d hb)

theorem ends_addNode {n : Node} (h : ∀ a b d, (a, b, d) ∈ s.edges → Has s b) :
    ∀ a b d, (a, b, d) ∈ (s.addNode n).edges → Has (s.addNode n) b := by
  intro a b d he
  obtain ⟨q, h1, h2⟩ := h a b d he
  exact ⟨q, List.mem_append_left _ h1, h2⟩

theorem ends_addSched {n : Node} {i} (h : ∀ a b d, (a, b, d) ∈ s.edges → Has s b) :
    ∀ a b d, (a, b, d) ∈ ((s.addNode n).schedule n i).edges → Has ((s.addNode n).schedule n i) b := by
  have h1 : ((s.addNode n).schedule n i).edges = (s.addNode n).edges := by
    unfold St.schedule; simp only []; split <;> rfl
  have h2 : ((s.addNode n).schedule n i).nodes = (s.addNode n).nodes := by
    unfold St.schedule; simp only []; split <;> rfl
  intro a b d he
  obtain ⟨q, h3, h4⟩ := ends_addNode h a b d (h1 ▸ he)
  exact ⟨q, h2 ▸ h3, h4⟩

theorem Gives.refl (h : Ready I S s) {n} (hn : n ∈ s.nodes) : Gives I S n.ident s n s := ⟨h, hn, rfl, .refl s⟩

theorem Gives.has {name n} (h : Gives I S name s n s') : s'.has name = true := has_of_Has ⟨n, h.2.1, h.2.2.1⟩

theorem Gives.has' {name n} (h : Gives I S name s n s') : s'.has n.ident = true := has_of_Has ⟨n, h.2.1, rfl⟩

/-- No distribution is called like this. -/
def Spec.Setup.NoDist (S : Setup) (x : Str) : Prop := ∀ d, S.asksDist d → d.identifier ≠ x

theorem Spec.Setup.NeedsModule.noDist (hT : S.Tame) {x} (h : S.NeedsModule x) : S.NoDist x :=
  fun d hd he => (hT.distName d hd).1 (he ▸ h)

theorem XCore.base (h : XCore S s) {n} (hT : S.Tame) (hd : S.NoDist n.ident) (hn : n ∈ s.nodes) :
    n.isBaseNode = true := by
  have := h.nodes n hn
  cases this with
  | module _ h2 =>
    have := h2.names hT
    unfold Node.namesModule at this
    simp_all
  | script => rfl
  | distribution h1 => exact absurd rfl (hd _ h1)
  | invalid => rfl

/-- Looking for a module never fails. -/
theorem NE.findModule (h : XCore S s) (hT : S.Tame) {name} (hd : S.NoDist name) {f : Option Node → M W β} {Q : β → St W → Prop}
    (hs : ∀ n, s.find name = some n → n ∈ s.nodes → n.ident = name → NE (f (some n) s) Q)
    (hn : s.find name = none → s.has name = false → NE (f none s) Q) :
    NE (M.bind (M.findModule name) f s) Q := by
  cases hf : s.find name with
  | none =>
    rw [M.bind_findModule_none f hf]
    exact hn hf (find_none hf)
  | some n =>
    obtain ⟨h1, h2⟩ := find_some hf
    rw [M.bind_findModule_some f hf (h.base hT (h2 ▸ hd) h1)]
    exact hs n hf h1 h2

theorem NE.findNode {name} {f : Option Node → M W β} {Q : β → St W → Prop}
    (hs : ∀ n, s.find name = some n → n ∈ s.nodes → n.ident = name → NE (f (some n) s) Q)
    (hn : s.find name = none → s.has name = false → NE (f none s) Q) :
    NE (M.bind (M.findNode name) f s) Q := by
  rw [M.bind_findNode]
  cases hf : s.find name with
  | none => exact hn hf (find_none hf)
  | some n => exact hs n hf (find_some hf).1 (find_some hf).2

/-! ## Missing modules -/

theorem swig_ne (hT : S.Tame) (h : Ready I S s) (imp : Option Node) (name : Str) :
    swigHook env imp name s = (.ok none, s) := by
  unfold swigHook
  cases imp with
  | none => rfl
  | some imp =>
    simp only []
    split
    · rfl
    · split
      · rfl
      · rw [M.bind_get]
        rw [if_pos]
        · rfl
        · have : c!"swig_import_helper" ∉ s.globalsWritten imp := by
            unfold St.globalsWritten
            split
            · simp
            · exact fun h1 => hT.noSwig _ (h.core.gw _ _ h1)
          simpa using this

theorem callMissing_ne (hT : S.Tame) (hR : NEGood I S rec) (i imp name) (s) (h : Ready I S s) :
    NE (callMissingBody env rec i imp name s) fun r s' =>
      r = none ∧ Ready I S s' ∧ s'.nodes = s.nodes ∧ Adds (fun _ => False) s s' := by
  unfold callMissingBody
  rw [M.bind_get]
  cases hh : s.missHooks[i]? with
  | none => exact ⟨rfl, h, rfl, .refl s⟩
  | some hk =>
    have hk' := h.miss hk (List.mem_of_getElem? hh)
    subst hk'
    simp only []
    rw [M.bind_modify]
    have h1 := h.event (.asked .swig name imp) (by simp)
    rw [M.bind_of_ok (swig_ne (env := env) hT h1 imp name)]
    refine (hR.callMissing _ imp name _ h1).weaken ?_
    rintro r s' ⟨h2, h3, h4, h5⟩
    exact ⟨h2, h3, h4, Adds.trans (.event s _ (by simp)) h5⟩

theorem createMissing_ne (hR : NEGood I S rec) (imp name) (s) (h : Ready I S s)
    (hn : S.HasNode (missingNode name)) (hh : s.has name = false) :
    NE (createMissingBody rec imp name s) (Gives I S name s) := by
  unfold createMissingBody
  refine .bind (hR.callMissing 0 imp name s h) ?_
  rintro r s1 ⟨rfl, h1, h2, h3⟩
  have hh1 : s1.has (missingNode name).ident = false := by
    unfold St.has at hh ⊢
    rw [h2]; exact hh
  simp only []
  rw [M.bind_addNode _ hh1, M.bind_schedule]
  have hg : Adds (S.Brings name) s1 ((s1.addNode (missingNode name)).schedule (missingNode name) []) :=
    .addNodeThen .self (.schedule ..) (by simp [missingNode])
  exact ⟨h1.grew (h1.core.addSched (.inl rfl) hh1 hn (by simp)) hg, mem_addSched .., rfl,
    (h3.imp (by simp)).trans hg⟩

/-! ## Loading -/

theorem implied_ne (hR : NEGood I S rec) (imp name) (s) (h : Ready I S s) (hx : S.NeedsModule name)
    (ho : S.Open name) :
    NE (impliedBody rec imp name s) fun r s' =>
      (∀ n, r = some n → Gives I S name s n s') ∧ (r = none → s' = s ∧ (s.has name = true ∨ s.lazy name = none)) := by
  unfold impliedBody
  refine NE.findNode ?_ ?_
  · intro n _ h1 h2
    exact ⟨by simp, fun _ => ⟨rfl, .inl (has_of_Has ⟨n, h1, h2⟩)⟩⟩
  intro _ hh
  simp only []
  rw [M.bind_get]
  cases hl : s.lazy name with
  | none => exact ⟨by simp, fun _ => ⟨rfl, .inr rfl⟩⟩
  | some i =>
    have hconf := h.core.conf hl
    obtain ⟨tr, hx'⟩ := hx
    simp only []
    rw [M.bind_modify]
    change NE ((match i with | _ => _ : M W (Option Node)) (s.popLazy name)) _
    have hpop : Adds (S.Brings name) s (s.popLazy name) := .popLazy ..
    have hh' : (s.popLazy name).has name = false := hh
    have key : ∀ (n : Node) (t : Str), n.ident = name → S.NodeFor name n → n.isLoaded = false →
        (n.kind = .alias t ∨ n.kind = .virtual t) →
        NE (M.bind (M.addNode n) (fun _ => M.bind (M.schedule n []) fun _ =>
          M.bind (rec.findOrLoad (some n) t true) fun other =>
          M.bind (M.addEdge n.ident other.ident defaultDep) fun _ => M.pure (some n)) (s.popLazy name))
          fun r s' => (∀ n, r = some n → Gives I S name s n s') ∧
            (r = none → s' = s ∧ (s.has name = true ∨ some i = none)) := by
      rintro n t rfl hn hnl hk
      rw [M.bind_addNode _ hh', M.bind_schedule]
      have hc := h.core.addSched (n := n) (infos := []) (.inr rfl) hh (.module ⟨_, hx'⟩ hn) (by simp)
      have hr : Ready I S (((s.popLazy n.ident).addNode n).schedule n []) :=
        ⟨hc, by rw [schedule_postHooks]; exact h.post, by rw [schedule_missHooks]; exact h.miss, by rw [schedule_world]; exact h.inv,
          ends_addSched h.ends⟩
      refine .bind (hR.findOrLoad _ _ _ _ hr (.alias hx' hn hk)) ?_
      rintro other s2 ⟨h3, h4, h5, h6⟩
      have hm := h6.nodes _ (mem_addSched (s.popLazy n.ident) n [])
      rw [M.bind_addEdge _ (has_of_Has ⟨n, hm, rfl⟩) (has_of_Has ⟨other, h4, rfl⟩)]
      rw [h5]
      refine ⟨?_, by simp⟩
      rintro _ ⟨⟩
      have hb : ∀ x, S.Brings t x → S.Brings n.ident x := fun x hx => (Setup.Brings.alias .self hn hk).trans hx
      have ht2 : Has s2 t := ⟨other, h4, h5⟩
      refine ⟨h3.addEdge (.alias ⟨_, hx'⟩ hn hk) ht2, (Adds.addEdge (B := fun _ => True) s2 n.ident t defaultDep ht2).nodes n hm, rfl, ?_⟩
      refine hpop.trans (.addNodeThen .self
        ((Adds.schedule _ n []).trans ((h6.imp hb).trans (.addEdge _ _ _ _ ht2))) ?_)
      intro t' ht'
      have : t' = t := by
        rcases hk with hk | hk <;> rw [hk] at ht'
        · cases ht'; rfl
        · cases ht'
      subst this
      exact (Adds.addEdge (B := fun _ => True) _ _ _ _ ht2).has ht2
    cases i with
    | excluded =>
      change NE (M.bind (M.addNode (excludedNode name)) (fun _ => M.bind (M.schedule (excludedNode name) [])
        fun _ => M.pure (some (excludedNode name))) (s.popLazy name)) _
      rw [M.bind_addNode (n := excludedNode name) _ hh', M.bind_schedule]
      have hg : Adds (S.Brings name) s (((s.popLazy name).addNode (excludedNode name)).schedule (excludedNode name) []) :=
        hpop.trans (.addNodeThen .self (.schedule ..) (by simp [excludedNode]))
      refine ⟨?_, by simp [M.pure]⟩
      rintro _ ⟨⟩
      exact ⟨h.grew (h.core.addSched (n := excludedNode name) (.inr rfl) hh (.module ⟨_, hx'⟩ (ho.node (.excluded hconf)))
        (by simp)) hg, mem_addSched .., rfl, hg⟩
    | alias t => exact key (aliasNode name t) t rfl (ho.node (.alias hconf)) rfl (.inl rfl)
    | virtual t => exact key (virtualNode name t) t rfl (ho.node (.virtual hconf)) rfl (.inr rfl)
    | refs l =>
      change NE (M.bind (rec.findOrLoad imp name true) _ (s.popLazy name)) _
      have hneed : S.Needs (.module name false) := by
        cases tr with
        | false => exact hx'
        | true => exact .implying hx' ho hconf
      have hr : Ready I S (s.popLazy name) := by
        refine h.grew ?_ hpop
        refine ⟨h.core.nodes, h.core.edges, h.core.roots, h.core.gw, h.core.static, ?_, h.core.items⟩
        intro x
        by_cases hx : x = name
        · subst hx
          exact .inr ⟨if_pos rfl, .inr ⟨_, hconf⟩⟩
        · rw [show (s.popLazy name).lazy x = s.lazy x from if_neg hx]
          exact h.core.lazy x
      refine .bind (hR.findOrLoad imp name true _ hr hneed) ?_
      rintro node s1 ⟨h1, h2, h3, h4⟩
      refine .bind (P := fun _ s' => Ready I S s' ∧ Adds (S.Brings name) s1 s') (NE.forEach ?_ ⟨h1, .refl s1⟩) ?_
      · rintro ref href s2 ⟨h5, h6⟩
        refine .bind (hR.findOrLoad _ ref true s2 h5 (.implied hneed ho hconf href)) ?_
        rintro other s3 ⟨h7, h8, h9, h10⟩
        have hg := h10.imp fun x hx => (Setup.Brings.implied .self ho hconf href).trans hx
        rw [h9, h3, M.addEdge_apply (has_of_Has ((h6.trans hg).has ⟨node, h2, h3⟩)) (has_of_Has ⟨other, h8, h9⟩)]
        exact ⟨h7.addEdge (.implied ⟨_, hx'⟩ ho hconf href) ⟨other, h8, h9⟩,
          h6.trans (hg.trans (.addEdge _ _ _ _ ⟨other, h8, h9⟩))⟩
      · rintro _ s2 ⟨h5, h6⟩
        refine ⟨?_, by simp [M.pure]⟩
        rintro _ ⟨⟩
        exact ⟨h5, h6.nodes _ h2, h3, hpop.trans (h4.trans h6)⟩

theorem Spec.Setup.Safe.split (hS : S.Safe) (hT : S.Tame) {x} (hx : S.NeedsModule x) :
    ∃ p b, splitPackage x = .ok (p, b) ∧ ∀ q, p = some q → HasPackage x q := by
  obtain ⟨pre, last, hs⟩ := hS.names x hx
  refine ⟨_, _, splitPackage_of_isSplit hs, ?_⟩
  intro q hq
  exact hasPackage_of_split (hT.noDot x hx) (by rw [splitPackage_of_isSplit hs, hq])

theorem bind_ofExcept_eq {e : Except Exc α} {a} {f : α → M W β} {s : St W} (h : e = .ok a) :
    M.bind (M.ofExcept e) f s = f a s := by
  rw [h]; rfl

theorem addLoaded_ne (hT : S.Tame) (hS : S.Safe) (hD : S.Describes env) (hW : S.Works env) (hI : S.Stays env I) (hR : NEGood I S rec)
    (name spec) (s) (h : Ready I S s) (hx : S.NeedsModule name) (ho : S.Open name)
    (hl : s.lazy name = none) (hh : s.has name = false) {w0} (hr : (resolveSpec env name w0).1 = .ok (some spec)) :
    NE (addLoaded env rec name spec s) (Gives I S name s) := by
  unfold addLoaded
  obtain ⟨⟨n, imports⟩, hp⟩ := hW.reads name spec w0 s.world hx (locates_iff.mpr hr)
  have hm := hD.found name spec w0 s.world _ (locates_iff.mpr hr) hp
  rw [M.bind_ext (a := (n, imports)) (w := (env.nodeForSpec spec s.world).2) _ (Prod.ext hp rfl)]
  have h0 := h.world (env.nodeForSpec spec s.world).2 (hI.reads name spec w0 s.world hx (locates_iff.mpr hr) h.inv)
  have hg0 : Adds (S.Brings name) s { s with world := (env.nodeForSpec spec s.world).2 } := .world ..
  have hh0 : ({ s with world := (env.nodeForSpec spec s.world).2 } : St W).has name = false := hh
  have hu := h.core.unconf hl hh
  refine NE.weaken (P := Gives I S name { s with world := (env.nodeForSpec spec s.world).2 }) ?_
    fun a s' ⟨h1, h2, h3, h4⟩ => ⟨h1, h2, h3, hg0.trans h4⟩
  revert h0 hh0
  generalize ({ s with world := (env.nodeForSpec spec s.world).2 } : St W) = s1
  clear hg0 h hh hl hp
  intro h hh
  revert h hh
  generalize s1 = s
  intro h hh
  simp only []
  obtain ⟨tr, hx'⟩ := hx
  have hnl := hT.loaded name n imports hm
  have hnal : ∀ t, n.kind ≠ .alias t := by
    intro t ht
    simp [Node.isLoaded, Node.isModule, Node.isPackage, Node.isNamespacePkg, ht] at hnl
  split
  · rename_i hne
    obtain ⟨h4, h5, h6, h7⟩ := hT.otherName name n imports hm hne
    have hn := ho.node (.foundAs hu hm hne)
    have hal := Setup.Needs.alias hx' hn (.inl rfl)
    rw [M.bind_addNode (n := aliasNode name n.ident) _ hh, M.bind_schedule]
    have hr1 : Ready I S ((s.addNode (aliasNode name n.ident)).schedule (aliasNode name n.ident) []) :=
      ⟨h.core.addSched (n := aliasNode name n.ident) (.inl rfl) hh (.module ⟨_, hx'⟩ hn) (by simp),
        by rw [schedule_postHooks]; exact h.post, by rw [schedule_missHooks]; exact h.miss, by rw [schedule_world]; exact h.inv,
        ends_addSched h.ends⟩
    have hm1 := mem_addSched s (aliasNode name n.ident) []
    have hg1 : Adds (S.Brings name) (s.addNode (aliasNode name n.ident))
      ((s.addNode (aliasNode name n.ident)).schedule (aliasNode name n.ident) []) := .schedule ..
    revert hr1 hm1 hg1
    generalize (s.addNode (aliasNode name n.ident)).schedule (aliasNode name n.ident) [] = s1
    intro hr1 hm1 hg1
    have hb : S.Brings name n.ident := .alias .self hn (.inl rfl)
    rw [M.bind_findNode]
    refine .bind (P := fun _ s2 => Ready I S s2 ∧ Has s2 n.ident ∧ Adds (S.Brings name) s1 s2) ?_ ?_
    · cases hf : s1.find n.ident with
      | some m => exact ⟨hr1, ⟨m, find_some hf⟩, .refl _⟩
      | none =>
        have hh1 := find_none hf
        simp only []
        rw [M.bind_addNode _ hh1, M.bind_schedule]
        have hr2 : Ready I S ((s1.addNode n).schedule n imports) :=
          ⟨hr1.core.addSched (.inl rfl) hh1 (.module ⟨_, hal⟩ h6) (fun i hi => .inModule hal h6 h5 hi),
            by rw [schedule_postHooks]; exact hr1.post, by rw [schedule_missHooks]; exact hr1.miss, by rw [schedule_world]; exact hr1.inv,
            ends_addSched hr1.ends⟩
        have hm2 := mem_addSched s1 n imports
        have hg2 : Adds (S.Brings name) s1 ((s1.addNode n).schedule n imports) :=
          .addNodeThen hb (.schedule ..) fun t ht => absurd ht (hnal t)
        revert hr2 hm2 hg2
        generalize (s1.addNode n).schedule n imports = s2
        intro hr2 hm2 hg2
        obtain ⟨p, b, hsp, hpk⟩ := hS.split hT ⟨_, hal⟩
        rw [bind_ofExcept_eq hsp]
        cases p with
        | none => exact ⟨hr2, ⟨n, hm2, rfl⟩, hg2⟩
        | some q =>
          have hpk := hpk q rfl
          refine .bind (hR.findOrLoad none q true s2 hr2 (.package hal hpk)) ?_
          rintro parent s3 ⟨h8, h9, h10, h11⟩
          have h11 := h11.imp fun x hx => (Setup.Brings.package hb hpk).trans hx
          rw [h10, M.addEdge_apply (has_of_Has (h11.has ⟨n, hm2, rfl⟩)) (has_of_Has ⟨parent, h9, h10⟩)]
          have hq : Has s3 q := ⟨parent, h9, h10⟩
          exact ⟨h8.addEdge (.package hal hpk) hq,
            (Adds.addEdge (B := fun _ => True) _ _ _ _ hq).has (h11.has ⟨n, hm2, rfl⟩),
            hg2.trans (h11.trans (.addEdge _ _ _ _ hq))⟩
    · rintro _ s2 ⟨h8, h9, h10⟩
      rw [M.bind_addEdge _ (has_of_Has ⟨_, h10.nodes _ hm1, rfl⟩) (has_of_Has h9)]
      refine ⟨h8.addEdge (.alias ⟨_, hx'⟩ hn (.inl rfl)) h9,
        (Adds.addEdge (B := fun _ => True) s2 name n.ident defaultDep h9).nodes _ (h10.nodes _ hm1), rfl, ?_⟩
      refine .addNodeThen .self (hg1.trans (h10.trans (.addEdge _ _ _ _ h9))) ?_
      rintro t ⟨⟩
      exact (Adds.addEdge (B := fun _ => True) _ _ _ _ h9).has h9
  · rename_i hne
    have hid : n.ident = name := Classical.byContradiction hne
    have hn := ho.node (.found hu hm hid)
    subst hid
    rw [M.bind_addNode _ hh]
    have hr1 : Ready I S (s.addNode n) := ⟨h.core.addNode (.inl rfl) hh (.module ⟨_, hx'⟩ hn), h.post, h.miss, h.inv,
      ends_addNode h.ends⟩
    have hm1 : n ∈ (s.addNode n).nodes := by simp [St.addNode]
    have hg1 : Adds (S.Brings n.ident) s (s.addNode n) :=
      .addNodeThen .self (.refl _) fun t ht => absurd ht (hnal t)
    revert hr1 hm1 hg1
    generalize s.addNode n = s1
    intro hr1 hm1 hg1
    refine .bind (P := fun _ s2 => Ready I S s2 ∧ Adds (S.Brings n.ident) s1 s2) ?_ ?_
    · cases hk : n.kind with
      | package fr init sp hd o =>
        cases o with
        | none => exact ⟨hr1, .refl _⟩
        | some ns =>
          have hw : S.Needs (.module (Setup.nsModule ns) false) := .explicitNamespace hx' hn hk
          refine .bind (P := Gives I S (Setup.nsModule ns) s1) ?_ ?_
          · cases ns <;> exact hR.findOrLoad none _ true s1 hr1 hw
          rintro other s2 ⟨h8, h9, h10, h11⟩
          have h11 := h11.imp fun x hx => (Setup.Brings.explicitNamespace .self hn hk).trans hx
          rw [h10, M.addEdge_apply (has_of_Has (h11.has ⟨n, hm1, rfl⟩)) (has_of_Has ⟨other, h9, h10⟩)]
          exact ⟨h8.addEdge (.explicitNamespace ⟨_, hx'⟩ hn hk) ⟨other, h9, h10⟩,
            h11.trans (.addEdge _ _ _ _ ⟨other, h9, h10⟩)⟩
      | _ => exact ⟨hr1, .refl _⟩
    · rintro _ s2 ⟨h8, h9⟩
      rw [M.bind_schedule]
      have hm2 := h9.nodes _ hm1
      change Gives I S n.ident s n (s2.schedule n imports)
      exact ⟨⟨h8.core.schedule hm2 (fun i hi => .inModule hx' hn hm hi),
        by rw [schedule_postHooks]; exact h8.post, by rw [schedule_missHooks]; exact h8.miss, by rw [schedule_world]; exact h8.inv,
        (h8.grew (h8.core.schedule hm2 (fun i hi => .inModule hx' hn hm hi))
          (Adds.schedule (B := fun _ => True) ..)).ends⟩,
        by rw [schedule_nodes]; exact hm2, rfl, hg1.trans (h9.trans (.schedule ..))⟩

theorem NE.attempt {m : M W α} {s : St W} {Q : α → St W → Prop} (h : NE (m s) Q) :
    NE (M.attempt m s) fun r s' => ∃ a, r = .ok a ∧ Q a s' := by
  unfold M.attempt
  cases hm : m s with
  | mk r s1 =>
    rw [hm] at h
    cases r with
    | ok a => exact ⟨a, rfl, h⟩
    | error e =>
      have : e = .fuel := h
      subst this
      exact rfl

theorem startsWith_dot {x : Str} (h : x.head? ≠ some '.') : startsWith c!"." x = false := by
  cases x with
  | nil => rfl
  | cons c l =>
    simp only [List.head?_cons, ne_eq, Option.some.injEq] at h
    simp [startsWith]
    grind

theorem loadModule_ne (hT : S.Tame) (hS : S.Safe) (hD : S.Describes env) (hW : S.Works env) (hI : S.Stays env I) (hR : NEGood I S rec)
    (imp name) (s) (h : Ready I S s) (hx : S.NeedsModule name) (ho : S.Open name)
    (hl : s.has name = true ∨ s.lazy name = none) :
    NE (loadModuleBody env rec imp name s) (Gives I S name s) := by
  unfold loadModuleBody
  rw [startsWith_dot (hT.noDot name hx), if_neg (by simp)]
  refine NE.findNode ?_ ?_
  · rintro n _ h1 rfl
    exact .refl h h1
  intro _ hh
  have hl : s.lazy name = none := by
    rcases hl with hl | hl
    · rw [hh] at hl; cases hl
    · exact hl
  simp only []
  have hmiss : (∀ spec, (resolveSpec env name s.world).1 ≠ .ok (some spec)) →
      S.HasNode (missingNode name) := fun hw =>
    .module hx (ho.node (.absent (h.core.unconf hl hh) (hD.absent name s.world fun _ h => hw _ (locates_iff.mp h))))
  have hg : ∀ w, Adds (S.Brings name) s { s with world := w } := fun w => .world ..
  have hw := h.world (resolveSpec env name s.world).2 (hI.finds name s.world _ _ hx h.inv (search_self ..))
  have hcr : (∀ spec, (resolveSpec env name s.world).1 ≠ .ok (some spec)) →
      NE (rec.createMissing imp name { s with world := (resolveSpec env name s.world).2 }) (Gives I S name s) :=
    fun hn => (hR.createMissing imp name _ hw (hmiss hn) hh).weaken
      fun _ _ ⟨h1, h2, h3, h4⟩ => ⟨h1, h2, h3, (hg _).trans h4⟩
  have hfound : (∃ r, (resolveSpec env name s.world).1 = .ok r) ∨
      (resolveSpec env name s.world).1 = .error (.moduleNotFound false) := by
    obtain ⟨w', ⟨r, hr⟩ | hr⟩ := hW.finds name s.world hx
    · exact .inl ⟨r, by rw [search_eq hr]⟩
    · exact .inr (by rw [search_eq hr])
  rcases hfound with ⟨r, hr⟩ | hr
  · cases r with
    | none =>
      have := hcr (by simp [hr])
      refine .bind (P := fun r s' => ∃ a, r = .ok (Sum.inl a) ∧ Gives I S name s a s') ?_ ?_
      · refine (NE.attempt (Q := fun r s' => ∃ a, r = Sum.inl a ∧ Gives I S name s a s') ?_).weaken ?_
        · rw [M.bind_ext (a := none) (w := (resolveSpec env name s.world).2) _ (Prod.ext hr rfl)]
          exact .bind this fun a s' h1 => ⟨a, rfl, h1⟩
        · rintro _ s' ⟨_, rfl, a, rfl, h1⟩
          exact ⟨a, rfl, h1⟩
      · rintro _ s' ⟨a, rfl, h1⟩
        exact h1
    | some spec =>
      refine .bind (P := fun r s' => r = .ok (Sum.inr spec) ∧
        s' = { s with world := (resolveSpec env name s.world).2 }) ?_ ?_
      · unfold M.attempt
        rw [M.bind_ext (a := some spec) (w := (resolveSpec env name s.world).2) _ (Prod.ext hr rfl)]
        exact ⟨rfl, rfl⟩
      rintro _ _ ⟨rfl, rfl⟩
      exact (addLoaded_ne hT hS hD hW hI hR name spec _ hw hx ho hl hh hr).weaken
        fun _ _ ⟨h1, h2, h3, h4⟩ => ⟨h1, h2, h3, (hg _).trans h4⟩
  · refine .bind (P := fun r s' => r = .error (.moduleNotFound false) ∧
      s' = { s with world := (resolveSpec env name s.world).2 }) ?_ ?_
    · unfold M.attempt M.bind M.ext
      simp [hr, NE]
    rintro _ _ ⟨rfl, rfl⟩
    exact hcr (by simp [hr])

theorem findOrLoad_ne (hT : S.Tame) (hS : S.Safe) (hR : NEGood I S rec)
    (imp name lm) (s) (h : Ready I S s) (hx : S.Needs (.module name (!lm))) :
    NE (findOrLoadBody rec imp name lm s) (Gives I S name s) := by
  unfold findOrLoadBody
  refine NE.findModule h.core hT (Setup.NeedsModule.noDist hT ⟨_, hx⟩) ?_ ?_
  · rintro n _ h1 rfl
    exact .refl h h1
  intro _ hh
  simp only []
  obtain ⟨p, b, hsp, hpk⟩ := hS.split hT ⟨_, hx⟩
  rw [bind_ofExcept_eq hsp]
  simp only []
  cases p with
  | none =>
    rw [M.bind_pure]
    simp only []
    have ho : S.Open name := .inl (dotless_of_split hsp)
    refine .bind (P := Gives I S name s) ?_ fun a s' h1 => h1
    refine .bind (hR.implied imp name s h ⟨_, hx⟩ ho) ?_
    rintro (_ | n) s1 ⟨h1, h2⟩
    · obtain ⟨rfl, h2⟩ := h2 rfl
      exact hR.loadModule imp name s1 h ⟨_, hx⟩ ho h2
    · exact h1 n rfl
  | some q =>
    have hpk := hpk q rfl
    have hbp : S.Brings name q := .package .self hpk
    have hedge : ∀ (n : Node) (s' : St W), Ready I S s' → n ∈ s'.nodes → n.ident = name →
        (lm || !n.isMissing) = true → S.HasEdge name q defaultDep := by
      intro n s' h1 h2 h3 h4
      cases lm with
      | true => exact .package hx hpk
      | false =>
        have := h1.core.node hT h2 (h3 ▸ ⟨_, hx⟩)
        rw [h3] at this
        exact .packageOfFound hx this (by simpa using h4) hpk
    refine .bind (P := fun pn s' => ∃ parent : Node, pn.1 = some parent ∧ parent ∈ s'.nodes ∧ parent.ident = q ∧
      (∀ n, pn.2 = some n → Gives I S name s n s') ∧
      (pn.2 = none → Ready I S s' ∧ Adds (S.Brings name) s s' ∧ S.Open name)) ?_ ?_
    · refine .bind (hR.findOrLoad imp q true s h (.package hx hpk)) ?_
      rintro parent s1 ⟨h1, h2, h3, h4⟩
      have hq := h1.core.node hT h2 (h3 ▸ ⟨_, .package hx hpk⟩)
      rw [h3] at hq
      have hg := h4.imp fun x hx => hbp.trans hx
      split
      · rename_i hm
        have hh1 : s1.has name = false := h4.fresh hh (hS.once name q parent ⟨_, hx⟩ hpk hq (.inl hm))
        refine .bind (hR.createMissing imp name s1 h1 (.module ⟨_, hx⟩ (.inMissing hpk hq hm)) hh1) ?_
        rintro n s2 ⟨h5, h6, h7, h8⟩
        refine ⟨parent, rfl, h8.nodes _ h2, h3, ?_, by simp⟩
        rintro _ ⟨⟩
        exact ⟨h5, h6, h7, hg.trans h8⟩
      · split
        · rename_i hm
          have hh1 : s1.has name = false := h4.fresh hh (hS.once name q parent ⟨_, hx⟩ hpk hq (.inr hm))
          rw [M.bind_addNode (n := excludedNode name) _ hh1, M.bind_schedule]
          have hg2 : Adds (S.Brings name) s1 ((s1.addNode (excludedNode name)).schedule (excludedNode name) []) :=
            .addNodeThen .self (.schedule ..) (by simp [excludedNode])
          refine ⟨parent, rfl, hg2.nodes _ h2, h3, ?_, by simp⟩
          rintro _ ⟨⟩
          exact ⟨h1.grew (h1.core.addSched (n := excludedNode name) (.inl rfl) hh1
            (.module ⟨_, hx⟩ (.inExcluded hpk hq hm)) (by simp)) hg2, mem_addSched .., rfl, hg.trans hg2⟩
        · rename_i hm hm'
          refine ⟨parent, rfl, h2, h3, by simp, ?_⟩
          intro _
          exact ⟨h1, hg, .inr ⟨q, parent, hpk, hq, by simpa using hm, by simpa using hm'⟩⟩
    · rintro ⟨p1, n1⟩ s1 ⟨parent, hp1, h2, h3, h4, h5⟩
      cases hp1
      simp only [] at h4 h5
      refine .bind (P := fun n s' => Gives I S name s n s' ∧ Adds (S.Brings name) s1 s') ?_ ?_
      · cases n1 with
        | some n => exact ⟨h4 n rfl, .refl _⟩
        | none =>
          obtain ⟨h6, h7, ho⟩ := h5 rfl
          refine .bind (hR.implied imp name s1 h6 ⟨_, hx⟩ ho) ?_
          rintro (_ | n) s2 ⟨h8, h9⟩
          · obtain ⟨rfl, h9⟩ := h9 rfl
            refine (hR.loadModule imp name s2 h6 ⟨_, hx⟩ ho h9).weaken ?_
            rintro n s3 ⟨h10, h11, h12, h13⟩
            exact ⟨⟨h10, h11, h12, h7.trans h13⟩, h13⟩
          · obtain ⟨h10, h11, h12, h13⟩ := h8 n rfl
            exact ⟨⟨h10, h11, h12, h7.trans h13⟩, h13⟩
      · rintro n s2 ⟨⟨h6, h7, h8, h9⟩, h10⟩
        simp only []
        split
        · rename_i hlm
          rw [M.bind_addEdge _ (has_of_Has ⟨n, h7, rfl⟩) (has_of_Has (h10.has ⟨parent, h2, rfl⟩))]
          rw [h8, h3]
          have hq : Has s2 q := h10.has ⟨parent, h2, h3⟩
          have hg : Adds (S.Brings name) s2 (s2.addEdge name q defaultDep) := .addEdge _ _ _ _ hq
          exact ⟨h6.addEdge (hedge n s2 h6 h7 h8 hlm) hq, hg.nodes _ h7, h8, h9.trans hg⟩
        · exact ⟨h6, h7, h8, h9⟩

end
end Verif
