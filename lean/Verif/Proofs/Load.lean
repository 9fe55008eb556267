import Verif.Proofs.Results
/-!
# What locating and loading modules changes

`_find_or_load_module` and the methods below it only use a few state changes, when the missing
hooks of the user are passive.  A preorder on states that contains those state changes contains the
effect of these methods.
-/
namespace Verif
open Spec
variable {W : Type} {α β : Type}

/-- The events of looking at the graph and of asking the missing hooks. -/
def Event.isQuery : Event → Bool
  | .asked .. | .looked .. => true
  | _ => false

/-- The state changes of the loading methods. -/
structure LoadRel (R : St W → St W → Prop) : Prop where
  refl : ∀ s, R s s
  trans : ∀ {a b c}, R a b → R b c → R a c
  world : ∀ s w, R s { s with world := w }
  event : ∀ s e, e.isQuery = true → R s (s.event e)
  addNode : ∀ s n, s.has n.ident = false → R s (s.addNode n)
  addEdge : ∀ s a b d, R s (s.addEdge a b d)
  schedule : ∀ s n i, R s (s.schedule n i)
  popLazy : ∀ s n, R s (s.popLazy n)

/-- `m` moves along `R`. -/
def Steps (R : St W → St W → Prop) (m : M W α) : Prop := ∀ s, R s (m s).2

/-- The loading methods move along `R`. -/
structure LoadSteps (R : St W → St W → Prop) (rec : Calls W) : Prop where
  findOrLoad : ∀ i n lm, Steps R (rec.findOrLoad i n lm)
  implied : ∀ i n, Steps R (rec.implied i n)
  loadModule : ∀ i n, Steps R (rec.loadModule i n)
  createMissing : ∀ i n, Steps R (rec.createMissing i n)
  callMissing : ∀ k i n, Steps R (rec.callMissing k i n)

section
variable {R : St W → St W → Prop} (hR : LoadRel R)
include hR

theorem Steps.bind {m : M W α} {f : α → M W β} (h : Steps R m) (h' : ∀ a, Steps R (f a)) :
    Steps R (M.bind m f) := by
  intro s
  have h1 := h s
  unfold M.bind
  cases hm : m s with
  | mk r s1 =>
    rw [hm] at h1
    cases r with
    | ok a => exact hR.trans h1 (h' a s1)
    | error e => exact h1

theorem Steps.pure (a : α) : Steps R (M.pure a : M W α) := fun s => hR.refl s
theorem Steps.throw (e) : Steps R (M.throw e : M W α) := fun s => hR.refl s
theorem Steps.get : Steps R (M.get : M W (St W)) := fun s => hR.refl s
theorem Steps.ext (x : Ext W α) : Steps R (M.ext x) := fun s => hR.world s _
theorem Steps.ofExcept (r : Except Exc α) : Steps R (M.ofExcept r : M W α) := fun s => hR.refl s
theorem Steps.findNode (n) : Steps R (M.findNode n : M W _) := fun s => hR.refl s
theorem Steps.findModule (n) : Steps R (M.findModule n : M W _) := fun s => by
  unfold M.findModule
  cases s.find n with
  | none => exact hR.refl s
  | some m => simp only []; split <;> exact hR.refl s
theorem Steps.addNode (n) : Steps R (M.addNode n : M W _) := fun s => by
  unfold M.addNode
  split
  · exact hR.refl s
  · exact hR.addNode s n (Bool.eq_false_iff.mpr ‹_›)
theorem Steps.addEdge (a b d) : Steps R (M.addEdge a b d : M W _) := fun s => by
  unfold M.addEdge
  split
  · exact hR.addEdge s a b d
  · exact hR.refl s
theorem Steps.schedule (n i) : Steps R (M.schedule n i : M W _) := fun s => hR.schedule s n i
theorem Steps.assert (b) : Steps R (M.assert b : M W _) := by
  unfold M.assert; split
  · exact .pure hR _
  · exact .throw hR _
omit hR in
theorem Steps.attempt {m : M W α} (h : Steps R m) : Steps R (M.attempt m) := by
  intro s
  have h1 := h s
  cases hm : m s with
  | mk r s1 =>
    rw [hm] at h1
    rcases M.attempt_cases hm with ⟨_, ha⟩ | ha <;> rw [ha] <;> exact h1
theorem Steps.forEach {l : List α} {f : α → M W Unit} (h : ∀ a, Steps R (f a)) :
    Steps R (M.forEach l f) := by
  induction l with
  | nil => exact .pure hR _
  | cons a l ih => exact .bind hR (h a) fun _ => ih

theorem Steps.passive {rec : Calls W} {h : Hook W} (hh : h.Passive) : Steps R (interp rec h) := by
  induction hh with
  | ret => exact .pure hR _
  | raise e => exact .throw hR _
  | look _ ih => exact fun s => hR.trans (hR.event s _ rfl) (ih s _)
  | setWorld _ ih => exact fun s => hR.trans (hR.world s _) (ih _)

theorem Steps.swig (env : Env W) (imp : Option Node) (name : Str) :
    Steps R (swigHook env imp name) := by
  unfold swigHook
  cases imp with
  | none => exact .pure hR _
  | some imp =>
    simp only []
    split
    · exact .pure hR _
    split
    · exact .pure hR _
    refine .bind hR (.get hR) fun s => ?_
    split
    · exact .pure hR _
    refine .bind hR (.attempt (.ext hR _)) fun r => ?_
    refine .bind hR ?_ fun sp => ?_
    · cases r with
      | ok sp => exact .pure hR _
      | error e =>
        simp only []
        split
        · refine .bind hR (.ext hR _) fun sp => ?_
          cases sp with
          | none => exact .throw hR _
          | some sp =>
            simp only []
            cases sp.origin with
            | none => exact .throw hR _
            | some o =>
              exact .bind hR (fun s => hR.world s _) fun _ => .bind hR (.ext hR _) fun sp =>
                .bind hR (.ext hR _) fun _ => .pure hR _
        · exact .throw hR _
    · cases sp with
      | none => exact .pure hR _
      | some sp =>
        refine .bind hR (.ext hR _) fun p => ?_
        split
        · exact .pure hR _
        · exact .bind hR (.assert hR _) fun _ => .bind hR (.addNode hR _) fun _ => .pure hR _

theorem Steps.addLoaded (env : Env W) {rec : Calls W} (hL : LoadSteps R rec) (name spec) :
    Steps R (addLoaded env rec name spec) := by
  unfold Verif.addLoaded
  refine .bind hR (.ext hR _) fun p => ?_
  simp only []
  split
  · refine .bind hR (.addNode hR _) fun _ => .bind hR (.schedule hR _ _) fun _ =>
      .bind hR (.findNode hR _) fun found => .bind hR ?_ fun _ => .bind hR (.addEdge hR _ _ _)
      fun _ => .pure hR _
    cases found with
    | some _ => exact .pure hR _
    | none =>
      refine .bind hR (.addNode hR _) fun _ => .bind hR (.schedule hR _ _) fun _ =>
        .bind hR (.ofExcept hR _) fun sp => ?_
      cases sp.1 with
      | none => exact .pure hR _
      | some pkg => exact .bind hR (hL.findOrLoad _ _ _) fun _ => .addEdge hR _ _ _
  · refine .bind hR (.addNode hR _) fun _ => .bind hR ?_ fun _ => .bind hR (.schedule hR _ _)
      fun _ => .pure hR _
    split
    · exact .bind hR (hL.findOrLoad _ _ _) fun _ => .addEdge hR _ _ _
    · exact .pure hR _

theorem Steps.loadFallback (env : Env W) {rec : Calls W} (hL : LoadSteps R rec) (imp name e) :
    Steps R (loadFallback env rec imp name e) := by
  unfold Verif.loadFallback
  split
  · refine .bind hR (.get hR) fun s => ?_
    split
    · exact .throw hR _
    refine .bind hR (.ext hR _) fun sp => ?_
    cases sp with
    | none => exact .throw hR _
    | some sp =>
      refine .bind hR (.get hR) fun s => ?_
      split
      · exact .throw hR _
      refine .bind hR (.ext hR _) fun b => ?_
      split
      · cases sp.origin with
        | none => exact .throw hR _
        | some o =>
          simp only []
          split
          · exact .throw hR _
          · exact .bind hR (fun s => hR.world s _) fun _ => hL.loadModule _ _
      · exact hL.createMissing _ _
  · exact hL.createMissing _ _

/-- The effect of the loading methods, at every depth. -/
theorem calls_load (env : Env W) (hM : ∀ k i n, (env.userMissing k i n).Passive) (n : Nat) :
    LoadSteps R (calls env n) := by
  induction n with
  | zero => exact ⟨fun _ _ _ => .throw hR _, fun _ _ => .throw hR _, fun _ _ => .throw hR _,
      fun _ _ => .throw hR _, fun _ _ _ => .throw hR _⟩
  | succ n ih =>
    constructor
    · intro i name lm
      show Steps R (findOrLoadBody (calls env n) i name lm)
      unfold findOrLoadBody
      refine .bind hR (.findModule hR _) fun r => ?_
      cases r with
      | some y => exact .pure hR _
      | none =>
        refine .bind hR (.ofExcept hR _) fun sp => .bind hR ?_ fun pn => .bind hR ?_ fun node => ?_
        · cases sp.1 with
          | none => exact .pure hR _
          | some pkg =>
            refine .bind hR (ih.findOrLoad _ _ _) fun parent => ?_
            split
            · exact .bind hR (ih.createMissing _ _) fun m => .pure hR _
            split
            · exact .bind hR (.addNode hR _) fun _ => .bind hR (.schedule hR _ _) fun _ => .pure hR _
            · exact .pure hR _
        · cases pn.2 with
          | some m => exact .pure hR _
          | none =>
            refine .bind hR (ih.implied _ _) fun im => ?_
            cases im with
            | some m => exact .pure hR _
            | none => exact ih.loadModule _ _
        · split
          · split
            · exact .bind hR (.addEdge hR _ _ _) fun _ => .pure hR _
            · exact .pure hR _
          · exact .pure hR _
    · intro i name
      show Steps R (impliedBody (calls env n) i name)
      unfold impliedBody
      refine .bind hR (.findNode hR _) fun r => ?_
      cases r with
      | some _ => exact .pure hR _
      | none =>
        refine .bind hR (.get hR) fun s => ?_
        cases s.lazy name with
        | none => exact .pure hR _
        | some v =>
          refine .bind hR (fun s => hR.popLazy s name) fun _ => ?_
          cases v with
          | excluded =>
            exact .bind hR (.addNode hR _) fun _ => .bind hR (.schedule hR _ _) fun _ => .pure hR _
          | alias t =>
            exact .bind hR (.addNode hR _) fun _ => .bind hR (.schedule hR _ _) fun _ =>
              .bind hR (ih.findOrLoad _ _ _) fun _ => .bind hR (.addEdge hR _ _ _) fun _ => .pure hR _
          | virtual t =>
            exact .bind hR (.addNode hR _) fun _ => .bind hR (.schedule hR _ _) fun _ =>
              .bind hR (ih.findOrLoad _ _ _) fun _ => .bind hR (.addEdge hR _ _ _) fun _ => .pure hR _
          | refs names =>
            exact .bind hR (ih.findOrLoad _ _ _) fun node =>
              .bind hR (.forEach hR fun _ => .bind hR (ih.findOrLoad _ _ _) fun _ =>
                .addEdge hR _ _ _) fun _ => .pure hR _
    · intro i name
      show Steps R (loadModuleBody env (calls env n) i name)
      unfold loadModuleBody
      split
      · exact .throw hR _
      refine .bind hR (.findNode hR _) fun r => ?_
      cases r with
      | some m => exact .pure hR _
      | none =>
        refine .bind hR (.attempt ?_) fun r => ?_
        · refine .bind hR (.ext hR _) fun sp => ?_
          cases sp with
          | none => exact .bind hR (ih.createMissing _ _) fun m => .pure hR _
          | some sp => exact .pure hR _
        · cases r with
          | ok v =>
            cases v with
            | inl m => exact .pure hR _
            | inr sp => exact .addLoaded hR env ih _ _
          | error e =>
            simp only []
            split
            · exact .loadFallback hR env ih _ _ _
            · exact .throw hR _
    · intro i name
      show Steps R (createMissingBody (calls env n) i name)
      refine .bind hR (ih.callMissing _ _ _) fun r => ?_
      cases r with
      | some m => exact .pure hR _
      | none => exact .bind hR (.addNode hR _) fun _ => .bind hR (.schedule hR _ _) fun _ => .pure hR _
    · intro k i name
      show Steps R (callMissingBody env (calls env n) k i name)
      unfold callMissingBody
      refine .bind hR (.get hR) fun s => ?_
      cases s.missHooks[k]? with
      | none => exact .pure hR _
      | some hk =>
        refine .bind hR (fun s => hR.event s _ rfl) fun _ => ?_
        refine .bind hR ?_ fun r => ?_
        · cases hk with
          | swig => exact .swig hR env _ _
          | user j => exact .passive hR (hM j i name)
        · cases r with
          | some m => exact .pure hR _
          | none => exact ih.callMissing _ _ _

end

/-- Loading keeps the nodes, their global names, the edges, what is queued, the hooks, the roots. -/
structure Loads (s s' : St W) : Prop where
  nodes : s.nodes <+: s'.nodes
  gw : ∀ x, s.has x = true → s'.gw x = s.gw x
  edges : ∀ e ∈ s.edges, e ∈ s'.edges
  roots : s'.roots = s.roots
  stack : s.stack <+: s'.stack
  hidden : s'.hidden = s.hidden
  miss : s'.missHooks = s.missHooks
  post : s'.postHooks = s.postHooks
  log : s.log <+: s'.log
  lazy : ∀ x v, s'.lazy x = some v → s.lazy x = some v
  seen : ∀ x ∈ s.seen, x ∈ s'.seen

theorem Loads.has {s s' : St W} (h : Loads s s') {x} (hx : s.has x = true) : s'.has x = true := by
  obtain ⟨y, hy, hi⟩ := Has_of_has hx
  exact has_of_Has ⟨y, h.nodes.subset hy, hi⟩

theorem Loads.find {s s' : St W} (h : Loads s s') {x n} (hx : s.find x = some n) :
    s'.find x = some n := find_prefix h.nodes hx

theorem loads_rel : LoadRel (Loads (W := W)) := by
  refine ⟨?_, ?_, ?_, ?_, ?_, ?_, ?_, ?_⟩
  · intro s
    exact ⟨List.prefix_refl _, fun _ _ => rfl, fun _ h => h, rfl, List.prefix_refl _, rfl, rfl, rfl,
      List.prefix_refl _, fun _ _ h => h, fun _ h => h⟩
  · intro a b c h h'
    exact ⟨h.nodes.trans h'.nodes, fun x hx => (h'.gw x (h.has hx)).trans (h.gw x hx),
      fun e he => h'.edges e (h.edges e he), h'.roots.trans h.roots, h.stack.trans h'.stack,
      h'.hidden.trans h.hidden, h'.miss.trans h.miss, h'.post.trans h.post, h.log.trans h'.log,
      fun x v hx => h.lazy x v (h'.lazy x v hx), fun x hx => h'.seen x (h.seen x hx)⟩
  · intro s w
    exact ⟨List.prefix_refl _, fun _ _ => rfl, fun _ h => h, rfl, List.prefix_refl _, rfl, rfl, rfl,
      List.prefix_refl _, fun _ _ h => h, fun _ h => h⟩
  · intro s e _
    exact ⟨List.prefix_refl _, fun _ _ => rfl, fun _ h => h, rfl, List.prefix_refl _, rfl, rfl, rfl,
      List.prefix_append _ _, fun _ _ h => h, fun _ h => h⟩
  · intro s n hn
    refine ⟨List.prefix_append _ _, fun x hx => ?_, fun _ h => h, rfl, List.prefix_refl _, rfl, rfl,
      rfl, List.prefix_refl _, fun _ _ h => h, fun _ h => h⟩
    show (if x = n.ident then _ else _) = _
    rw [if_neg]
    rintro rfl
    rw [hn] at hx; cases hx
  · intro s a b d
    have : (s.addEdge a b d) = s ∨ (s.addEdge a b d) = { s with edges := s.edges ++ [(a, b, d)] } := by
      unfold St.addEdge; split
      · exact .inl rfl
      · exact .inr rfl
    rcases this with h | h <;> rw [h]
    · exact ⟨List.prefix_refl _, fun _ _ => rfl, fun _ h => h, rfl, List.prefix_refl _, rfl, rfl, rfl,
        List.prefix_refl _, fun _ _ h => h, fun _ h => h⟩
    · exact ⟨List.prefix_refl _, fun _ _ => rfl, fun _ h => List.mem_append_left _ h, rfl,
        List.prefix_refl _, rfl, rfl, rfl, List.prefix_refl _, fun _ _ h => h, fun _ h => h⟩
  · intro s n i
    unfold St.schedule
    simp only []
    split
    · refine ⟨List.prefix_refl _, fun _ _ => rfl, fun _ h => h, rfl, ?_, rfl, rfl, rfl, ?_,
        fun _ _ h => h, fun _ h => ?_⟩ <;> simp_all
    · refine ⟨List.prefix_refl _, fun _ _ => rfl, fun _ h => h, rfl, ?_, rfl, rfl, rfl, ?_,
        fun _ _ h => h, fun _ h => ?_⟩ <;> simp_all
  · intro s n
    refine ⟨List.prefix_refl _, fun _ _ => rfl, fun _ h => h, rfl, List.prefix_refl _, rfl, rfl, rfl,
      List.prefix_refl _, fun x v h => ?_, fun _ h => h⟩
    simp only [St.popLazy] at h
    split at h
    · cases h
    · exact h

theorem findOrLoad_loads (env : Env W) (hM : ∀ k i n, (env.userMissing k i n).Passive) (n : Nat)
    {i name lm} {s s' : St W} {r} (h : (calls env n).findOrLoad i name lm s = (r, s')) : Loads s s' := by
  have := (calls_load loads_rel env hM n).findOrLoad i name lm s
  rw [h] at this; exact this

end Verif
