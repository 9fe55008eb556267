import Verif.Proofs.Exec
/-!
# Nodes made by loading are `BaseNode`s

`_find_or_load_module` and the methods it uses do not add a distribution to the graph.  (Hooks that
run while the queue is processed may.)
-/
namespace Verif
open Spec
variable {W : Type} {α β : Type}

theorem passive_none {rec : Calls W} {h : Hook W} (hh : h.Passive) {s s' : St W} {r}
    (he : interp rec h s = (.ok r, s')) : r = none := by
  induction hh generalizing s with
  | ret => exact (M.pure_ok he).1.symm
  | raise e => simp [interp, M.throw] at he
  | look _ ih => exact ih s he
  | setWorld _ ih => exact ih he

theorem passive_nodes {rec : Calls W} {h : Hook W} (hh : h.Passive) (s : St W) :
    (interp rec h s).2.nodes = s.nodes := by
  induction hh generalizing s with
  | ret => rfl
  | raise e => rfl
  | look _ ih => exact ih s _
  | setWorld _ ih => exact ih _

theorem isLoaded_base {n : Node} (h : n.isLoaded = true ∨ n.isMissing = true) : n.isBaseNode = true := by
  unfold Node.isLoaded Node.isModule Node.isPackage Node.isNamespacePkg Node.isMissing at h
  unfold Node.isBaseNode
  cases hk : n.kind <;> simp_all

theorem isExtension_base {n : Node} (h : n.isExtension = true) : n.isBaseNode = true := by
  unfold Node.isExtension at h
  unfold Node.isBaseNode
  cases hk : n.kind <;> simp_all

section
variable (x : Str)

/-- The nodes called `x` are `BaseNode`s. -/
def BaseAt (s : St W) : Prop := ∀ n ∈ s.nodes, n.ident = x → n.isBaseNode = true

/-- The same for a node. -/
def BaseIf (n : Node) : Prop := n.ident = x → n.isBaseNode = true

/-- `m` keeps `BaseAt`, and its result has property `Q`. -/
def Ens (Q : α → Prop) (m : M W α) : Prop :=
  ∀ s, BaseAt x s → BaseAt x (m s).2 ∧ ∀ a, (m s).1 = .ok a → Q a
end

section
variable {x : Str} {Q : α → Prop} {Q' : β → Prop}

theorem Ens.bind {m : M W α} {f : α → M W β} (h : Ens x Q m) (h' : ∀ a, Q a → Ens x Q' (f a)) :
    Ens x Q' (M.bind m f) := by
  intro s hs
  unfold M.bind
  have h1 := h s hs
  cases hm : m s with
  | mk r s1 =>
    rw [hm] at h1
    cases r with
    | ok a => exact h' a (h1.2 a rfl) s1 h1.1
    | error e => exact ⟨h1.1, by simp⟩

theorem Ens.pure {a : α} (h : Q a) : Ens x Q (M.pure a : M W α) := fun s hs =>
  ⟨hs, by intro b hb; simp [M.pure] at hb; exact hb ▸ h⟩
theorem Ens.throw {e} : Ens x Q (M.throw e : M W α) := fun s hs => ⟨hs, by simp [M.throw]⟩
theorem Ens.get : Ens x (fun s => BaseAt x s) (M.get : M W (St W)) := fun s hs =>
  ⟨hs, by intro b hb; simp [M.get] at hb; exact hb ▸ hs⟩
theorem Ens.modify {f : St W → St W} (h : ∀ s, (f s).nodes = s.nodes) :
    Ens x (fun _ => True) (M.modify f) := fun s hs =>
  ⟨by intro n hn; rw [M.modify_apply, h] at hn; exact hs n hn, fun _ _ => trivial⟩
theorem Ens.ext {y : Ext W α} (h : ∀ a w, (y w).1 = .ok a → Q a) : Ens x Q (M.ext y) := fun s hs =>
  ⟨hs, fun a ha => h a s.world ha⟩
theorem Ens.ofExcept {r : Except Exc α} (h : ∀ a, r = .ok a → Q a) :
    Ens x Q (M.ofExcept r : M W α) := fun _ hs => ⟨hs, h⟩
theorem Ens.findNode {n} : Ens x (fun r => ∀ m, r = some m → BaseIf x m) (M.findNode n : M W _) :=
  fun s hs => ⟨hs, by
    intro a ha m hm
    subst hm
    simp [M.findNode] at ha
    exact hs m (find_some ha).1⟩
theorem Ens.findModule {n} : Ens x (fun r => ∀ m, r = some m → BaseIf x m)
    (M.findModule n : M W _) := fun s hs => by
  unfold M.findModule
  cases hf : s.find n with
  | none => exact ⟨hs, by simp⟩
  | some m =>
    simp only []
    split
    · exact ⟨hs, by intro a ha y hy; subst hy; simp at ha; subst ha; exact hs _ (find_some hf).1⟩
    · exact ⟨hs, by simp⟩
theorem Ens.addNode {n : Node} (h : n.isBaseNode = true) : Ens x (fun _ => True) (M.addNode n : M W _) := by
  intro s hs
  unfold M.addNode
  split
  · exact ⟨hs, by simp⟩
  · refine ⟨?_, fun _ _ => trivial⟩
    intro m hm hi
    simp only [St.addNode, List.mem_append, List.mem_singleton] at hm
    rcases hm with hm | rfl
    · exact hs m hm hi
    · exact h
theorem Ens.addEdge {a b d} : Ens x (fun _ => True) (M.addEdge a b d : M W _) := by
  intro s hs
  unfold M.addEdge
  split
  · refine ⟨?_, fun _ _ => trivial⟩
    intro m hm
    exact hs m (by simpa [addEdge_nodes] using hm)
  · exact ⟨hs, by simp⟩
theorem Ens.schedule {n i} : Ens x (fun _ => True) (M.schedule n i : M W _) :=
  .modify fun s => schedule_nodes s n i
theorem Ens.assert {b} : Ens x (fun _ => True) (M.assert b : M W _) := by
  unfold M.assert; split
  · exact .pure trivial
  · exact .throw
theorem Ens.attempt {m : M W α} (h : Ens x Q m) :
    Ens x (fun r => ∀ a, r = .ok a → Q a) (M.attempt m) := by
  intro s hs
  have h1 := h s hs
  cases hm : m s with
  | mk r s1 =>
    rw [hm] at h1
    rcases M.attempt_cases hm with ⟨_, ha⟩ | ha <;> rw [ha]
    · exact ⟨h1.1, by simp⟩
    · exact ⟨h1.1, by intro b hb a ha; simp at hb; rw [← hb] at ha; exact h1.2 a ha⟩
theorem Ens.forEach {l : List α} {f : α → M W Unit} (h : ∀ a, Ens x (fun _ => True) (f a)) :
    Ens x (fun _ => True) (M.forEach l f) := by
  induction l with
  | nil => exact .pure trivial
  | cons a l ih => exact .bind (h a) fun _ _ => ih
theorem Ens.weaken {Q1 : α → Prop} {m : M W α} (h : Ens x Q m) (h' : ∀ a, Q a → Q1 a) : Ens x Q1 m :=
  fun s hs => ⟨(h s hs).1, fun a ha => h' a ((h s hs).2 a ha)⟩

/-- What holds of the methods. -/
structure BaseRes (x : Str) (rec : Calls W) : Prop where
  findOrLoad : ∀ i n lm, Ens x (BaseIf x) (rec.findOrLoad i n lm)
  implied : ∀ i n, Ens x (fun r => ∀ m, r = some m → BaseIf x m) (rec.implied i n)
  loadModule : ∀ i n, Ens x (BaseIf x) (rec.loadModule i n)
  createMissing : ∀ i n, Ens x (BaseIf x) (rec.createMissing i n)
  callMissing : ∀ k i n, Ens x (fun r => ∀ m, r = some m → BaseIf x m) (rec.callMissing k i n)

end

section
variable {env : Env W} {rec : Calls W} {x : Str}

theorem swig_base (hN : env.MakesModules) (imp : Option Node) (name : Str) :
    Ens x (fun r => ∀ m, r = some m → BaseIf x m) (swigHook env imp name) := by
  unfold swigHook
  cases imp with
  | none => exact .pure (by simp)
  | some imp =>
    simp only []
    split
    · exact .pure (by simp)
    split
    · exact .pure (by simp)
    refine .bind .get fun s _ => ?_
    split
    · exact .pure (by simp)
    refine .bind (Q := fun _ => True) (.weaken (.attempt (Q := fun _ => True) (.ext fun _ _ _ => trivial)) fun _ _ => trivial) fun r _ => ?_
    refine .bind (Q := fun _ => True) ?_ fun sp _ => ?_
    · cases r with
      | ok sp => exact .pure trivial
      | error e =>
        simp only []
        split
        · refine .bind (Q := fun _ => True) (.ext fun _ _ _ => trivial) fun sp _ => ?_
          cases sp with
          | none => exact .throw
          | some sp =>
            simp only []
            cases sp.origin with
            | none => exact .throw
            | some o =>
              refine .bind (.modify fun _ => rfl) fun _ _ => ?_
              refine .bind (Q := fun _ => True) (.ext fun _ _ _ => trivial) fun sp _ => ?_
              refine .bind (Q := fun _ => True) (.ext fun _ _ _ => trivial) fun _ _ => ?_
              exact .pure trivial
        · exact .throw
    · cases sp with
      | none => exact .pure (by simp)
      | some sp =>
        refine .bind (Q := fun p => p.1.isLoaded = true ∨ p.1.isMissing = true) (.ext fun a w ha => hN sp w a.1 a.2 ha)
          fun p hp => ?_
        split
        · exact .pure (by simp)
        · refine .bind .assert fun _ _ => ?_
          have hb : ({ p.1 with ident := name } : Node).isBaseNode = true := isLoaded_base (n := p.1) hp
          refine .bind (.addNode hb) fun _ _ => ?_
          exact .pure (by intro m hm _; simp at hm; exact hm ▸ hb)

theorem addLoaded_base (hN : env.MakesModules) (hR : BaseRes x rec) (name spec) :
    Ens x (BaseIf x) (addLoaded env rec name spec) := by
  unfold addLoaded
  refine .bind (Q := fun p => p.1.isLoaded = true ∨ p.1.isMissing = true) (.ext fun a w ha => hN spec w a.1 a.2 ha)
    fun p hp => ?_
  have hb := isLoaded_base hp
  simp only []
  split
  · refine .bind (.addNode rfl) fun _ _ => .bind .schedule fun _ _ => .bind .findNode fun found _ => ?_
    refine .bind (Q := fun _ => True) ?_ fun _ _ => .bind .addEdge fun _ _ => .pure fun _ => rfl
    cases found with
    | some _ => exact .pure trivial
    | none =>
      refine .bind (.addNode hb) fun _ _ => .bind .schedule fun _ _ => ?_
      refine .bind (Q := fun _ => True) (.ofExcept fun _ _ => trivial) fun sp _ => ?_
      cases sp.1 with
      | none => exact .pure trivial
      | some pkg => exact .bind (hR.findOrLoad _ _ _) fun _ _ => .addEdge
  · refine .bind (.addNode hb) fun _ _ => .bind (Q := fun _ => True) ?_ fun _ _ =>
      .bind .schedule fun _ _ => .pure fun _ => hb
    split
    · exact .bind (hR.findOrLoad _ _ _) fun _ _ => .addEdge
    · exact .pure trivial

theorem loadFallback_base (hR : BaseRes x rec) (imp name e) :
    Ens x (BaseIf x) (loadFallback env rec imp name e) := by
  unfold loadFallback
  split
  · refine .bind .get fun s _ => ?_
    split
    · exact .throw
    refine .bind (Q := fun _ => True) (.ext fun _ _ _ => trivial) fun sp _ => ?_
    cases sp with
    | none => exact .throw
    | some sp =>
      refine .bind .get fun s _ => ?_
      split
      · exact .throw
      refine .bind (Q := fun _ => True) (.ext fun _ _ _ => trivial) fun b _ => ?_
      split
      · cases sp.origin with
        | none => exact .throw
        | some o =>
          simp only []
          split
          · exact .throw
          · exact .bind (.modify fun _ => rfl) fun _ _ => hR.loadModule _ _
      · exact hR.createMissing _ _
  · exact hR.createMissing _ _

theorem calls_base (hN : env.MakesModules) (hM : ∀ k i n, (env.userMissing k i n).Passive) (n : Nat) :
    BaseRes x (calls env n) := by
  induction n with
  | zero => exact ⟨fun _ _ _ => .throw, fun _ _ => .throw, fun _ _ => .throw, fun _ _ => .throw,
      fun _ _ _ => .throw⟩
  | succ n ih =>
    constructor
    · intro i name lm
      show Ens x _ (findOrLoadBody (calls env n) i name lm)
      unfold findOrLoadBody
      refine .bind .findModule fun r hr => ?_
      cases r with
      | some y => exact .pure (hr y rfl)
      | none =>
        refine .bind (Q := fun _ => True) (.ofExcept fun _ _ => trivial) fun sp _ => ?_
        refine .bind (Q := fun pn => ∀ m, pn.2 = some m → BaseIf x m) ?_ fun pn hpn => ?_
        · cases sp.1 with
          | none => exact .pure (by simp)
          | some pkg =>
            refine .bind (ih.findOrLoad _ _ _) fun parent _ => ?_
            split
            · exact .bind (ih.createMissing _ _) fun m hm => .pure (by intro y hy; simp at hy; exact hy ▸ hm)
            split
            · exact .bind (.addNode rfl) fun _ _ => .bind .schedule fun _ _ =>
                .pure (by intro y hy _; simp at hy; rw [← hy]; rfl)
            · exact .pure (by simp)
        · refine .bind (Q := BaseIf x) ?_ fun node hnode => ?_
          · cases hp2 : pn.2 with
            | some m => exact .pure (hpn m hp2)
            | none =>
              refine .bind (ih.implied _ _) fun im him => ?_
              cases im with
              | some m => exact .pure (him m rfl)
              | none => exact ih.loadModule _ _
          · split
            · split
              · exact .bind .addEdge fun _ _ => .pure hnode
              · exact .pure hnode
            · exact .pure hnode
    · intro i name
      show Ens x _ (impliedBody (calls env n) i name)
      unfold impliedBody
      refine .bind .findNode fun r hr => ?_
      cases r with
      | some _ => exact .pure (by simp)
      | none =>
        refine .bind .get fun s _ => ?_
        cases s.lazy name with
        | none => exact .pure (by simp)
        | some v =>
          refine .bind (.modify fun _ => rfl) fun _ _ => ?_
          cases v with
          | excluded =>
            exact .bind (.addNode rfl) fun _ _ => .bind .schedule fun _ _ =>
              .pure (by intro m hm _; simp at hm; rw [← hm]; rfl)
          | alias t =>
            exact .bind (.addNode rfl) fun _ _ => .bind .schedule fun _ _ =>
              .bind (ih.findOrLoad _ _ _) fun _ _ => .bind .addEdge fun _ _ =>
              .pure (by intro m hm _; simp at hm; rw [← hm]; rfl)
          | virtual t =>
            exact .bind (.addNode rfl) fun _ _ => .bind .schedule fun _ _ =>
              .bind (ih.findOrLoad _ _ _) fun _ _ => .bind .addEdge fun _ _ =>
              .pure (by intro m hm _; simp at hm; rw [← hm]; rfl)
          | refs names =>
            exact .bind (ih.findOrLoad _ _ _) fun node hn =>
              .bind (.forEach fun _ => .bind (ih.findOrLoad _ _ _) fun _ _ => .addEdge) fun _ _ =>
              .pure (by intro m hm; simp at hm; exact hm ▸ hn)
    · intro i name
      show Ens x _ (loadModuleBody env (calls env n) i name)
      unfold loadModuleBody
      split
      · exact .throw
      refine .bind .findNode fun r hr => ?_
      cases r with
      | some m => exact .pure (hr m rfl)
      | none =>
        refine .bind (.attempt (Q := fun r => ∀ m, r = Sum.inl m → BaseIf x m) ?_) fun r hr => ?_
        · refine .bind (Q := fun _ => True) (.ext fun _ _ _ => trivial) fun sp _ => ?_
          cases sp with
          | none => exact .bind (ih.createMissing _ _) fun m hm => .pure (by intro y hy; simp at hy; exact hy ▸ hm)
          | some sp => exact .pure (by simp)
        · cases r with
          | ok v =>
            cases v with
            | inl m => exact .pure (hr _ rfl m rfl)
            | inr sp => exact addLoaded_base hN ih _ _
          | error e =>
            simp only []
            split
            · exact loadFallback_base ih _ _ _
            · exact .throw
    · intro i name
      show Ens x _ (createMissingBody (calls env n) i name)
      refine .bind (ih.callMissing _ _ _) fun r hr => ?_
      cases r with
      | some m => exact .pure (hr m rfl)
      | none => exact .bind (.addNode rfl) fun _ _ => .bind .schedule fun _ _ => .pure fun _ => rfl
    · intro k i name
      show Ens x _ (callMissingBody env (calls env n) k i name)
      unfold callMissingBody
      refine .bind .get fun s _ => ?_
      cases s.missHooks[k]? with
      | none => exact .pure (by simp)
      | some hk =>
        refine .bind (.modify fun _ => rfl) fun _ _ => ?_
        refine .bind (Q := fun r => ∀ m, r = some m → BaseIf x m) ?_ fun r hr => ?_
        · cases hk with
          | swig => exact swig_base hN _ _
          | user j =>
            intro s hs
            refine ⟨?_, ?_⟩
            · intro m hm
              exact hs m (by rw [← passive_nodes (hM j i name) s]; exact hm)
            · intro a ha m hm
              have := passive_none (rec := calls env n) (hM j i name) (s := s) (r := a)
                (s' := (interp (calls env n) (env.userMissing j i name) s).2) (by rw [← ha])
              rw [this] at hm; simp at hm
        · cases r with
          | some m => exact .pure hr
          | none => exact ih.callMissing _ _ _

end
end Verif

namespace Verif
open Spec
variable {W : Type}

/-- The contextual closure theorem for no invariant: what remains is that nodes and log only grow
and that methods return the node with the name that was asked for. -/
theorem trivCtx (env : Env W) : Ctx env (fun _ => True) (fun _ _ => True) (fun _ => True) := by
  constructor <;> intros <;> trivial

theorem calls_triv (env : Env W) (hM : ∀ k i n, (env.userMissing k i n).Passive) (n : Nat) :
    CGood env (fun _ => True) (fun _ _ => True) (fun _ => True) (calls env n) :=
  calls_ctx (trivCtx env) (fun _ _ => Hook.only_true _) hM n

theorem find_prefix {s s' : St W} {x n} (h : s.nodes <+: s'.nodes) (hf : s.find x = some n) :
    s'.find x = some n := by
  obtain ⟨t, ht⟩ := h
  unfold St.find at *
  rw [← ht, List.find?_append, hf]; rfl

theorem roots_addRoot (s : St W) (a x) : x ∈ (s.addRoot a).roots ↔ x ∈ s.roots ∨ x = a := by
  unfold St.addRoot; split
  · constructor
    · exact .inl
    · rintro (h | rfl) <;> assumption
  · simp

/-- Nodes, edges and roots only grow when the queue is processed. -/
theorem runStack_grows (env : Env W) (n : Nat) (s : St W) :
    Grows (view s) (view ((calls env n).runStack s).2) := by
  have h := (growsClosed1 (view s)).good env n
  have := h.runStack [] trivial s ⟨fun _ h => h, fun _ h => h, fun _ h => h⟩
  unfold Out at this
  split at this <;> exact this.2

theorem runStack_prefix (env : Env W) (n : Nat) (s : St W) :
    s.nodes <+: ((calls env n).runStack s).2.nodes := by
  have h := (prefixClosed s.nodes).good env n
  have := h.runStack [] trivial s ⟨[], by simp [view]⟩
  unfold Out at this
  split at this <;> (obtain ⟨_, l, hl⟩ := this; exact ⟨l, hl.symm⟩)

end Verif
