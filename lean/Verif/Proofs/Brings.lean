import Verif.Proofs.Load
import Verif.Spec.OrphanSpec
/-!
# Loading a module links everything that it adds

What `_find_or_load_module` adds to the graph can be reached from its result.
-/
namespace Verif
open M Spec
variable {W : Type} {α β : Type}

theorem Spec.Path.mono {E E' : List (Str × Str × DepInfo)} (h : ∀ e ∈ E, e ∈ E') {a b : Str}
    (hp : Path E a b) : Path E' a b := by
  induction hp with
  | refl => exact .refl
  | step _ he ih => exact .step ih (h _ he)

theorem Spec.Path.trans {E : List (Str × Str × DepInfo)} {a b c : Str} (h : Path E a b) (h' : Path E b c) :
    Path E a c := by
  induction h' with
  | refl => exact h
  | step _ he ih => exact .step ih he

/-- The nodes of a work item are in the graph; no packages are to be imported. -/
def ItemKnown (s : St W) : Item → Prop
  | .pp n => s.has n.ident = true
  | .imp n _ => s.has n.ident = true
  | .nl a b _ => s.has a.ident = true ∧ b ∈ s.nodes
  | .pkg _ _ => False

theorem has_mono {s s' : St W} (h : ∀ x ∈ s.nodes, x ∈ s'.nodes) {x} (hx : s.has x = true) :
    s'.has x = true := by
  obtain ⟨n, hn, he⟩ := Has_of_has hx
  exact has_of_Has ⟨n, h n hn, he⟩

theorem ItemKnown.mono {s s' : St W} (h : ∀ x ∈ s.nodes, x ∈ s'.nodes) {it : Item}
    (hi : ItemKnown s it) : ItemKnown s' it := by
  cases it with
  | pp n => exact has_mono h hi
  | imp n i => exact has_mono h hi
  | nl a b i => exact ⟨has_mono h hi.1, h _ hi.2⟩
  | pkg n a => exact hi

/-- What was added since `s0` can be reached from the nodes `H`. -/
structure Held (s0 : St W) (H : List Str) (s : St W) : Prop where
  edges : ∀ e ∈ s0.edges, e ∈ s.edges
  old : ∀ x ∈ s0.nodes, x ∈ s.nodes
  nodes : ∀ x ∈ s.nodes, x ∈ s0.nodes ∨ ∃ h ∈ H, Path s.edges h x.ident
  has : ∀ h ∈ H, s.has h = true
  items : ∀ it ∈ s.stack, it ∈ s0.stack ∨ ItemKnown s it

theorem Held.refl (s : St W) : Held s [] s :=
  ⟨fun _ h => h, fun _ h => h, fun _ h => .inl h, by simp, fun _ h => .inl h⟩

theorem Held.same {s0 s s' : St W} {H : List Str} (h : Held s0 H s) (hn : s'.nodes = s.nodes)
    (he : s'.edges = s.edges) (hs : s'.stack = s.stack) : Held s0 H s' :=
  ⟨fun e hh => by rw [he]; exact h.edges e hh, fun x hx => by rw [hn]; exact h.old x hx,
    fun x hx => by rw [he]; rw [hn] at hx; exact h.nodes x hx,
    fun x hx => by have := h.has x hx; unfold St.has at *; rw [hn]; exact this,
    fun it hi => by
      rw [hs] at hi
      exact (h.items it hi).imp id (ItemKnown.mono fun x hx => by rw [hn]; exact hx)⟩

theorem Held.congr {s0 s : St W} {H H' : List Str} (h : Held s0 H s) (hH : ∀ x, x ∈ H ↔ x ∈ H') :
    Held s0 H' s :=
  ⟨h.edges, h.old, fun x hx => (h.nodes x hx).imp id fun ⟨y, hy, hp⟩ => ⟨y, (hH y).mp hy, hp⟩,
    fun x hx => h.has x ((hH x).mpr hx), h.items⟩

/-- From a state in which the new nodes are held by `H`, a normal end of `m` leads to one in which they
are held by `K`. -/
def Br (H : List Str) (m : M W α) (K : α → List Str) : Prop :=
  ∀ s0 s a s', Held s0 H s → m s = (.ok a, s') → Held s0 (K a) s'

/-- The identifier of a result. -/
def opt : Option Node → List Str
  | some n => [n.ident]
  | none => []

section
variable {H : List Str}

theorem Br.bind {m : M W α} {f : α → M W β} {K : α → List Str} {K' : β → List Str} (h : Br H m K)
    (h' : ∀ a, Br (K a) (f a) K') : Br H (M.bind m f) K' := by
  intro s0 s b s' hs hm
  obtain ⟨a, s1, h1, h2⟩ := M.bind_ok hm
  exact h' a s0 s1 b s' (h s0 s a s1 hs h1) h2

theorem Br.pure {a : α} {K : α → List Str} (h : ∀ x, x ∈ H ↔ x ∈ K a) :
    Br H (M.pure a : M W α) K := by
  intro s0 s b s' hs hm
  obtain ⟨rfl, rfl⟩ := M.pure_ok hm
  exact hs.congr h

theorem Br.throw {e} {K : α → List Str} : Br H (M.throw e : M W α) K := by
  intro s0 s a s' hs hm
  simp [M.throw] at hm

theorem Br.get : Br H (M.get : M W (St W)) (fun _ => H) := by
  intro s0 s a s' hs hm
  cases hm
  exact hs

theorem Br.modify {f : St W → St W} (h1 : ∀ s, (f s).nodes = s.nodes) (h2 : ∀ s, (f s).edges = s.edges)
    (h3 : ∀ s, (f s).stack = s.stack) : Br H (M.modify f) (fun _ => H) := by
  intro s0 s a s' hs hm
  cases hm
  exact hs.same (h1 s) (h2 s) (h3 s)

theorem Br.ext {x : Ext W α} : Br H (M.ext x) (fun _ => H) := by
  intro s0 s a s' hs hm
  have : s' = { s with world := (x s.world).2 } := (congrArg Prod.snd hm).symm
  subst this
  exact hs.same rfl rfl rfl

theorem Br.ofExcept {r : Except Exc α} : Br H (M.ofExcept r : M W α) (fun _ => H) := by
  intro s0 s a s' hs hm
  have : s' = s := (congrArg Prod.snd hm).symm
  subst this
  exact hs

theorem Br.attemptExt {x : Ext W α} : Br H (M.attempt (M.ext x)) (fun _ => H) := by
  intro s0 s a s' hs hm
  have : s' = { s with world := (x s.world).2 } := by
    unfold M.attempt M.ext at hm
    split at hm <;> simp_all
  subst this
  exact hs.same rfl rfl rfl

theorem Held.cons {s0 s : St W} (h : Held s0 H s) {x : Str} (hx : s.has x = true) :
    Held s0 (x :: H) s :=
  ⟨h.edges, h.old, fun y hy => (h.nodes y hy).imp id fun ⟨z, hz, hp⟩ => ⟨z, List.mem_cons_of_mem _ hz, hp⟩,
    fun y hy => by
      rcases List.mem_cons.mp hy with rfl | hy
      · exact hx
      · exact h.has y hy, h.items⟩

theorem Br.findNode {x} : Br H (M.findNode x : M W _) (fun r => opt r ++ H) := by
  intro s0 s a s' hs hm
  cases hm
  cases hf : s.find x with
  | none => exact hs
  | some n =>
    exact hs.cons (has_of_Has ⟨n, (find_some hf).1, rfl⟩)

theorem Br.findNode0 {x} : Br H (M.findNode x : M W _) (fun _ => H) := by
  intro s0 s a s' hs hm
  cases hm
  exact hs

theorem Br.findNode' {x} : Br H (M.findNode x : M W _) (fun r => if r.isSome then x :: H else H) := by
  intro s0 s a s' hs hm
  cases hm
  cases hf : s.find x with
  | none => exact hs
  | some n =>
    exact hs.cons (has_of_Has ⟨n, (find_some hf).1, (find_some hf).2⟩)

theorem Br.findModule {x} : Br H (M.findModule x : M W _) (fun r => opt r ++ H) := by
  intro s0 s a s' hs hm
  unfold M.findModule at hm
  cases hf : s.find x with
  | none => rw [hf] at hm; cases hm; exact hs
  | some n =>
    rw [hf] at hm
    simp only [] at hm
    split at hm
    · cases hm
      exact hs.cons (has_of_Has ⟨n, (find_some hf).1, rfl⟩)
    · cases hm

theorem Br.addNode {n : Node} : Br H (M.addNode n : M W _) (fun _ => n.ident :: H) := by
  intro s0 s a s' hs hm
  unfold M.addNode at hm
  split at hm
  · cases hm
  · cases hm
    have hh : ∀ x, s.has x = true → (s.addNode n).has x = true := fun x hx => by
      rw [has_addNode, hx]; rfl
    refine ⟨hs.edges, fun x hx => List.mem_append_left _ (hs.old x hx), fun x hx => ?_, fun x hx => ?_,
      fun it hi => (hs.items it hi).imp id (ItemKnown.mono fun x hx => List.mem_append_left _ hx)⟩
    · rcases List.mem_append.mp hx with hx | hx
      · exact (hs.nodes x hx).imp id fun ⟨z, hz, hp⟩ => ⟨z, List.mem_cons_of_mem _ hz, hp⟩
      · rw [List.mem_singleton.mp hx]
        exact .inr ⟨_, List.mem_cons_self .., .refl⟩
    · rcases List.mem_cons.mp hx with rfl | hx
      · simp [has_addNode]
      · exact hh x (hs.has x hx)

theorem Br.schedule {n : Node} {i} (hn : n.ident ∈ H) : Br H (M.schedule n i : M W _) (fun _ => H) := by
  intro s0 s a s' hs hm
  cases hm
  have h1 : (s.schedule n i).nodes = s.nodes := by unfold St.schedule; simp only []; split <;> rfl
  have h2 : (s.schedule n i).edges = s.edges := by unfold St.schedule; simp only []; split <;> rfl
  have hh : ∀ x, s.has x = true → (s.schedule n i).has x = true := fun x hx => by
    unfold St.has at *; rw [h1]; exact hx
  refine ⟨fun e he => by rw [h2]; exact hs.edges e he, fun x hx => by rw [h1]; exact hs.old x hx,
    fun x hx => by rw [h1] at hx; rw [h2]; exact hs.nodes x hx, fun x hx => hh x (hs.has x hx), fun it hi => ?_⟩
  have : it ∈ s.stack ∨ it = .pp n ∨ ∃ j, it = .imp n j := by
    unfold St.schedule at hi
    simp only [] at hi
    split at hi <;> simp only [List.mem_append, List.mem_map, List.mem_singleton] at hi <;> grind
  rcases this with h | rfl | ⟨j, rfl⟩
  · exact (hs.items it h).imp id (ItemKnown.mono fun x hx => by rw [h1]; exact hx)
  · exact .inr (hh _ (hs.has _ hn))
  · exact .inr (hh _ (hs.has _ hn))

theorem Br.addEdge {a b : Str} {d} {H' : List Str} (ha : a ∈ H') (h1 : ∀ x ∈ H, x = b ∨ x ∈ H')
    (h2 : ∀ x ∈ H', x ∈ H) : Br H (M.addEdge a b d : M W _) (fun _ => H') := by
  intro s0 s r s' hs hm
  unfold M.addEdge at hm
  split at hm
  · cases hm
    have hn : (s.addEdge a b d).nodes = s.nodes := by unfold St.addEdge; split <;> rfl
    have hst : (s.addEdge a b d).stack = s.stack := by unfold St.addEdge; split <;> rfl
    have he : ∀ e ∈ s.edges, e ∈ (s.addEdge a b d).edges := by
      intro e he; unfold St.addEdge; split
      · exact he
      · exact List.mem_append_left _ he
    have hh : ∀ x, s.has x = true → (s.addEdge a b d).has x = true := fun x hx => by
      unfold St.has at *; rw [hn]; exact hx
    refine ⟨fun e h => he e (hs.edges e h), fun x hx => by rw [hn]; exact hs.old x hx, fun x hx => ?_,
      fun x hx => hh x (hs.has x (h2 x hx)), fun it hi => ?_⟩
    · rw [hn] at hx
      refine (hs.nodes x hx).imp id fun ⟨z, hz, hp⟩ => ?_
      rcases h1 z hz with rfl | hz
      · exact ⟨a, ha, (Path.step .refl ((mem_addEdge s a z d _).mpr (.inr rfl))).trans (hp.mono he)⟩
      · exact ⟨z, hz, hp.mono he⟩
    · rw [hst] at hi
      exact (hs.items it hi).imp id (ItemKnown.mono fun x hx => by rw [hn]; exact hx)
  · cases hm

theorem Br.assert {b} : Br H (M.assert b : M W _) (fun _ => H) := by
  unfold M.assert
  split
  · exact .pure fun _ => Iff.rfl
  · exact .throw

theorem Br.forEach {l : List α} {f : α → M W Unit} (h : ∀ a, Br H (f a) (fun _ => H)) :
    Br H (M.forEach l f) (fun _ => H) := by
  induction l with
  | nil => exact .pure fun _ => Iff.rfl
  | cons a l ih => exact .bind (h a) fun _ => ih

end

/-- The state of the graph is the same. -/
def Same (s s' : St W) : Prop := s'.nodes = s.nodes ∧ s'.edges = s.edges ∧ s'.stack = s.stack

/-- The graph is only changed by a normal end with a node. -/
def SilentM (m : M W (Option Node)) : Prop := ∀ s r s', m s = (r, s') → (∀ n, r ≠ .ok (some n)) → Same s s'

/-- What holds for the methods that locate modules. -/
structure BrRes (rec : Calls W) : Prop where
  findOrLoad : ∀ H i n, Br H (rec.findOrLoad i n true) (fun r => r.ident :: H)
  implied : ∀ H i n, Br H (rec.implied i n) (fun r => opt r ++ H)
  loadModule : ∀ H i n, Br H (rec.loadModule i n) (fun r => r.ident :: H)
  createMissing : ∀ H i n, Br H (rec.createMissing i n) (fun r => r.ident :: H)
  createQuiet : ∀ i n s e s', rec.createMissing i n s = (.error e, s') → Same s s'
  callMissing : ∀ H k i n, Br H (rec.callMissing k i n) (fun r => opt r ++ H)
  callQuiet : ∀ k i n, SilentM (rec.callMissing k i n)

theorem Same.refl (s : St W) : Same s s := ⟨rfl, rfl, rfl⟩
theorem Same.trans {a b c : St W} (h : Same a b) (h' : Same b c) : Same a c :=
  ⟨h'.1.trans h.1, h'.2.1.trans h.2.1, h'.2.2.trans h.2.2⟩

/-- The graph is not changed. -/
def Still (m : M W α) : Prop := ∀ s, Same s (m s).2

theorem Still.bind {m : M W α} {f : α → M W β} (h : Still m) (h' : ∀ a, Still (f a)) :
    Still (M.bind m f) := by
  intro s
  cases hm : m s with
  | mk r s1 =>
    have h1 := h s
    rw [hm] at h1
    cases r with
    | ok a => rw [M.bind_of_ok hm]; exact h1.trans (h' a s1)
    | error e => rw [M.bind_of_error hm]; exact h1

theorem SilentM.bind {m : M W α} {f : α → M W (Option Node)} (h : Still m) (h' : ∀ a, SilentM (f a)) :
    SilentM (M.bind m f) := by
  intro s r s' hr hn
  cases hm : m s with
  | mk q s1 =>
    have h1 := h s
    rw [hm] at h1
    cases q with
    | ok a => rw [M.bind_of_ok hm] at hr; exact h1.trans (h' a s1 r s' hr hn)
    | error e => rw [M.bind_of_error hm] at hr; cases hr; exact h1

theorem Still.silent {m : M W (Option Node)} (h : Still m) : SilentM m := by
  intro s r s' hr _
  have := h s
  rw [hr] at this; exact this

theorem SilentM.orElse {m : M W (Option Node)} {f : Option Node → M W (Option Node)} (h : SilentM m)
    (h' : SilentM (f none)) (hf : ∀ n, f (some n) = M.pure (some n)) : SilentM (M.bind m f) := by
  intro s r s' hr hn
  cases hm : m s with
  | mk q s1 =>
    cases q with
    | error e =>
      rw [M.bind_of_error hm] at hr
      cases hr
      exact h s _ _ hm (by simp)
    | ok q =>
      rw [M.bind_of_ok hm] at hr
      cases q with
      | some m =>
        rw [hf] at hr
        cases hr
        exact absurd rfl (hn _)
      | none => exact (h s _ _ hm (by simp)).trans (h' _ _ _ hr hn)

theorem Still.pure (a : α) : Still (M.pure a : M W α) := fun s => .refl s
theorem Still.throw (e) : Still (M.throw e : M W α) := fun s => .refl s
theorem Still.get : Still (M.get : M W (St W)) := fun s => .refl s
theorem Still.ext (x : Ext W α) : Still (M.ext x) := fun _ => ⟨rfl, rfl, rfl⟩
theorem Still.assert (b) : Still (M.assert b : M W _) := by
  unfold M.assert; split
  · exact .pure _
  · exact .throw _
theorem Still.attempt {m : M W α} (h : Still m) : Still (M.attempt m) := by
  intro s
  have := h s
  unfold M.attempt
  split <;> simp_all
theorem Still.passive {rec : Calls W} {h : Hook W} (hh : h.Passive) : Still (interp rec h) := by
  intro s
  induction hh generalizing s with
  | ret => exact .refl s
  | raise e => exact .refl s
  | look _ ih => exact Same.trans (b := s.event _) ⟨rfl, rfl, rfl⟩ (ih _ _)
  | setWorld _ ih => exact Same.trans (b := { s with world := _ }) ⟨rfl, rfl, rfl⟩ (ih _)

theorem Same.held {s0 s s' : St W} {H} (h : Held s0 H s) (hs : Same s s') : Held s0 H s' :=
  h.same hs.1 hs.2.1 hs.2.2

section
variable {env : Env W} {rec : Calls W}

theorem swig_silent (imp : Option Node) (name : Str) : SilentM (swigHook env imp name) := by
  unfold swigHook
  cases imp with
  | none => exact (Still.pure _).silent
  | some imp =>
    simp only []
    split
    · exact (Still.pure _).silent
    split
    · exact (Still.pure _).silent
    refine .bind .get fun s => ?_
    split
    · exact (Still.pure _).silent
    refine .bind (.attempt (.ext _)) fun r => .bind ?_ fun sp => ?_
    · cases r with
      | ok sp => exact .pure _
      | error e =>
        simp only []
        split
        · refine .bind (.ext _) fun sp => ?_
          cases sp with
          | none => exact .throw _
          | some sp =>
            simp only []
            cases sp.origin with
            | none => exact .throw _
            | some o =>
              refine .bind (fun _ => ⟨rfl, rfl, rfl⟩) fun _ => .bind (.ext _) fun _ => .bind (.ext _) fun _ =>
                .pure _
        · exact .throw _
    · cases sp with
      | none => exact (Still.pure _).silent
      | some sp =>
        refine .bind (.ext _) fun p => ?_
        split
        · exact (Still.pure _).silent
        · refine .bind (.assert _) fun _ => ?_
          intro s r s' hr hn
          unfold M.bind M.addNode at hr
          split at hr
          · rename_i h; split at h <;> cases h
            cases hr; exact absurd rfl (hn _)
          · rename_i h; split at h <;> cases h
            cases hr; exact .refl s

theorem swig_br (H : List Str) (imp : Option Node) (name : Str) :
    Br H (swigHook env imp name) (fun r => opt r ++ H) := by
  intro s0 s a s' hs hm
  cases a with
  | none => exact (swig_silent imp name s _ s' hm (by simp)).held hs
  | some n =>
    revert hm hs
    revert s0 s s'
    have : Br H (swigHook env imp name) (fun r => match r with | some n => n.ident :: H | none => H) := by
      unfold swigHook
      cases imp with
      | none => exact .pure fun _ => Iff.rfl
      | some imp =>
        simp only []
        split
        · exact .pure fun _ => Iff.rfl
        split
        · exact .pure fun _ => Iff.rfl
        refine .bind .get fun s => ?_
        split
        · exact .pure fun _ => Iff.rfl
        refine .bind .attemptExt fun r => .bind (K := fun _ => H) ?_ fun sp => ?_
        · cases r with
          | ok sp => exact .pure fun _ => Iff.rfl
          | error e =>
            simp only []
            split
            · refine .bind .ext fun sp => ?_
              cases sp with
              | none => exact .throw
              | some sp =>
                simp only []
                cases sp.origin with
                | none => exact .throw
                | some o =>
                  exact .bind (.modify (fun _ => rfl) (fun _ => rfl) fun _ => rfl) fun _ =>
                    .bind .ext fun _ => .bind .ext fun _ => .pure fun _ => Iff.rfl
            · exact .throw
        · cases sp with
          | none => exact .pure fun _ => Iff.rfl
          | some sp =>
            refine .bind .ext fun p => ?_
            split
            · exact .pure fun _ => Iff.rfl
            · exact .bind .assert fun _ => .bind .addNode fun _ => .pure fun _ => Iff.rfl
    intro s0 s s' hs hm
    exact this s0 s _ s' hs hm

theorem addLoaded_br (hR : BrRes rec) (H : List Str) (name spec) :
    Br H (addLoaded env rec name spec) (fun r => r.ident :: H) := by
  unfold addLoaded
  refine .bind .ext fun p => ?_
  simp only []
  split
  · refine .bind .addNode fun _ => .bind (.schedule (by simp)) fun _ => .bind .findNode' fun found => ?_
    refine .bind (K := fun _ => p.1.ident :: (aliasNode name p.1.ident).ident :: H) ?_ fun _ =>
      .bind (.addEdge (H' := (aliasNode name p.1.ident).ident :: H) (by simp) (by simp) (by simp +contextual))
        fun _ => .pure fun _ => Iff.rfl
    cases found with
    | some _ => exact .pure fun _ => Iff.rfl
    | none =>
      refine .bind .addNode fun _ => .bind (.schedule (by simp)) fun _ => .bind .ofExcept fun sp => ?_
      cases sp.1 with
      | none => exact .pure fun _ => Iff.rfl
      | some pkg =>
        exact .bind (hR.findOrLoad _ _ _) fun _ => .addEdge (by simp) (by simp) (by simp +contextual)
  · refine .bind .addNode fun _ => .bind (K := fun _ => p.1.ident :: H) ?_ fun _ =>
      .bind (.schedule (by simp)) fun _ => .pure fun _ => Iff.rfl
    split
    · exact .bind (hR.findOrLoad _ _ _) fun _ => .addEdge (by simp) (by simp) (by simp +contextual)
    · exact .pure fun _ => Iff.rfl

theorem loadFallback_br (hR : BrRes rec) (H : List Str) (imp name e) :
    Br H (loadFallback env rec imp name e) (fun r => r.ident :: H) := by
  unfold loadFallback
  split
  · refine .bind .get fun s => ?_
    split
    · exact .throw
    refine .bind .ext fun sp => ?_
    cases sp with
    | none => exact .throw
    | some sp =>
      refine .bind .get fun s => ?_
      split
      · exact .throw
      refine .bind .ext fun b => ?_
      split
      · cases sp.origin with
        | none => exact .throw
        | some o =>
          simp only []
          split
          · exact .throw
          · exact .bind (.modify (fun _ => rfl) (fun _ => rfl) fun _ => rfl) fun _ => hR.loadModule _ _ _
      · exact hR.createMissing _ _ _
  · exact hR.createMissing _ _ _

theorem Br.weaken {H : List Str} {m : M W α} {K K' : α → List Str} (h : Br H m K)
    (h' : ∀ a x, x ∈ K a ↔ x ∈ K' a) : Br H m K' :=
  fun s0 s a s' hs hm => (h s0 s a s' hs hm).congr (h' a)

/-- The handle for what the `try` block of `_load_module` gives. -/
def tryKey (H : List Str) : Except Exc (Node ⊕ Verif.Spec) → List Str
  | .ok (.inl n) => n.ident :: H
  | .ok (.inr _) => H
  | .error _ => H

theorem attempt_br (hR : BrRes rec) (H : List Str) (imp name) :
    Br H (M.attempt (M.bind (M.ext (resolveSpec env name)) fun sp =>
          match sp with
          | none => M.bind (rec.createMissing imp name) fun n => M.pure (Sum.inl n)
          | some spec => M.pure (Sum.inr spec)))
      (tryKey H) := by
  intro s0 s a s' hs hm
  have hw : Held s0 H { s with world := (resolveSpec env name s.world).2 } := hs.same rfl rfl rfl
  unfold M.attempt M.bind M.ext at hm
  cases hr : (resolveSpec env name s.world).1 with
  | error e =>
    rw [hr] at hm
    by_cases he : e = .fuel
    · subst he; cases hm
    · have : a = .error e ∧ s' = { s with world := (resolveSpec env name s.world).2 } := by
        revert hm
        cases e <;> simp_all
        all_goals exact fun h h' => ⟨h.symm, h'.symm⟩
      rw [this.1, this.2]
      exact hw
  | ok sp =>
    rw [hr] at hm
    cases sp with
    | some spec =>
      simp only [M.pure] at hm
      cases hm
      exact hw
    | none =>
      simp only [] at hm
      cases hc : rec.createMissing imp name { s with world := (resolveSpec env name s.world).2 } with
      | mk q s1 =>
        rw [hc] at hm
        cases q with
        | ok n =>
          simp only [M.pure] at hm
          cases hm
          exact hR.createMissing H imp name s0 _ n _ hw hc
        | error e =>
          have h1 := (hR.createQuiet _ _ _ _ _ hc).held hw
          by_cases he : e = .fuel
          · subst he; cases hm
          · have : a = .error e ∧ s' = s1 := by
              revert hm
              cases e <;> simp_all
              all_goals exact fun h h' => ⟨h.symm, h'.symm⟩
            rw [this.1, this.2]
            exact h1

theorem calls_br (hM : ∀ k i n, (env.userMissing k i n).Passive) (n : Nat) : BrRes (calls env n) := by
  induction n with
  | zero =>
    refine ⟨fun _ _ _ => .throw, fun _ _ _ => .throw, fun _ _ _ => .throw, fun _ _ _ => .throw,
      fun i n s e s' h => ?_, fun _ _ _ _ => .throw, fun k i n => (Still.throw _).silent⟩
    cases h
    exact .refl _
  | succ n ih =>
    constructor
    · intro H i name
      show Br H (findOrLoadBody (calls env n) i name true) _
      unfold findOrLoadBody
      refine .bind .findModule fun r => ?_
      cases r with
      | some y => exact .pure fun _ => Iff.rfl
      | none =>
        refine .bind .ofExcept fun sp => ?_
        refine .bind (K := fun pn => opt pn.2 ++ (opt pn.1 ++ H)) ?_ fun pn => ?_
        · cases sp.1 with
          | none => exact .pure fun _ => Iff.rfl
          | some pkg =>
            refine .bind (ih.findOrLoad _ _ _) fun parent => ?_
            split
            · exact .bind (ih.createMissing _ _ _) fun m => .pure fun _ => Iff.rfl
            split
            · exact .bind .addNode fun _ => .bind (.schedule (by simp)) fun _ => .pure fun _ => Iff.rfl
            · exact .pure fun _ => Iff.rfl
        · refine .bind (K := fun node => node.ident :: (opt pn.1 ++ H)) ?_ fun node => ?_
          · cases hp2 : pn.2 with
            | some m => exact .pure fun _ => Iff.rfl
            | none =>
              refine .bind (ih.implied _ _ _) fun im => ?_
              cases im with
              | some m => exact .pure fun _ => Iff.rfl
              | none => exact ih.loadModule _ _ _
          · cases pn.1 with
            | none => exact .pure fun _ => Iff.rfl
            | some parent =>
              simp only [Bool.true_or, if_true]
              exact .bind (.addEdge (H' := node.ident :: H) (by simp)
                (by simp [opt]; grind) (by simp [opt]; grind)) fun _ => .pure fun _ => Iff.rfl
    · intro H i name
      show Br H (impliedBody (calls env n) i name) _
      unfold impliedBody
      refine .bind .findNode0 fun r => ?_
      cases r with
      | some _ => exact .pure fun _ => Iff.rfl
      | none =>
        refine .bind .get fun s => ?_
        cases s.lazy name with
        | none => exact .pure fun _ => Iff.rfl
        | some v =>
          refine .bind (.modify (fun _ => rfl) (fun _ => rfl) fun _ => rfl) fun _ => ?_
          cases v with
          | excluded =>
            exact .bind .addNode fun _ => .bind (.schedule (by simp)) fun _ => .pure fun _ => Iff.rfl
          | alias t =>
            exact .bind .addNode fun _ => .bind (.schedule (by simp)) fun _ =>
              .bind (ih.findOrLoad _ _ _) fun _ => .bind (.addEdge (H' := name :: H) (by simp [aliasNode]) (by simp [aliasNode]) (by simp [aliasNode]; grind)) fun _ =>
              .pure fun _ => Iff.rfl
          | virtual t =>
            exact .bind .addNode fun _ => .bind (.schedule (by simp)) fun _ =>
              .bind (ih.findOrLoad _ _ _) fun _ => .bind (.addEdge (H' := name :: H) (by simp [virtualNode]) (by simp [virtualNode]) (by simp [virtualNode]; grind)) fun _ =>
              .pure fun _ => Iff.rfl
          | refs names =>
            exact .bind (ih.findOrLoad _ _ _) fun node =>
              .bind (.forEach fun _ => .bind (ih.findOrLoad _ _ _) fun _ =>
                .addEdge (by simp) (by simp) (by simp +contextual)) fun _ =>
              .pure fun _ => Iff.rfl
    · intro H i name
      show Br H (loadModuleBody env (calls env n) i name) _
      unfold loadModuleBody
      split
      · exact .throw
      refine .bind .findNode fun r => ?_
      cases r with
      | some m => exact .pure fun _ => Iff.rfl
      | none =>
        refine .bind (attempt_br ih _ _ _) fun r => ?_
        cases r with
        | ok v =>
          cases v with
          | inl m => exact .pure fun _ => Iff.rfl
          | inr sp => exact addLoaded_br ih _ _ _
        | error e =>
          simp only []
          split
          · exact loadFallback_br ih _ _ _ _
          · exact .throw
    · intro H i name
      show Br H (createMissingBody (calls env n) i name) _
      refine .bind (ih.callMissing _ _ _ _) fun r => ?_
      cases r with
      | some m => exact .pure fun _ => Iff.rfl
      | none => exact .bind .addNode fun _ => .bind (.schedule (by simp)) fun _ => .pure fun _ => Iff.rfl
    · intro i name s e s' h
      change createMissingBody (calls env n) i name s = _ at h
      unfold createMissingBody at h
      cases hc : (calls env n).callMissing 0 i name s with
      | mk r s1 =>
        cases r with
        | error e' =>
          rw [M.bind_of_error hc] at h
          cases h
          exact ih.callQuiet 0 i name s _ _ hc (by simp)
        | ok r =>
          rw [M.bind_of_ok hc] at h
          cases r with
          | some m => cases h
          | none =>
            have hs := ih.callQuiet 0 i name s _ _ hc (by simp)
            simp only [] at h
            by_cases hh : s1.has (missingNode name).ident = true
            · rw [M.bind_of_error (m := M.addNode (missingNode name)) (s := s1) (e := .valueError false)
                (s' := s1) (by simp [M.addNode, hh])] at h
              cases h; exact hs
            · rw [M.bind_of_ok (m := M.addNode (missingNode name)) (s := s1) (a := ())
                (s' := s1.addNode (missingNode name)) (by simp [M.addNode, hh])] at h
              cases h
    · intro H k i name
      show Br H (callMissingBody env (calls env n) k i name) _
      unfold callMissingBody
      refine .bind .get fun s => ?_
      cases s.missHooks[k]? with
      | none => exact .pure fun _ => Iff.rfl
      | some hk =>
        refine .bind (.modify (fun _ => rfl) (fun _ => rfl) fun _ => rfl) fun _ => ?_
        refine .bind (K := fun r => opt r ++ H) ?_ fun r => ?_
        · cases hk with
          | swig => exact swig_br _ _ _
          | user j =>
            intro s0 s a s' hs hm
            have := passive_none (hM j i name) hm
            subst this
            have h1 := Still.passive (rec := calls env n) (hM j i name) s
            change Same s (interp (calls env n) (env.userMissing j i name) s).2 at h1
            change interp (calls env n) (env.userMissing j i name) s = _ at hm
            rw [hm] at h1
            exact h1.held hs
        · cases r with
          | some m => exact .pure fun _ => Iff.rfl
          | none => exact ih.callMissing _ _ _ _
    · intro k i name
      show SilentM (callMissingBody env (calls env n) k i name)
      unfold callMissingBody
      refine .bind .get fun s => ?_
      cases s.missHooks[k]? with
      | none => exact (Still.pure _).silent
      | some hk =>
        refine .bind (fun _ => ⟨rfl, rfl, rfl⟩) fun _ => ?_
        refine .orElse ?_ (ih.callQuiet _ _ _) fun _ => rfl
        cases hk with
        | swig => exact swig_silent _ _
        | user j => exact (Still.passive (hM j i name)).silent

/-- The same for a name in the list of a `from` statement, whose package is in the graph. -/
theorem findOrLoad_try (hM : ∀ k i n, (env.userMissing k i n).Passive) (n : Nat) {imp : Option Node} {name : Str}
    {s s' : St W} {r : Node} (h : (calls env n).findOrLoad imp name false s = (.ok r, s'))
    (hp : ∀ pkg b, splitPackage name = .ok (some pkg, b) →
      (∃ p, s.find pkg = some p) ∨ ∃ e, splitPackage pkg = .error e) : Held s [r.ident] s' := by
  cases n with
  | zero => cases h
  | succ n =>
    have ih := calls_br hM n
    change findOrLoadBody (calls env n) imp name false s = _ at h
    unfold findOrLoadBody at h
    obtain ⟨q, s1, h1, k1⟩ := M.bind_ok h
    clear h
    have h1' : s1 = s ∧ ∀ y, q = some y → s.has y.ident = true := by
      unfold M.findModule at h1
      cases hf : s.find name with
      | none => rw [hf] at h1; cases h1; exact ⟨rfl, by simp⟩
      | some y =>
        rw [hf] at h1
        simp only [] at h1
        split at h1
        · cases h1; exact ⟨rfl, fun z hz => by cases hz; exact has_of_Has ⟨y, (find_some hf).1, rfl⟩⟩
        · cases h1
    obtain ⟨rfl, hy⟩ := h1'
    cases q with
    | some y =>
      obtain ⟨rfl, rfl⟩ := M.pure_ok k1
      exact (Held.refl _).cons (hy _ rfl)
    | none =>
      obtain ⟨sp, s2, h0, k2⟩ := M.bind_ok k1
      clear k1
      have h2' : splitPackage name = .ok sp ∧ s2 = s1 := by
        unfold M.ofExcept at h0
        simp only [Prod.mk.injEq] at h0
        exact ⟨h0.1, h0.2.symm⟩
      clear h0
      obtain ⟨h2, rfl⟩ := h2'
      obtain ⟨pn, s3, h3, k3⟩ := M.bind_ok k2
      clear k2
      have hpn : Held s2 (opt pn.2) s3 ∧ ∀ p, pn.1 = some p → s3.has p.ident = true := by
        cases hsp : sp.1 with
        | none =>
          rw [hsp] at h3
          obtain ⟨rfl, rfl⟩ := M.pure_ok h3
          exact ⟨.refl _, by simp⟩
        | some pkg =>
          rw [hsp] at h3
          obtain ⟨parent, s4, h4, k4⟩ := M.bind_ok h3
          clear h3
          have hpar : s4 = s2 ∧ s2.has parent.ident = true := by
            cases n with
            | zero => cases h4
            | succ n =>
              change findOrLoadBody (calls env n) imp pkg true s2 = _ at h4
              unfold findOrLoadBody at h4
              rcases hp pkg sp.2 (by rw [h2, ← hsp]) with ⟨p, hpf⟩ | ⟨e, he⟩
              · obtain ⟨q, s5, h5, h4⟩ := M.bind_ok h4
                unfold M.findModule at h5
                rw [hpf] at h5
                simp only [] at h5
                split at h5
                · cases h5
                  obtain ⟨rfl, rfl⟩ := M.pure_ok h4
                  exact ⟨rfl, has_of_Has ⟨_, (find_some hpf).1, rfl⟩⟩
                · cases h5
              · obtain ⟨q, s5, h5, h4⟩ := M.bind_ok h4
                unfold M.findModule at h5
                cases hf : s2.find pkg with
                | some p =>
                  rw [hf] at h5
                  simp only [] at h5
                  split at h5
                  · cases h5
                    obtain ⟨rfl, rfl⟩ := M.pure_ok h4
                    exact ⟨rfl, has_of_Has ⟨_, (find_some hf).1, rfl⟩⟩
                  · cases h5
                | none =>
                  rw [hf] at h5
                  cases h5
                  obtain ⟨_, _, h6, _⟩ := M.bind_ok h4
                  rw [he] at h6
                  cases h6
          obtain ⟨rfl, hpar⟩ := hpar
          by_cases hm : parent.isMissing = true
          · rw [if_pos hm] at k4
            obtain ⟨m, s5, h5, k5⟩ := M.bind_ok k4
            obtain ⟨rfl, rfl⟩ := M.pure_ok k5
            have := ih.createMissing [] imp name s4 s4 m _ (.refl _) h5
            refine ⟨this, fun p hp => ?_⟩
            cases hp
            exact has_mono this.old hpar
          rw [if_neg hm] at k4
          by_cases hx : parent.isExcluded = true
          · rw [if_pos hx] at k4
            have : Br [] (M.bind (M.addNode (excludedNode name)) fun _ =>
                M.bind (M.schedule (excludedNode name) []) fun _ =>
                M.pure (some parent, some (excludedNode name)) : M W _) (fun pn => opt pn.2) :=
              .bind .addNode fun _ => .bind (.schedule (by simp)) fun _ => .pure fun _ => Iff.rfl
            have hh := this s4 s4 _ _ (.refl _) k4
            refine ⟨hh, fun p hp => ?_⟩
            obtain ⟨_, _, _, k5⟩ := M.bind_ok k4
            obtain ⟨_, _, _, k6⟩ := M.bind_ok k5
            obtain ⟨rfl, -⟩ := M.pure_ok k6
            cases hp
            exact has_mono hh.old hpar
          · rw [if_neg hx] at k4
            obtain ⟨rfl, rfl⟩ := M.pure_ok k4
            exact ⟨.refl _, fun p hp => by cases hp; exact hpar⟩
      obtain ⟨node, s4, h4, h⟩ := M.bind_ok k3
      clear k3
      have h4' : Held s2 [node.ident] s4 := by
        cases hp2 : pn.2 with
        | some m =>
          rw [hp2] at h4 hpn
          obtain ⟨rfl, rfl⟩ := M.pure_ok h4
          exact hpn.1
        | none =>
          rw [hp2] at h4 hpn
          obtain ⟨im, s5, h5, h4⟩ := M.bind_ok h4
          have := ih.implied [] imp name s2 s3 im s5 hpn.1 h5
          cases im with
          | some m =>
            obtain ⟨rfl, rfl⟩ := M.pure_ok h4
            exact this
          | none => exact ih.loadModule [] imp name s2 s5 node s4 this h4
      cases hp1 : pn.1 with
      | none =>
        rw [hp1] at h
        obtain ⟨rfl, rfl⟩ := M.pure_ok h
        exact h4'
      | some parent =>
        rw [hp1] at h
        simp only [] at h
        split at h
        · obtain ⟨_, s5, h5, h⟩ := M.bind_ok h
          obtain ⟨rfl, rfl⟩ := M.pure_ok h
          exact (Br.addEdge (H' := [node.ident]) (by simp) (by simp) (by simp)) s2 s4 _ _ h4' h5
        · obtain ⟨rfl, rfl⟩ := M.pure_ok h
          exact h4'

end
end Verif
