import Verif.Spec.FiniteSpec
import Verif.Proofs.Fuel
import Verif.Proofs.CtxWalk
import Verif.Props.Builtin
import Verif.Proofs.Names
import Verif.Proofs.EdgeFacts
/-!
# Termination in finite environments

Every name of the universe is added at most once, so the number of absent names bounds the depth of
the recursion, and the absent names together with the waiting work bound the number of work items.
-/
namespace Verif.Term
open Verif Spec
variable {W : Type} {α β : Type}

section
variable (env : Env W) (U : Universe)

/-- The work an item may still cause by itself. -/
def weight : Item → Nat
  | .pp _ => 1 + 2 * U.limit
  | .imp _ _ => 2
  | .nl _ _ _ => 1
  | .pkg _ _ => 1

/-- The work a new node may cause. -/
def nodeCost : Nat := (1 + 2 * U.limit) + 2 * U.limit

def absent (s : St W) : Nat := U.names.countP fun x => !s.has x
def lazies (s : St W) : Nat := U.names.countP fun x => (s.lazy x).isSome
/-- Bounds the depth of the recursion while modules are loaded. -/
def depth (s : St W) : Nat := absent U s + lazies U s
/-- Bounds the number of work items that will be processed. -/
def work (s : St W) : Nat := nodeCost U * absent U s + (s.stack.map (weight U)).sum

def ItemOk (s : St W) : Item → Prop
  | .pp n => MypycOk env U n ∧ n.ident ∈ s.seen
  | .imp n i => ImportOk U n i
  | .nl _ b i => b.ident ∈ U.targets ∧ (∀ t, b.kind = .alias t → t ∈ U.targets) ∧
      ∀ m ∈ i.importNames, m.name ∈ U.members
  | .pkg _ _ => False

structure Inv (s : St W) : Prop where
  aliases : ∀ n ∈ s.nodes, ∀ t, n.kind = .alias t → t ∈ U.targets
  table : ∀ x v, x ∈ U.names → s.lazy x = some v → ImpliesOk U v
  items : ∀ it ∈ s.stack, ItemOk env U s it
  miss : s.missHooks = [] ∨ s.missHooks = [.swig]
  post : s.postHooks = [] ∨ s.postHooks = [.mypyc]

/-- A good state with bounds for depth and work. -/
structure At (a b : Nat) (s : St W) : Prop where
  inv : Inv env U s
  depth : depth U s ≤ a
  work : work U s ≤ b

/-- What only grows. -/
structure Ext2 (s s' : St W) : Prop where
  nodes : ∀ n ∈ s.nodes, n ∈ s'.nodes
  seen : ∀ x ∈ s.seen, x ∈ s'.seen

/-- The outcome `r` of a method started in `s`: a good state within the bounds; if `ok` (there was
enough recursion depth) the depth was not exceeded. -/
structure Fin2 (a b : Nat) (ok : Prop) (Q : α → St W → Prop) (s : St W) (r : Except Exc α × St W) :
    Prop where
  at_ : At env U a b r.2
  ext : Ext2 s r.2
  fuel : ok → r.1 ≠ .error .fuel
  res : ∀ x, r.1 = .ok x → Q x r.2
end

variable {env : Env W} {U : Universe}

theorem Ext2.refl (s : St W) : Ext2 s s := ⟨fun _ h => h, fun _ h => h⟩
theorem Ext2.trans {a b c : St W} (h : Ext2 a b) (h' : Ext2 b c) : Ext2 a c :=
  ⟨fun n hn => h'.nodes n (h.nodes n hn), fun n hn => h'.seen n (h.seen n hn)⟩
theorem Ext2.is {s s' : St W} (h : Ext2 s s') {x n} (hi : Is x n s) : Is x n s' := ⟨hi.1, h.nodes _ hi.2⟩

theorem At.mono {a b a' b' : Nat} {s : St W} (h : At env U a b s) (ha : a ≤ a') (hb : b ≤ b') :
    At env U a' b' s := ⟨h.inv, Nat.le_trans h.depth ha, Nat.le_trans h.work hb⟩

section
variable {a b a1 b1 : Nat} {ok : Prop} {Q : α → St W → Prop} {s s' : St W}

theorem Fin2.mono {r : Except Exc α × St W} {a' b' : Nat} {ok' : Prop} {Q' : α → St W → Prop}
    (h : Fin2 env U a b ok Q s r) (ha : a ≤ a') (hb : b ≤ b') (hok : ok' → ok)
    (hQ : ∀ x s1, Q x s1 → Q' x s1) : Fin2 env U a' b' ok' Q' s r :=
  ⟨h.at_.mono ha hb, h.ext, fun h' => h.fuel (hok h'), fun x hx => hQ _ _ (h.res x hx)⟩

theorem Fin2.bind {m : M W β} {f : β → M W α} {Q1 : β → St W → Prop}
    (h : Fin2 env U a1 b1 ok Q1 s (m s)) (ha : a1 ≤ a) (hb : b1 ≤ b)
    (hf : ∀ x s1, At env U a1 b1 s1 → Ext2 s s1 → Q1 x s1 → Fin2 env U a b ok Q s1 (f x s1)) :
    Fin2 env U a b ok Q s (M.bind m f s) := by
  unfold M.bind
  cases hm : m s with
  | mk r s1 =>
    rw [hm] at h
    cases r with
    | ok x =>
      have := hf x s1 h.at_ h.ext (h.res x rfl)
      exact ⟨this.at_, h.ext.trans this.ext, this.fuel, this.res⟩
    | error e =>
      exact ⟨h.at_.mono ha hb, h.ext, fun ho => h.fuel ho |> fun h => by
        intro he; apply h; simpa using he, by simp⟩

theorem Fin2.pure {x : α} (h : At env U a b s) (hQ : Q x s) : Fin2 env U a b ok Q s (M.pure x s) :=
  ⟨h, .refl s, fun _ => by simp [M.pure], by intro y hy; simp [M.pure] at hy; exact hy ▸ hQ⟩

theorem Fin2.throw {e : Exc} (h : At env U a b s) (he : e ≠ .fuel) :
    Fin2 env U a b ok Q s (M.throw e s : Except Exc α × St W) :=
  ⟨h, .refl s, fun _ => by simpa [M.throw] using he, by simp [M.throw]⟩

/-- When `ok` is false. -/
theorem Fin2.exhausted {e : Exc} (h : At env U a b s) (hok : ¬ ok) :
    Fin2 env U a b ok Q s (M.throw e s : Except Exc α × St W) :=
  ⟨h, .refl s, fun h => absurd h hok, by simp [M.throw]⟩

theorem Inv.world (h : Inv env U s) (w) : Inv env U { s with world := w } :=
  ⟨h.aliases, h.table, fun it hi => by have := h.items it hi; cases it <;> exact this, h.miss, h.post⟩

theorem At.world (h : At env U a b s) (w) : At env U a b { s with world := w } :=
  ⟨h.inv.world w, h.depth, h.work⟩

theorem Fin2.ext' {x : Ext W α} (h : At env U a b s) (hx : ∀ w, (x w).1 ≠ .error .fuel) :
    Fin2 env U a b ok (fun v s1 => (x s.world).1 = .ok v ∧ s1 = { s with world := (x s.world).2 }) s
      (M.ext x s) := by
  refine ⟨h.world _, ⟨fun _ h => h, fun _ h => h⟩, fun _ => hx _, fun v hv => ?_⟩
  exact ⟨hv, rfl⟩

theorem Fin2.assert {c : Bool} (h : At env U a b s) : Fin2 env U a b ok (fun _ _ => c = true) s (M.assert c s) := by
  unfold M.assert
  split
  · exact .pure h (by assumption)
  · exact .throw h (by simp)

theorem Fin2.attempt {m : M W α} (h : Fin2 env U a b ok Q s (m s)) :
    Fin2 env U a b ok (fun r s1 => m s = (r, s1) ∧ r ≠ .error .fuel ∧ ∀ x, r = .ok x → Q x s1) s
      (M.attempt m s) := by
  unfold M.attempt
  cases hm : m s with
  | mk r s1 =>
    rw [hm] at h
    have h2 := h.fuel
    by_cases he : r = .error .fuel
    · subst he
      exact ⟨h.at_, h.ext, fun ho => absurd rfl (h2 ho), by simp⟩
    · split
      · rename_i heq; simp at heq; exact absurd heq.1 he
      rename_i heq
      simp only [Prod.mk.injEq] at heq
      obtain ⟨rfl, rfl⟩ := heq
      exact ⟨h.at_, h.ext, fun _ => by simp, by intro x hx; simp at hx; rw [← hx]; exact ⟨rfl, he, fun x hx => h.res x hx⟩⟩

/-- A change that the bounds do not see. -/
theorem Inv.same (h : Inv env U s) (hn : s'.nodes = s.nodes) (hl : s'.lazy = s.lazy)
    (hs : s'.stack = s.stack) (hse : s'.seen = s.seen) (hm : s'.missHooks = s.missHooks)
    (hp : s'.postHooks = s.postHooks) : Inv env U s' :=
  ⟨by rw [hn]; exact h.aliases, by rw [hl]; exact h.table, by
    rw [hs]; intro it hi
    have := h.items it hi
    cases it <;> simp only [ItemOk] at this ⊢
    · rw [hse]; exact this
    · exact this
    · exact this, by rw [hm]; exact h.miss, by rw [hp]; exact h.post⟩

theorem absent_congr (hn : s'.nodes = s.nodes) : absent U s' = absent U s := by
  unfold absent St.has; rw [hn]

theorem At.same (h : At env U a b s) (hn : s'.nodes = s.nodes) (hl : s'.lazy = s.lazy)
    (hs : s'.stack = s.stack) (hse : s'.seen = s.seen) (hm : s'.missHooks = s.missHooks)
    (hp : s'.postHooks = s.postHooks) : At env U a b s' := by
  refine ⟨h.inv.same hn hl hs hse hm hp, ?_, ?_⟩
  · have := h.depth
    unfold Term.depth lazies at *
    rw [absent_congr hn, hl]; exact this
  · have := h.work
    unfold Term.work at *
    rw [absent_congr hn, hs]; exact this

theorem addEdge_lazy (s : St W) (x y d) : (s.addEdge x y d).lazy = s.lazy := by
  unfold St.addEdge; split <;> rfl
theorem addEdge_seen (s : St W) (x y d) : (s.addEdge x y d).seen = s.seen := by
  unfold St.addEdge; split <;> rfl

theorem At.addEdge (h : At env U a b s) (x y d) : At env U a b (s.addEdge x y d) :=
  h.same (addEdge_nodes ..) (addEdge_lazy ..) (addEdge_stack ..) (addEdge_seen ..)
    (addEdge_missHooks ..) (addEdge_postHooks ..)

theorem Fin2.addEdge {x y d} (h : At env U a b s) :
    Fin2 env U a b ok (fun _ _ => True) s (M.addEdge x y d s) := by
  unfold M.addEdge
  split
  · exact ⟨h.addEdge .., ⟨by rw [addEdge_nodes]; exact fun _ h => h, by rw [addEdge_seen]; exact fun _ h => h⟩,
      by simp, by simp⟩
  · exact ⟨h, .refl s, by simp, by simp⟩

theorem Fin2.addRoot {x} (h : At env U a b s) :
    Fin2 env U a b ok (fun _ _ => True) s (M.addRoot x s) := by
  unfold M.addRoot
  split
  · unfold St.addRoot
    split
    · exact ⟨h, .refl s, by simp, by simp⟩
    · exact ⟨h.same rfl rfl rfl rfl rfl rfl, ⟨fun _ h => h, fun _ h => h⟩, by simp, by simp⟩
  · exact ⟨h, .refl s, by simp, by simp⟩

theorem Fin2.findModule {x} (h : At env U a b s) :
    Fin2 env U a b ok (fun r s1 => s1 = s ∧ r = s.find x) s (M.findModule x s) := by
  unfold M.findModule
  cases hf : s.find x with
  | none => exact ⟨h, .refl s, by simp, by simp⟩
  | some n =>
    simp only []
    split
    · exact ⟨h, .refl s, by simp, by simp⟩
    · exact ⟨h, .refl s, by simp, by simp⟩

theorem countP_lt {p q : Str → Bool} {l : List Str} (h : ∀ x ∈ l, p x = true → q x = true) {x}
    (hx : x ∈ l) (hp : p x = false) (hq : q x = true) : l.countP p + 1 ≤ l.countP q := by
  induction l with
  | nil => cases hx
  | cons y l ih =>
    have hle : l.countP p ≤ l.countP q :=
      List.countP_mono_left fun z hz hpz => h z (List.mem_cons_of_mem _ hz) hpz
    rcases List.mem_cons.mp hx with rfl | hx'
    · rw [List.countP_cons_of_neg (by simp [hp]), List.countP_cons_of_pos hq]; omega
    · have := ih (fun z hz => h z (List.mem_cons_of_mem _ hz)) hx'
      rw [List.countP_cons, List.countP_cons]
      have hy := h y (by simp)
      split <;> split <;> simp_all <;> omega

theorem absent_addNode_le (s : St W) (n : Node) : absent U (s.addNode n) ≤ absent U s := by
  unfold absent
  refine List.countP_mono_left fun x _ hx => ?_
  rw [has_addNode] at hx
  simp at hx ⊢
  exact hx.1

theorem absent_addNode (s : St W) (n : Node) (hn : n.ident ∈ U.names) (hh : s.has n.ident = false) :
    absent U (s.addNode n) + 1 ≤ absent U s := by
  unfold absent
  refine countP_lt (fun x _ hx => ?_) hn (by rw [has_addNode]; simp) (by simp [hh])
  rw [has_addNode] at hx
  simp at hx ⊢
  exact hx.1

theorem Inv.addNode (h : Inv env U s) {n : Node} (hk : ∀ t, n.kind = .alias t → t ∈ U.targets) :
    Inv env U (s.addNode n) := by
  refine ⟨?_, h.table, fun it hi => by have := h.items it hi; cases it <;> exact this, h.miss, h.post⟩
  intro m hm
  rcases List.mem_append.mp hm with hm | hm
  · exact h.aliases m hm
  · simp at hm; subst hm; exact hk

/-- Adding a node of the universe pays for its work. -/
theorem Fin2.addNode {f : Unit → M W α} {n : Node} (h : At env U a b s) (hn : n.ident ∈ U.names)
    (hk : ∀ t, n.kind = .alias t → t ∈ U.targets)
    (hf : 1 ≤ a → nodeCost U ≤ b → At env U (a - 1) (b - nodeCost U) (s.addNode n) →
      Fin2 env U a b ok Q (s.addNode n) (f () (s.addNode n))) :
    Fin2 env U a b ok Q s (M.bind (M.addNode n) f s) := by
  cases hh : s.has n.ident with
  | true =>
    rw [show M.bind (M.addNode n) f s = (.error (.valueError false), s) by
      unfold M.bind M.addNode; rw [if_pos hh]]
    exact ⟨h, .refl s, by simp, by simp⟩
  | false =>
    rw [M.bind_addNode f hh]
    have h1 := absent_addNode s n hn hh
    have h2 := h.depth
    have h3 := h.work
    unfold Term.depth at h2
    unfold Term.work at h3
    have h4 : nodeCost U * absent U (s.addNode n) + nodeCost U ≤ nodeCost U * absent U s := by
      rw [← Nat.mul_succ]; exact Nat.mul_le_mul_left _ h1
    have h5 : lazies U (s.addNode n) = lazies U s := rfl
    have h6 : (s.addNode n).stack = s.stack := rfl
    have := hf (by omega) (by omega) ⟨h.inv.addNode hk, by unfold Term.depth; rw [h5]; omega,
      by unfold Term.work; rw [h6]; omega⟩
    exact ⟨this.at_, Ext2.trans (b := s.addNode n) ⟨fun _ h => List.mem_append_left _ h, fun _ h => h⟩ this.ext,
      this.fuel, this.res⟩

theorem is_addNode (s : St W) (n : Node) : Is n.ident n (s.addNode n) := ⟨rfl, by simp [St.addNode]⟩

theorem sum_imps (n : Node) (l : List ImportInfo) : ((l.map (Item.imp n)).map (weight U)).sum = 2 * l.length := by
  induction l with
  | nil => rfl
  | cons x l ih => simp only [List.map_cons, List.sum_cons, ih, weight, List.length_cons]; omega

theorem schedule_lazy (s : St W) (n i) : (s.schedule n i).lazy = s.lazy := by
  unfold St.schedule; simp only []; split <;> rfl

theorem schedule_seen_sub (s : St W) (n i) : ∀ x ∈ s.seen, x ∈ (s.schedule n i).seen := by
  unfold St.schedule; simp only []; split
  · exact fun _ h => h
  · exact fun _ h => List.mem_cons_of_mem _ h

theorem schedule_seen_self (s : St W) (n : Node) (i) : n.ident ∈ (s.schedule n i).seen := by
  unfold St.schedule; simp only []; split
  · assumption
  · exact List.mem_cons_self ..

theorem schedule_stack' (s : St W) (n : Node) (i) : (s.schedule n i).stack =
    s.stack ++ (if n.ident ∈ s.seen then [] else [.pp n]) ++ i.map (Item.imp n) := by
  unfold St.schedule; simp only []; split <;> simp

theorem ItemOk.seen {s s' : St W} {it : Item} (h : ItemOk env U s it) (hs : ∀ x ∈ s.seen, x ∈ s'.seen) :
    ItemOk env U s' it := by
  cases it with
  | pp n => exact ⟨h.1, hs _ h.2⟩
  | imp n i => exact h
  | nl x y i => exact h
  | pkg x y => exact h

theorem Inv.schedule (h : Inv env U s) {n : Node} {i : List ImportInfo} (hi : ∀ x ∈ i, ImportOk U n x)
    (hm : n.ident ∈ s.seen ∨ MypycOk env U n) : Inv env U (s.schedule n i) := by
  refine ⟨by rw [schedule_nodes]; exact h.aliases, by rw [schedule_lazy]; exact h.table, ?_,
    by rw [schedule_missHooks]; exact h.miss, by rw [schedule_postHooks]; exact h.post⟩
  intro it hit
  rw [schedule_stack'] at hit
  rcases List.mem_append.mp hit with hit | hit
  · rcases List.mem_append.mp hit with hit | hit
    · exact (h.items it hit).seen (schedule_seen_sub s n i)
    · split at hit
      · cases hit
      · rename_i hns
        simp at hit; subst hit
        exact ⟨hm.resolve_left hns, schedule_seen_self ..⟩
  · obtain ⟨x, hx, rfl⟩ := List.mem_map.mp hit
    exact hi x hx

theorem At.scheduleNew (h : At env U a b s) {n : Node} {i : List ImportInfo} (hi : ImportsOk U n i)
    (hm : MypycOk env U n) : At env U a (b + nodeCost U) (s.schedule n i) := by
  refine ⟨h.inv.schedule hi.2 (.inr hm), ?_, ?_⟩
  · have := h.depth
    unfold Term.depth lazies at *
    rw [absent_congr (schedule_nodes ..), schedule_lazy]; exact this
  · have := h.work
    unfold Term.work at *
    rw [absent_congr (schedule_nodes ..), schedule_stack', List.map_append, List.map_append,
      List.sum_append, List.sum_append, sum_imps]
    have h1 := hi.1
    have h2 : ((if n.ident ∈ s.seen then [] else [Item.pp n]).map (weight U)).sum ≤ 1 + 2 * U.limit := by
      split <;> simp [weight]
    unfold nodeCost at *
    omega

theorem At.scheduleSeen (h : At env U a b s) {n : Node} {i : List ImportInfo} (hi : ImportsOk U n i)
    (hs : n.ident ∈ s.seen) : At env U a (b + 2 * U.limit) (s.schedule n i) := by
  refine ⟨h.inv.schedule hi.2 (.inl hs), ?_, ?_⟩
  · have := h.depth
    unfold Term.depth lazies at *
    rw [absent_congr (schedule_nodes ..), schedule_lazy]; exact this
  · have := h.work
    unfold Term.work at *
    rw [absent_congr (schedule_nodes ..), schedule_stack', List.map_append, List.map_append,
      List.sum_append, List.sum_append, sum_imps, if_pos hs]
    have h1 := hi.1
    simp only [List.map_nil, List.sum_nil]
    omega

theorem importsOk_nil (n : Node) : ImportsOk U n [] := ⟨Nat.zero_le _, by simp⟩

/-- Scheduling a node that was paid for. -/
theorem Fin2.schedule {f : Unit → M W α} {n : Node} {i : List ImportInfo} (h : At env U a1 b1 s)
    (hi : ImportsOk U n i) (hm : MypycOk env U n)
    (hf : At env U a1 (b1 + nodeCost U) (s.schedule n i) → Fin2 env U a b ok Q (s.schedule n i) (f () (s.schedule n i))) :
    Fin2 env U a b ok Q s (M.bind (M.schedule n i) f s) := by
  rw [M.bind_schedule]
  have := hf (h.scheduleNew hi hm)
  exact ⟨this.at_, Ext2.trans ⟨by rw [schedule_nodes]; exact fun _ h => h, schedule_seen_sub s n i⟩ this.ext,
    this.fuel, this.res⟩

theorem MypycOk.of_none {n : Node} (hm : mypycFile n = none) : MypycOk env U n := by
  intro file helper h
  have := (Props.mypycModule_iff.mp h).1
  rw [hm] at this
  cases this

/-- A node without imports. -/
theorem Fin2.newNode {n : Node} (h : At env U a b s) (hn : n.ident ∈ U.names)
    (hk : ∀ t, n.kind = .alias t → t ∈ U.targets) (hm : mypycFile n = none) {f : Unit → M W α}
    (hf : ∀ s1, 1 ≤ a → At env U (a - 1) b s1 → Is n.ident n s1 → Fin2 env U a b ok Q s1 (f () s1)) :
    Fin2 env U a b ok Q s (M.bind (M.addNode n) (fun _ => M.bind (M.schedule n []) f) s) := by
  refine .addNode h hn hk fun ha hb hA => .schedule hA (importsOk_nil n) (MypycOk.of_none hm) fun hA' => ?_
  have : b - nodeCost U + nodeCost U = b := by omega
  rw [this] at hA'
  refine hf _ ha hA' ⟨rfl, ?_⟩
  rw [schedule_nodes]; exact (is_addNode s n).2

theorem Fin2.forEach {l : List β} {f : β → M W Unit} {P : β → Prop} (h : At env U a b s)
    (hl : ∀ x ∈ l, P x)
    (hf : ∀ x s1, P x → At env U a b s1 → Ext2 s s1 → Fin2 env U a b ok (fun _ _ => True) s1 (f x s1)) :
    Fin2 env U a b ok (fun _ _ => True) s (M.forEach l f s) := by
  induction l generalizing s with
  | nil => exact .pure h trivial
  | cons x l ih =>
    refine .bind (hf x s (hl x (by simp)) h (.refl s)) (Nat.le_refl _) (Nat.le_refl _) fun _ s1 h1 h2 _ => ?_
    exact ih h1 (fun y hy => hl y (List.mem_cons_of_mem _ hy)) fun y s2 hp h3 h4 => hf y s2 hp h3 (h2.trans h4)

end

/-! ## The methods -/

section
variable (U)
/-- A bound for the lengths of the names. -/
def len : Nat := (U.names.map List.length).sum
/-- Recursion depth for the methods, at most `a` steps from the end. -/
def DI (a : Nat) : Nat := a * ((len U + 1) * 8) + 1
def D (a l : Nat) : Nat := a * ((len U + 1) * 8) + (l + 1) * 8
def top : Nat := 2 * U.names.length
def R (b : Nat) : Nat := b * 6 + D U (top U) (len U) + 6
end

theorem len_le {x} (h : x ∈ U.names) : x.length ≤ len U := by
  unfold len
  revert h
  generalize U.names = l
  intro h
  induction l with
  | nil => cases h
  | cons y l ih =>
    rcases List.mem_cons.mp h with rfl | h
    · simp
    · have := ih h; simp; omega

theorem D_pred {a : Nat} (h : 1 ≤ a) {l : Nat} (hl : l ≤ len U) : D U (a - 1) l < DI U a := by
  obtain ⟨k, rfl⟩ : ∃ k, a = k + 1 := ⟨a - 1, by omega⟩
  unfold D DI
  simp only [Nat.add_sub_cancel, Nat.add_mul, Nat.one_mul]
  omega

theorem D_mono {a a' : Nat} (h : a ≤ a') {l l' : Nat} (hl : l ≤ l') : D U a l ≤ D U a' l' := by
  unfold D
  have := Nat.mul_le_mul_right ((len U + 1) * 8) h
  omega

theorem parent_shorter {x p b : Str} (h : splitPackage x = .ok (some p, b)) : p.length < x.length := by
  unfold splitPackage at h
  split at h
  · cases h
  simp only [] at h
  split at h
  · cases h
  rename_i hx hn
  simp only [Bool.or_eq_true, decide_eq_true_eq, not_or] at hn
  have h1 : (lstrip '.' x).length ≤ x.length := by
    unfold lstrip; exact (List.dropWhile_sublist _).length_le
  have h2 : (rpartition '.' (lstrip '.' x)).1.length < (lstrip '.' x).length := by
    unfold rpartition
    cases hr : rfindSplit '.' (lstrip '.' x) with
    | none => simp only [List.length_nil]; exact List.length_pos_iff.mpr hn.1
    | some q =>
      have := congrArg List.length (rfindSplit_some.mp hr).1
      simp at this ⊢
      omega
  simp only [Except.ok.injEq, Prod.mk.injEq] at h
  obtain ⟨h, -⟩ := h
  by_cases hp : (if x.length - (lstrip '.' x).length ≠ 0 then
      List.replicate (x.length - (lstrip '.' x).length) '.' ++ (rpartition '.' (lstrip '.' x)).1
      else (rpartition '.' (lstrip '.' x)).1) ≠ []
  · rw [if_pos hp] at h
    simp only [Option.some.injEq] at h
    rw [← h]
    split
    · simp; omega
    · omega
  · rw [if_neg hp] at h; cases h

theorem depth_top (s : St W) : depth U s ≤ top U := by
  unfold depth absent lazies top
  have := List.countP_le_length (p := fun x => !s.has x) (l := U.names)
  have := List.countP_le_length (p := fun x => (s.lazy x).isSome) (l := U.names)
  omega

section
variable {a b : Nat} {ok : Prop} {s : St W}

theorem resolve_returns (hr : env.Returns) (name w) : (resolveSpec env name w).1 ≠ .error .fuel := by
  unfold resolveSpec
  have h1 := hr.findSpec name w
  cases hf : env.findSpec name w with
  | mk r w1 =>
    rw [hf] at h1
    cases r with
    | ok r => simp
    | error e =>
      cases e with
      | valueError m =>
        simp only []
        split
        · simp
        · have h2 := hr.popModule name w1
          cases hp : env.popModule name w1 with
          | mk r w2 =>
            rw [hp] at h2
            cases r with
            | error e => simpa using h2
            | ok v =>
              simp only []
              split
              · simp
              · exact hr.findSpec name w2
      | attributeError m => simp only []; split <;> simp
      | fuel => exact absurd rfl h1
      | _ => simp

theorem At.lazyPop (h : At env U a b s) {name v} (hn : name ∈ U.names) (hl : s.lazy name = some v) :
    1 ≤ a ∧ At env U (a - 1) b { s with lazy := fun k => if k = name then none else s.lazy k } := by
  have h1 : lazies U { s with lazy := fun k => if k = name then none else s.lazy k } + 1 ≤ lazies U s := by
    unfold lazies
    refine countP_lt (fun x _ hx => ?_) hn (by simp) (by simp [hl])
    simp only [] at hx
    split at hx
    · simp at hx
    · exact hx
  have h2 := h.depth
  unfold Term.depth at h2
  refine ⟨by omega, ⟨h.inv.aliases, ?_, fun it hi => ?_, h.inv.miss, h.inv.post⟩, ?_, h.work⟩
  · intro x v' hx hv
    simp only [] at hv
    split at hv
    · cases hv
    · exact h.inv.table x v' hx hv
  · have := h.inv.items it hi
    cases it <;> exact this
  · unfold Term.depth
    rw [absent_congr (s' := { s with lazy := fun k => if k = name then none else s.lazy k }) (s := s) rfl]
    omega

theorem At.event (h : At env U a b s) (e) : At env U a b (s.event e) := h.same rfl rfl rfl rfl rfl rfl

theorem Fin2.of {α} {Q : α → St W → Prop} {s s1 : St W} {r : Except Exc α × St W}
    (h : Fin2 env U a b ok Q s1 r) (he : Ext2 s s1) : Fin2 env U a b ok Q s r :=
  ⟨h.at_, he.trans h.ext, h.fuel, h.res⟩

def IsSome (name : Str) (r : Option Node) (s : St W) : Prop := ∀ m, r = some m → Is name m s

theorem swig_dotted {name : Str} (hd : '.' ∈ name) (imp : Option Node) (s : St W) :
    swigHook env imp name s = (.ok none, s) := by
  unfold swigHook
  cases imp with
  | none => rfl
  | some i =>
    simp only []
    split
    · rfl
    · rw [if_pos]
      · rfl
      · intro h
        rw [h] at hd
        simp at hd
        exact rpartition_last _ hd

theorem swig_fin (hr : env.Returns) {name : Str} (hn : name ∈ U.names) (imp : Option Node)
    (h : At env U a b s) : Fin2 env U a b ok (IsSome name) s (swigHook env imp name s) := by
  have hnone : ∀ s, At env U a b s → Fin2 env U a b ok (IsSome name) s (M.pure none s) :=
    fun s h => .pure h (by intro m hm; cases hm)
  unfold swigHook
  cases imp with
  | none => exact hnone s h
  | some i =>
    simp only []
    split
    · exact hnone s h
    split
    · exact hnone s h
    rw [M.bind_get]
    split
    · exact hnone s h
    generalize (if i.isPackage = true then i.ident else (rpartition '.' i.ident).1) = pk
    refine .bind (Fin2.attempt (Fin2.ext' h (hr.findSpecRel _ _))) (Nat.le_refl _) (Nat.le_refl _) ?_
    intro r s1 h1 _ hr1
    refine .bind (Q1 := fun sp _ => ∀ spec, sp = some spec → env.Finds spec) (a1 := a) (b1 := b) ?_ (Nat.le_refl _)
      (Nat.le_refl _) ?_
    · cases r with
      | ok sp => exact .pure h1 fun spec hs => .inr ⟨_, _, _, hs ▸ (hr1.2.2 sp rfl).1⟩
      | error e =>
        simp only []
        split
        · refine .bind (Fin2.ext' h1 (hr.findSpec _)) (Nat.le_refl _) (Nat.le_refl _) ?_
          intro sp s2 h2 _ _
          cases sp with
          | none => exact .throw h2 (by simp)
          | some sp =>
            simp only []
            cases sp.origin with
            | none => exact .throw h2 (by simp)
            | some o =>
              simp only []
              rw [M.bind_modify]
              refine Fin2.of (s := s2) ?_ (s1 := { s2 with world := env.setFake pk (rpartition '/' o).1 s2.world })
                ⟨fun _ h => h, fun _ h => h⟩
              refine .bind (Fin2.ext' (h2.world _) (hr.findSpecRel _ _)) (Nat.le_refl _) (Nat.le_refl _) ?_
              intro sp s3 h3 _ hf3
              refine .bind (Fin2.ext' h3 (hr.delModule _)) (Nat.le_refl _) (Nat.le_refl _) ?_
              intro _ s4 h4 _ _
              exact .pure h4 fun spec hs => .inr ⟨_, _, _, hs ▸ hf3.1⟩
        · exact .throw h1 fun he => hr1.2.1 (by rw [he])
    · intro sp s2 h2 _ hf
      cases sp with
      | none => exact hnone s2 h2
      | some sp =>
        simp only []
        refine .bind (Fin2.ext' h2 (hr.nodeForSpec _ (hf _ rfl))) (Nat.le_refl _) (Nat.le_refl _) ?_
        intro p s3 h3 _ _
        split
        · exact hnone s3 h3
        rename_i hx
        refine .bind (Fin2.assert h3) (Nat.le_refl _) (Nat.le_refl _) ?_
        intro _ s4 h4 _ _
        refine .addNode h4 hn ?_ ?_
        · intro t ht
          simp only [] at ht
          simp [Node.isExtension, ht] at hx
        · intro _ _ h5
          refine Fin2.mono (a := a - 1) (b := b - nodeCost U) (Fin2.pure h5 (Q := IsSome name) ?_) (by omega) (by omega) id
            fun _ _ h => h
          intro m hm
          cases hm
          exact is_addNode s4 _

/-- World in which `_load_module` has put a fake package for the parent of `name`. -/
def Faked (env : Env W) (name : Str) (w : W) : Prop :=
  '.' ∈ name ∧ ∃ dir w0, w = env.setFake (rpartition '.' name).1 dir w0

variable (env U) in
/-- The methods, with recursion depth `n`. -/
structure FGood (c : Calls W) (n : Nat) : Prop where
  findOrLoad : ∀ {a b s imp name lm}, At env U a b s → name ∈ U.names →
    Fin2 env U a b (D U a name.length ≤ n) (Is name) s (c.findOrLoad imp name lm s)
  implied : ∀ {a b s imp name}, At env U a b s → name ∈ U.names →
    Fin2 env U a b (DI U a ≤ n) (IsSome name) s (c.implied imp name s)
  loadModule : ∀ {a b s imp name}, At env U a b s → name ∈ U.names →
    Fin2 env U a b (DI U a + 5 ≤ n ∨ (DI U a + 4 ≤ n ∧ Faked env name s.world)) (Is name) s
      (c.loadModule imp name s)
  createMissing : ∀ {a b s imp name}, At env U a b s → name ∈ U.names →
    Fin2 env U a b (3 ≤ n) (Is name) s (c.createMissing imp name s) ∧
    ('.' ∈ name → s.has name = false → ∀ e, (c.createMissing imp name s).1 = .error e → e = .fuel)
  callMissing : ∀ {a b s idx imp name}, At env U a b s → name ∈ U.names →
    Fin2 env U a b (2 ≤ n ∨ (1 ≤ idx ∧ 1 ≤ n)) (IsSome name) s (c.callMissing idx imp name s) ∧
    ('.' ∈ name → (∀ x, (c.callMissing idx imp name s).1 = .ok x → x = none) ∧
      (∀ e, (c.callMissing idx imp name s).1 = .error e → e = .fuel) ∧
      (c.callMissing idx imp name s).2.nodes = s.nodes)

section
variable {c : Calls W} {n : Nat}

theorem callMissing_fin (hr : env.Returns) (g : FGood env U c n) (h : At env U a b s) {name : Str}
    (hn : name ∈ U.names) (idx : Nat) (imp : Option Node) :
    Fin2 env U a b (2 ≤ n + 1 ∨ (1 ≤ idx ∧ 1 ≤ n + 1)) (IsSome name) s (callMissingBody env c idx imp name s) ∧
    ('.' ∈ name → (∀ x, (callMissingBody env c idx imp name s).1 = .ok x → x = none) ∧
      (∀ e, (callMissingBody env c idx imp name s).1 = .error e → e = .fuel) ∧
      (callMissingBody env c idx imp name s).2.nodes = s.nodes) := by
  unfold callMissingBody
  rw [M.bind_get]
  cases hh : s.missHooks[idx]? with
  | none => exact ⟨.pure h (by intro m hm; cases hm), fun _ => by simp [M.pure]⟩
  | some x =>
    have hx : x = .swig ∧ idx = 0 := by
      rcases h.inv.miss with hm | hm
      · rw [hm] at hh; simp at hh
      · rw [hm] at hh
        cases idx with
        | zero => simp at hh; exact ⟨hh.symm, rfl⟩
        | succ k => simp at hh
    obtain ⟨rfl, rfl⟩ := hx
    simp only []
    rw [M.bind_modify]
    refine ⟨?_, fun hd => ?_⟩
    · refine Fin2.of (s1 := s.event (.asked .swig name imp)) ?_ ⟨fun _ h => h, fun _ h => h⟩
      refine .bind (swig_fin hr hn imp (h.event _)) (Nat.le_refl _) (Nat.le_refl _) ?_
      intro r s1 h1 _ hr1
      cases r with
      | some m => exact .pure h1 hr1
      | none => exact (g.callMissing h1 hn).1.mono (Nat.le_refl _) (Nat.le_refl _) (by omega) fun _ _ h => h
    · rw [M.bind_of_ok (swig_dotted hd imp _)]
      have := (g.callMissing (idx := 0 + 1) (imp := imp) (h.event (.asked .swig name imp)) hn).2 hd
      exact this

theorem Fin2.okPure {α} {Q : α → St W → Prop} {a1 b1 : Nat} {s : St W} {x : α} (h : At env U a1 b1 s) (ha : a1 ≤ a)
    (hb : b1 ≤ b) (hQ : Q x s) : Fin2 env U a b ok Q s (M.pure x s) := .pure (h.mono ha hb) hQ

theorem createMissing_fin (g : FGood env U c n) (h : At env U a b s) {name : Str}
    (hn : name ∈ U.names) (imp : Option Node) :
    Fin2 env U a b (3 ≤ n + 1) (Is name) s (createMissingBody c imp name s) ∧
    ('.' ∈ name → s.has name = false → ∀ e, (createMissingBody c imp name s).1 = .error e → e = .fuel) := by
  have hg := g.callMissing (idx := 0) (imp := imp) h hn
  refine ⟨?_, fun hd hh e he => ?_⟩
  · unfold createMissingBody
    refine .bind (hg.1.mono (Nat.le_refl _) (Nat.le_refl _) (by omega) fun _ _ h => h) (Nat.le_refl _) (Nat.le_refl _) ?_
    intro r s1 h1 _ hr1
    cases r with
    | some m => exact .pure h1 (hr1 m rfl)
    | none =>
      exact .newNode h1 hn (by intro t ht; cases ht) rfl fun s2 _ h2 hi =>
        .okPure h2 (by omega) (Nat.le_refl _) hi
  · obtain ⟨h1, h2, h3⟩ := hg.2 hd
    unfold createMissingBody at he
    cases hc : c.callMissing 0 imp name s with
    | mk r s1 =>
      rw [hc] at h1 h2 h3
      cases r with
      | error e' =>
        rw [M.bind_of_error hc] at he
        simp at he
        exact he ▸ h2 e' rfl
      | ok x =>
        obtain rfl := h1 x rfl
        rw [M.bind_of_ok hc] at he
        simp only [] at he
        have h4 : s1.has (missingNode name).ident = false := by
          unfold St.has at hh ⊢; simp only at h3; rw [h3]; exact hh
        rw [M.bind_addNode _ h4, M.bind_schedule] at he
        simp [M.pure] at he

theorem not_alias {n : Node} (h : n.isLoaded = true ∨ n.isMissing = true) {t} : n.kind ≠ .alias t := by
  intro hk
  simp [Node.isLoaded, Node.isModule, Node.isPackage, Node.isNamespacePkg, Node.isMissing, hk] at h

theorem addLoaded_fin (hr : env.Returns) (hF : FiniteImports env U) (g : FGood env U c n)
    (h : At env U a b s) {name : Str} (hn : name ∈ U.names) {spec w}
    (hs : (resolveSpec env name w).1 = .ok (some spec)) :
    Fin2 env U a b (DI U a ≤ n) (Is name) s (addLoaded env c name spec s) := by
  unfold addLoaded
  refine .bind (Fin2.ext' h (hr.nodeForSpec _ (.inl ⟨_, _, locates_iff.mpr hs⟩))) (Nat.le_refl _) (Nat.le_refl _) ?_
  rintro ⟨node, imports⟩ s1 h1 - ⟨hp, -⟩
  have hM := hF.modules name hn w spec _ node imports (locates_iff.mpr hs) hp
  clear hp
  dsimp only
  split
  · rename_i hne
    have ht := hM.renamed hne
    refine .newNode h1 hn (by intro t ht'; cases ht'; exact ht) rfl fun s2 ha h2 hi => ?_
    rw [M.bind_findNode]
    refine .bind (a1 := a - 1) (b1 := b) (Q1 := fun _ _ => True) ?_ (by omega) (Nat.le_refl _) ?_
    · cases hf : s2.find node.ident with
      | some x => exact .pure h2 trivial
      | none =>
        simp only []
        refine .addNode h2 (hF.targets _ ht) (fun t => fun h => absurd h (not_alias hM.loaded)) fun ha' hb' h3 => ?_
        refine .schedule h3 hM.imports hM.mypyc fun h4 => ?_
        have e : b - nodeCost U + nodeCost U = b := by omega
        rw [e] at h4
        cases hsp : splitPackage node.ident with
        | error e =>
          refine Fin2.throw (h4.mono (by omega) (Nat.le_refl _)) ?_
          rintro rfl
          unfold splitPackage at hsp
          split at hsp
          · cases hsp
          · simp only [] at hsp; split at hsp <;> cases hsp
        | ok sp =>
          rw [M.bind_ofExcept]
          obtain ⟨pkg, base⟩ := sp
          cases pkg with
          | none => exact .okPure h4 (by omega) (Nat.le_refl _) trivial
          | some pkg =>
            simp only []
            have hp := hF.parents _ (hF.targets _ ht) _ (packageOf_of_split hsp)
            refine .bind ((g.findOrLoad h4 hp).mono (Nat.le_refl _) (Nat.le_refl _) ?_ fun _ _ h => h)
              (by omega) (Nat.le_refl _) ?_
            · intro hd
              have := D_pred ha' (len_le hp)
              have := Nat.mul_le_mul_right ((len U + 1) * 8) (show a - 1 ≤ a by omega)
              unfold DI at *
              omega
            · intro m s5 h5 _ _
              exact (Fin2.addEdge h5).mono (by omega) (Nat.le_refl _) id fun _ _ h => h
    · intro _ s3 h3 e3 _
      refine .bind (Fin2.addEdge h3) (by omega) (Nat.le_refl _) ?_
      intro _ s4 h4 e4 _
      exact .okPure h4 (by omega) (Nat.le_refl _) (e4.is (e3.is hi))
  · rename_i he
    simp only [ne_eq, Decidable.not_not] at he
    refine .addNode h1 (by rw [he]; exact hn) (fun t => fun h => absurd h (not_alias hM.loaded)) fun ha hb h2 => ?_
    have hi : Is name node (s1.addNode node) := ⟨he, (is_addNode _ _).2⟩
    refine .bind (a1 := a - 1) (b1 := b - nodeCost U) (Q1 := fun _ _ => True) ?_ (by omega) (by omega) ?_
    · have key : ∀ x ∈ U.names, Fin2 env U (a - 1) (b - nodeCost U) (DI U a ≤ n) (fun _ _ => True) (s1.addNode node)
          (M.bind (c.findOrLoad none x true) (fun nspkg => M.addEdge node.ident nspkg.ident defaultDep)
            (s1.addNode node)) := by
        intro x hx
        refine .bind ((g.findOrLoad h2 hx).mono (Nat.le_refl _) (Nat.le_refl _) ?_ fun _ _ h => h)
          (Nat.le_refl _) (Nat.le_refl _) ?_
        · intro hd
          have := D_pred ha (len_le hx)
          omega
        · intro m s3 h3 _ _
          exact Fin2.addEdge h3
      cases hk : node.kind with
      | package _ _ _ _ ns =>
        cases ns with
        | none => exact .pure h2 trivial
        | some ns =>
          cases ns with
          | pkgutil => exact key _ (hM.pkgutil _ _ _ _ hk)
          | pkgResources => exact key _ (hM.pkgResources _ _ _ _ hk)
      | _ => exact .pure h2 trivial
    · intro _ s3 h3 e3 _
      refine .schedule h3 hM.imports hM.mypyc fun h4 => ?_
      have e : b - nodeCost U + nodeCost U = b := by omega
      rw [e] at h4
      refine .okPure h4 (by omega) (Nat.le_refl _) ⟨he, ?_⟩
      rw [schedule_nodes]; exact (e3.is hi).2

theorem findNode_is {s : St W} {name m} (h : s.find name = some m) : Is name m s :=
  ⟨(find_some h).2, (find_some h).1⟩

theorem split_error {x : Str} {e} (h : splitPackage x = .error e) : e ≠ .fuel := by
  rintro rfl
  unfold splitPackage at h
  split at h
  · cases h
  · simp only [] at h; split at h <;> cases h

/-- Locating the spec, or making the node for a missing module. -/
def locate (env : Env W) (c : Calls W) (imp : Option Node) (name : Str) : M W (Node ⊕ Spec) :=
  M.bind (M.ext (resolveSpec env name)) fun sp =>
    match sp with
    | none => M.bind (c.createMissing imp name) fun n => M.pure (Sum.inl n)
    | some spec => M.pure (Sum.inr spec)

theorem locate_fin (hr : env.Returns) (g : FGood env U c n) (h : At env U a b s) {name : Str}
    (hn : name ∈ U.names) (imp : Option Node) :
    Fin2 env U a b (3 ≤ n) (fun x s1 => match x with
      | .inl m => Is name m s1
      | .inr spec => ∃ w, (resolveSpec env name w).1 = .ok (some spec)) s (locate env c imp name s) := by
  unfold locate
  refine .bind (Fin2.ext' h (resolve_returns hr name)) (Nat.le_refl _) (Nat.le_refl _) ?_
  intro sp s1 h1 _ hs
  cases sp with
  | none =>
    simp only []
    refine .bind (g.createMissing h1 hn).1 (Nat.le_refl _) (Nat.le_refl _) ?_
    intro m s2 h2 _ hm
    exact .pure h2 hm
  | some spec => exact .pure h1 ⟨_, hs.1⟩

theorem locate_error (g : FGood env U c n) (h : At env U a b s) {name : Str} (hn : name ∈ U.names)
    {imp : Option Node} (hd : '.' ∈ name) (hh : s.has name = false) {e s1}
    (he : locate env c imp name s = (.error e, s1)) (hf : e ≠ .fuel) :
    (resolveSpec env name s.world).1 = .error e ∧ s1.world = (resolveSpec env name s.world).2 := by
  unfold locate at he
  cases hs : (resolveSpec env name s.world).1 with
  | error e' =>
    rw [M.bind_of_error (e := e') (s' := { s with world := (resolveSpec env name s.world).2 })
      (by unfold M.ext; rw [hs])] at he
    simp only [Prod.mk.injEq, Except.error.injEq] at he
    exact ⟨by rw [he.1], by rw [← he.2]⟩
  | ok sp =>
    rw [M.bind_of_ok (a := sp) (s' := { s with world := (resolveSpec env name s.world).2 })
      (by unfold M.ext; rw [hs])] at he
    cases sp with
    | some spec => simp [M.pure] at he
    | none =>
      simp only [] at he
      have h2 := (g.createMissing (imp := imp) (h.world (resolveSpec env name s.world).2) hn).2 hd hh
      cases hc : c.createMissing imp name { s with world := (resolveSpec env name s.world).2 } with
      | mk r s2 =>
        rw [hc] at h2
        cases r with
        | ok m => rw [M.bind_of_ok hc] at he; simp [M.pure] at he
        | error e' =>
          rw [M.bind_of_error hc] at he
          simp only [Prod.mk.injEq, Except.error.injEq] at he
          exact absurd (he.1 ▸ h2 e' rfl) hf

theorem loadModule_fin (hr : env.Returns) (hk : env.KeepsFakes) (hF : FiniteImports env U)
    (g : FGood env U c n) (h : At env U a b s) {name : Str} (hn : name ∈ U.names) (imp : Option Node) :
    Fin2 env U a b (DI U a + 5 ≤ n + 1 ∨ (DI U a + 4 ≤ n + 1 ∧ Faked env name s.world)) (Is name) s
      (loadModuleBody env c imp name s) := by
  unfold loadModuleBody
  split
  · exact .throw h (by simp)
  rw [M.bind_findNode]
  cases hf : s.find name with
  | some m => exact .pure h (findNode_is hf)
  | none =>
    simp only []
    change Fin2 env U a b _ (Is name) s (M.bind (M.attempt (locate env c imp name)) _ s)
    refine .bind (Fin2.attempt ((locate_fin hr g h hn imp).mono (Nat.le_refl _) (Nat.le_refl _) (by omega)
      fun _ _ h => h)) (Nat.le_refl _) (Nat.le_refl _) ?_
    rintro r s1 h1 e1 ⟨hl, hnf, hQ⟩
    cases r with
    | ok x =>
      have := hQ x rfl
      cases x with
      | inl m => exact .pure h1 this
      | inr spec =>
        obtain ⟨w, hw⟩ := this
        exact (addLoaded_fin hr hF g h1 hn hw).mono (Nat.le_refl _) (Nat.le_refl _) (by omega) fun _ _ h => h
    | error e =>
      have hef : e ≠ .fuel := fun h => hnf (by rw [h])
      simp only []
      split
      · unfold loadFallback
        have hmiss : ∀ s2, At env U a b s2 → Fin2 env U a b
            (DI U a + 5 ≤ n + 1 ∨ (DI U a + 4 ≤ n + 1 ∧ Faked env name s.world)) (Is name) s2
            (c.createMissing imp name s2) := fun s2 h2 =>
          (g.createMissing h2 hn).1.mono (Nat.le_refl _) (Nat.le_refl _) (by omega) fun _ _ h => h
        split
        · simp only []
          rw [M.bind_get]
          split
          · exact .throw h1 (by simp)
          rename_i hsys
          refine .bind (Fin2.ext' h1 (hr.findSpec _)) (Nat.le_refl _) (Nat.le_refl _) ?_
          rintro sp s2 h2 - ⟨hsp, hs2⟩
          cases sp with
          | none => exact .throw h2 (by simp)
          | some spec =>
            have hd : '.' ∈ name := by
              refine Classical.byContradiction fun hd => ?_
              have : (rpartition '.' name).1 = [] := by
                unfold rpartition; rw [rfindSplit_none.mpr hd]
              rw [this] at hsp
              exact hk.empty _ _ hsp
            simp only []
            rw [M.bind_get]
            split
            · exact .throw h2 (by simp)
            refine .bind (Fin2.ext' h2 (hr.isPackage _)) (Nat.le_refl _) (Nat.le_refl _) ?_
            intro isPkg s3 h3 _ _
            split
            · cases spec.origin with
              | none => exact .throw h3 (by simp)
              | some path =>
                simp only []
                split
                · exact .throw h3 (by simp)
                rw [M.bind_modify]
                refine Fin2.of (s1 := { s3 with world := env.setFake (rpartition '.' name).1 (dirname path) s3.world })
                  ?_ ⟨fun _ h => h, fun _ h => h⟩
                refine (g.loadModule (h3.world _) hn).mono (Nat.le_refl _) (Nat.le_refl _) ?_ fun _ _ h => h
                rintro (h5 | ⟨h4, -, dir, w0, hw⟩)
                · exact .inr ⟨by omega, hd, _, _, rfl⟩
                · exfalso
                  obtain ⟨hl1, hl2⟩ := locate_error g h hn hd (find_none hf) hl hef
                  rw [hw] at hl1 hl2
                  have hcut : name = (rpartition '.' name).1 ++ '.' :: (rpartition '.' name).2.2 := by
                    unfold rpartition
                    cases hq : rfindSplit '.' name with
                    | none => exact absurd hd (rfindSplit_none.mp hq)
                    | some q => exact ((rfindSplit_some (a := q.1) (b := q.2)).mp hq).1
                  have hse := search_self env name (env.setFake (rpartition '.' name).1 dir w0)
                  rw [hl1, ← hl2] at hse
                  have := hk.stays (rpartition '.' name).1 (rpartition '.' name).2.2 dir w0 e _ (rpartition_last name)
                    (by rw [← hcut]; exact hse)
                  exact hsys this
            · exact hmiss s3 h3
        · exact hmiss s1 h1
      · exact .throw h1 hef

theorem implied_fin (hF : FiniteImports env U) (g : FGood env U c n) (h : At env U a b s) {name : Str}
    (hn : name ∈ U.names) (imp : Option Node) :
    Fin2 env U a b (DI U a ≤ n + 1) (IsSome name) s (impliedBody c imp name s) := by
  have hnone : ∀ s, At env U a b s → Fin2 env U a b (DI U a ≤ n + 1) (IsSome name) s (M.pure none s) :=
    fun s h => .pure h (by intro m hm; cases hm)
  unfold impliedBody
  rw [M.bind_findNode]
  cases hf : s.find name with
  | some m => exact hnone s h
  | none =>
    simp only []
    rw [M.bind_get]
    cases hl : s.lazy name with
    | none => exact hnone s h
    | some v =>
      simp only []
      rw [M.bind_modify]
      obtain ⟨ha, h1⟩ := h.lazyPop hn hl
      have hv := h.inv.table name v hn hl
      refine Fin2.of (s1 := { s with lazy := fun k => if k = name then none else s.lazy k })
                  ?_ ⟨fun _ h => h, fun _ h => h⟩
      generalize ({ s with lazy := fun k => if k = name then none else s.lazy k } : St W) = s1 at h1
      refine Fin2.mono (a := a - 1) (b := b) (ok := DI U a ≤ n + 1) (Q := IsSome name) ?_ (by omega) (Nat.le_refl _)
        id fun _ _ h => h
      have hcall : ∀ {a1 s2 i x}, a1 ≤ a - 1 → At env U a1 b s2 → x ∈ U.names →
          Fin2 env U a1 b (DI U a ≤ n + 1) (Is x) s2 (c.findOrLoad i x true s2) := by
        intro a1 s2 i x ha1 h2 hx
        refine (g.findOrLoad h2 hx).mono (Nat.le_refl _) (Nat.le_refl _) (fun hd => ?_) fun _ _ h => h
        have := D_pred ha (len_le hx)
        have := D_mono (U := U) ha1 (Nat.le_refl x.length)
        omega
      cases v with
      | excluded =>
        exact .newNode h1 hn (by intro t ht; cases ht) rfl fun s2 _ h2 hi =>
          .okPure h2 (by omega) (Nat.le_refl _) (by intro m hm; cases hm; exact hi)
      | alias t =>
        refine .newNode h1 hn (by intro t ht; cases ht; exact hv) rfl fun s2 _ h2 hi => ?_
        refine .bind (hcall (by omega) h2 (hF.targets _ hv)) (by omega) (Nat.le_refl _) ?_
        intro m s3 h3 e3 _
        refine .bind (Fin2.addEdge h3) (by omega) (Nat.le_refl _) ?_
        intro _ s4 h4 e4 _
        exact .okPure h4 (by omega) (Nat.le_refl _) (by intro m hm; cases hm; exact e4.is (e3.is hi))
      | virtual t =>
        refine .newNode h1 hn (by intro t ht; cases ht) rfl fun s2 _ h2 hi => ?_
        refine .bind (hcall (by omega) h2 hv) (by omega) (Nat.le_refl _) ?_
        intro m s3 h3 e3 _
        refine .bind (Fin2.addEdge h3) (by omega) (Nat.le_refl _) ?_
        intro _ s4 h4 e4 _
        exact .okPure h4 (by omega) (Nat.le_refl _) (by intro m hm; cases hm; exact e4.is (e3.is hi))
      | refs l =>
        refine .bind (hcall (Nat.le_refl _) h1 hn) (Nat.le_refl _) (Nat.le_refl _) ?_
        intro m s2 h2 e2 hi
        refine .bind (Fin2.forEach h2 hv ?_) (Nat.le_refl _) (Nat.le_refl _) ?_
        · intro x s3 hx h3 _
          refine .bind (hcall (Nat.le_refl _) h3 hx) (Nat.le_refl _) (Nat.le_refl _) ?_
          intro m s4 h4 _ _
          exact Fin2.addEdge h4
        · intro _ s3 h3 e3 _
          exact .pure h3 (by intro m' hm; cases hm; exact e3.is hi)

theorem findOrLoad_fin (hF : FiniteImports env U) (g : FGood env U c n) (h : At env U a b s) {name : Str}
    (hn : name ∈ U.names) (imp : Option Node) (lm : Bool) :
    Fin2 env U a b (D U a name.length ≤ n + 1) (Is name) s (findOrLoadBody c imp name lm s) := by
  unfold findOrLoadBody
  refine .bind (Fin2.findModule h) (Nat.le_refl _) (Nat.le_refl _) ?_
  rintro r s1 h1 - ⟨rfl, hr⟩
  cases r with
  | some m => exact .pure h1 (findNode_is hr.symm)
  | none =>
    simp only []
    cases hsp : splitPackage name with
    | error e => exact Fin2.throw h1 (split_error hsp)
    | ok sp =>
      rw [M.bind_ofExcept]
      obtain ⟨pkg, base⟩ := sp
      refine .bind (a1 := a) (b1 := b) (Q1 := fun pn s => IsSome name pn.2 s) ?_ (Nat.le_refl _) (Nat.le_refl _) ?_
      · cases pkg with
        | none => exact .pure h1 (by intro m hm; cases hm)
        | some pkg =>
          simp only []
          have hp := hF.parents _ hn _ (packageOf_of_split hsp)
          refine .bind ((g.findOrLoad h1 hp).mono (Nat.le_refl _) (Nat.le_refl _) ?_ fun _ _ h => h)
            (Nat.le_refl _) (Nat.le_refl _) ?_
          · intro hd
            have := parent_shorter hsp
            unfold D at *
            omega
          · intro m s2 h2 e2 hi
            split
            · refine .bind ((g.createMissing h2 hn).1.mono (Nat.le_refl _) (Nat.le_refl _) ?_ fun _ _ h => h)
                (Nat.le_refl _) (Nat.le_refl _) ?_
              · unfold D; omega
              · intro m' s3 h3 _ hm'
                exact .pure h3 (by intro x hx; cases hx; exact hm')
            · split
              · exact .newNode h2 hn (by intro t ht; cases ht) rfl fun s3 _ h3 hi =>
                  .okPure h3 (by omega) (Nat.le_refl _) (by intro x hx; cases hx; exact hi)
              · exact .pure h2 (by intro x hx; cases hx)
      · rintro ⟨par, nd⟩ s2 h2 e2 hnd
        refine .bind (a1 := a) (b1 := b) (Q1 := Is name) ?_ (Nat.le_refl _) (Nat.le_refl _) ?_
        · cases nd with
          | some m => exact .pure h2 (hnd m rfl)
          | none =>
            simp only []
            refine .bind ((g.implied h2 hn).mono (Nat.le_refl _) (Nat.le_refl _) ?_ fun _ _ h => h)
              (Nat.le_refl _) (Nat.le_refl _) ?_
            · unfold D DI; omega
            · intro i s3 h3 _ hi
              cases i with
              | some m => exact .pure h3 (hi m rfl)
              | none =>
                refine (g.loadModule h3 hn).mono (Nat.le_refl _) (Nat.le_refl _) ?_ fun _ _ h => h
                unfold D DI; omega
        · intro m s3 h3 _ hm
          cases par with
          | none => exact .pure h3 hm
          | some q =>
            simp only []
            split
            · refine .bind (Fin2.addEdge h3) (Nat.le_refl _) (Nat.le_refl _) ?_
              intro _ s4 h4 e4 _
              exact .pure h4 (e4.is hm)
            · exact .pure h3 hm

end
end

/-! ## The work stack -/

section
variable {b : Nat} {ok : Prop} {s s' : St W} {α : Type}

theorem At.topDepth (h : Inv env U s) (hw : Term.work U s ≤ b) : At env U (top U) b s := ⟨h, depth_top s, hw⟩

theorem R_mono {b b' : Nat} (h : b ≤ b') : R U b ≤ R U b' := by unfold R; omega
theorem D_R (b : Nat) {x} (hx : x ∈ U.names) : D U (top U) x.length ≤ R U b := by
  have := D_mono (U := U) (Nat.le_refl (top U)) (len_le hx)
  unfold R; omega

variable (env U) in
/-- The methods that run work items, with recursion depth `n`. -/
structure TGood (c : Calls W) (n : Nat) : Prop extends FGood env U c n where
  runStack : ∀ {b s}, At env U (top U) b s →
    Fin2 env U (top U) b (R U b ≤ n) (fun _ _ => True) s (c.runStack s)
  callPost : ∀ {b0 b s idx} {node : Node}, At env U (top U) b0 s → b0 ≤ b → (idx = 0 → b0 + 2 * U.limit ≤ b) →
    MypycOk env U node → node.ident ∈ s.seen →
    Fin2 env U (top U) b (R U b + 5 ≤ n ∨ (1 ≤ idx ∧ 1 ≤ n)) (fun _ _ => True) s (c.callPost idx node s)
  op : ∀ {b s o}, At env U (top U) b s → OpOk env U o →
    Fin2 env U (top U) b (R U b + 1 ≤ n) (fun _ _ => True) s (c.op o s)

theorem Fin2.modify {a b} {f : St W → St W} (h : At env U a b (f s)) (hn : (f s).nodes = s.nodes)
    (hs : (f s).seen = s.seen) : Fin2 env U a b ok (fun _ _ => True) s (M.modify f s) :=
  ⟨h, ⟨by show ∀ n ∈ s.nodes, n ∈ (f s).nodes; rw [hn]; exact fun _ h => h,
    by show ∀ n ∈ s.seen, n ∈ (f s).seen; rw [hs]; exact fun _ h => h⟩, by simp [M.modify], by simp⟩

theorem Fin2.ofExcept {a b} {x : Except Exc α} (h : At env U a b s) (hx : x ≠ .error .fuel) :
    Fin2 env U a b ok (fun v s1 => x = .ok v ∧ s1 = s) s (M.ofExcept x s) :=
  ⟨h, .refl s, fun _ => hx, fun _ hv => ⟨hv, rfl⟩⟩

theorem relativePackage_error {m : Node} {l : Nat} : relativePackage m l ≠ .error .fuel := by
  unfold relativePackage
  split
  · simp
  · dsimp only
    generalize (if (m.isPackage || m.isNamespacePkg) = true then l - 1 else l) = k
    split
    · simp
    · split <;> simp

theorem absoluteName_error {m : Node} {i : ImportInfo} : absoluteName m i ≠ .error .fuel := by
  unfold absoluteName
  split
  · simp
  · cases h : relativePackage m i.importLevel with
    | error e => simp only [ne_eq, Except.error.injEq]; rintro rfl; exact relativePackage_error h
    | ok r =>
      cases r with
      | none => simp
      | some p => simp only []; split <;> split <;> simp

section
variable {c : Calls W} {n : Nat}

theorem folTop (g : TGood env U c n) (h : At env U (top U) b s) {x i lm} (hx : x ∈ U.names) {b'}
    : Fin2 env U (top U) b (R U b' ≤ n + 1) (Is x) s (c.findOrLoad i x lm s) :=
  (g.findOrLoad h hx).mono (Nat.le_refl _) (Nat.le_refl _) (fun hd => by
    have := D_mono (U := U) (Nat.le_refl (top U)) (len_le hx)
    unfold R at hd; omega) fun _ _ h => h

theorem folTop' (g : TGood env U c n) (h : At env U (top U) b s) {x i lm} (hx : x ∈ U.names) {b'}
    : Fin2 env U (top U) b (R U b' ≤ n) (Is x) s (c.findOrLoad i x lm s) :=
  (folTop g h hx (b' := b')).mono (Nat.le_refl _) (Nat.le_refl _) (by omega) fun _ _ h => h

theorem processImport_fin (g : TGood env U c n) (hF : FiniteImports env U) (h : At env U (top U) b s)
    {m : Node} {i : ImportInfo} (hi : ImportOk U m i) {b' : Nat} :
    Fin2 env U (top U) (b + 1) (R U b' ≤ n + 1) (fun _ _ => True) s (processImport c m i s) := by
  unfold processImport
  refine .bind (Fin2.ofExcept h absoluteName_error) (Nat.le_refl _) (Nat.le_succ _) ?_
  rintro x s1 h1 - ⟨hx, -⟩
  cases x with
  | none =>
    simp only []
    refine .bind (Fin2.findModule h1) (Nat.le_refl _) (Nat.le_succ _) ?_
    rintro r s2 h2 - -
    refine .bind (a1 := top U) (b1 := b) (Q1 := fun _ _ => True) ?_ (Nat.le_refl _) (Nat.le_succ _) ?_
    · cases r with
      | none =>
        refine .newNode h2 (hi.outside (outside_of_absoluteName hx)) (by intro t ht; cases ht) rfl fun s3 ha h3 _ => ?_
        exact .okPure h3 (by omega) (Nat.le_refl _) trivial
      | some y =>
        refine .bind (Fin2.assert h2) (Nat.le_refl _) (Nat.le_refl _) ?_
        intro _ s3 h3 _ _
        exact .pure h3 trivial
    · intro y s3 h3 _ _
      refine .bind (Fin2.addEdge h3) (Nat.le_refl _) (Nat.le_succ _) ?_
      intro _ s4 h4 _ _
      exact Fin2.modify ((h4.event _).mono (Nat.le_refl _) (Nat.le_succ _)) rfl rfl
  | some name =>
    simp only []
    have ht := hi.absolute _ (refers_of_absoluteName hx)
    rw [M.bind_get]
    refine .bind (folTop g h1 (hF.targets _ ht)) (Nat.le_refl _) (Nat.le_succ _) ?_
    intro y s2 h2 _ hy
    refine .bind (Fin2.addEdge h2) (Nat.le_refl _) (Nat.le_succ _) ?_
    intro _ s3 h3 e3 _
    replace hy := e3.is hy
    refine Fin2.modify ⟨⟨h3.inv.aliases, h3.inv.table, ?_, h3.inv.miss, h3.inv.post⟩, ?_, ?_⟩ rfl rfl
    · intro it hit
      refine ItemOk.seen (s := s3) ?_ fun _ h => h
      simp only [List.append_assoc, List.mem_append, List.mem_singleton] at hit
      rcases hit with hit | rfl | hit
      · exact h3.inv.items it (List.mem_of_mem_take hit)
      · exact ⟨by rw [hy.1]; exact ht, h3.inv.aliases _ hy.2, hi.members⟩
      · exact h3.inv.items it (List.mem_of_mem_drop hit)
    · exact depth_top _
    · have := h3.work
      unfold Term.work at this ⊢
      change nodeCost U * absent U s3 + _ ≤ _
      rw [List.map_append, List.map_append, List.sum_append, List.sum_append]
      have e : (s3.stack.map (weight U)).sum =
          ((s3.stack.take s1.stack.length).map (weight U)).sum + ((s3.stack.drop s1.stack.length).map (weight U)).sum := by
        rw [← List.sum_append, ← List.map_append, List.take_append_drop]
      simp only [List.map_cons, List.map_nil, List.sum_cons, List.sum_nil, weight]
      omega

theorem processNames_fin (g : TGood env U c n) (hF : FiniteImports env U) (h : At env U (top U) b s)
    {m y : Node} {i : ImportInfo} (ht : y.ident ∈ U.targets) (hm : ∀ x ∈ i.importNames, x.name ∈ U.members)
    {b' : Nat} :
    Fin2 env U (top U) b (R U b' ≤ n + 1) (fun _ _ => True) s (processNames env c m y i s) := by
  unfold processNames
  refine .bind (Fin2.modify (h.same rfl rfl rfl rfl rfl rfl) rfl rfl) (Nat.le_refl _) (Nat.le_refl _) ?_
  intro _ s1 h1 _ _
  refine Fin2.forEach h1 hm ?_
  intro nm s2 hnm h2 _
  unfold processName
  rw [M.bind_get]
  have link : ∀ {p q d p' q' d'} {s3 : St W}, At env U (top U) b s3 → Fin2 env U (top U) b (R U b' ≤ n + 1)
      (fun _ _ => True) s3 (M.bind (M.addEdge p q d) (fun _ => M.addEdge p' q' d') s3) := by
    intro p q d p' q' d' s3 h3
    refine .bind (Fin2.addEdge h3) (Nat.le_refl _) (Nat.le_refl _) ?_
    intro _ s4 h4 _ _
    exact Fin2.addEdge h4
  dsimp only
  generalize hsub : (M.bind (c.findOrLoad (some m) (y.ident ++ '.' :: nm.name) false) _ : M W Unit) = sub
  have hs : Fin2 env U (top U) b (R U b' ≤ n + 1) (fun _ _ => True) s2 (sub s2) := by
    rw [← hsub]
    refine .bind (folTop g h2 (hF.members _ ht _ hnm)) (Nat.le_refl _) (Nat.le_refl _) ?_
    intro z s3 h3 _ _
    rw [M.bind_get]
    split
    · cases y.kind with
      | package _ init _ _ _ =>
        simp only []
        split
        · cases hsix : sixMove nm.name with
          | none => exact link h3
          | some t =>
            simp only []
            refine .bind (folTop g h3 (hF.six _ hnm _ (Props.sixMove_iff.mp hsix))) (Nat.le_refl _) (Nat.le_refl _) ?_
            intro _ s4 h4 _ _
            exact Fin2.addEdge h4
        · split
          · exact .pure h3 trivial
          · exact link h3
      | _ => exact link h3
    · exact link h3
  split
  · cases reexported env s2 y nm.name with
    | some t => exact Fin2.addEdge h2
    | none =>
      simp only []
      split
      · exact .pure h2 trivial
      · exact hs
  · split
    · exact .pure h2 trivial
    · exact hs

theorem processNamelist_fin (g : TGood env U c n) (hF : FiniteImports env U) (h : At env U (top U) b s)
    {m y : Node} {i : ImportInfo} (hi : ItemOk env U s (.nl m y i)) {b' : Nat} :
    Fin2 env U (top U) b (R U b' ≤ n + 1) (fun _ _ => True) s (processNamelist env c m y i s) := by
  unfold processNamelist
  refine .bind (Fin2.assert h) (Nat.le_refl _) (Nat.le_refl _) ?_
  intro _ s1 h1 _ _
  split
  · split
    · exact Fin2.modify (h1.same rfl rfl rfl rfl rfl rfl) rfl rfl
    · exact .pure h1 trivial
  split
  · have hp : Fin2 env U (top U) b (R U b' ≤ n + 1) (fun _ _ => True) s1 (processNames env c m y i s1) :=
      processNames_fin g hF h1 hi.1 hi.2.2
    cases hk : y.kind with
    | alias t =>
      simp only []
      refine .bind (Fin2.modify (h1.same rfl rfl rfl rfl rfl rfl) rfl rfl) (Nat.le_refl _) (Nat.le_refl _) ?_
      intro _ s2 h2 _ _
      refine .bind (Fin2.findModule h2) (Nat.le_refl _) (Nat.le_refl _) ?_
      rintro r s3 h3 - ⟨rfl, hr⟩
      cases r with
      | none => exact .throw h3 (by simp)
      | some z =>
        simp only []
        split
        · refine processNames_fin g hF h3 ?_ hi.2.2
          rw [(find_some hr.symm).2]
          exact hi.2.1 t hk
        · exact .pure h3 trivial
    | _ => exact hp
  · exact .pure h1 trivial

theorem weight_pos (it : Item) : 1 ≤ weight U it := by cases it <;> simp only [weight] <;> omega

theorem runStack_fin (g : TGood env U c n) (hF : FiniteImports env U) (h : At env U (top U) b s) :
    Fin2 env U (top U) b (R U b ≤ n + 1) (fun _ _ => True) s (runStackBody env c s) := by
  unfold runStackBody
  cases hl : s.stack.getLast? with
  | none =>
    rw [M.bind_of_ok (a := none) (s' := s) (by unfold popItem; rw [hl])]
    exact .pure h trivial
  | some it =>
    rw [M.bind_of_ok (a := some it) (s' := { s with stack := s.stack.dropLast, log := s.log ++ [.started it] })
      (by unfold popItem; rw [hl])]
    simp only []
    have hst : s.stack = s.stack.dropLast ++ [it] := by
      rw [List.getLast?_eq_some_iff] at hl
      obtain ⟨l, hl⟩ := hl
      rw [hl]; simp
    have hw : weight U it ≤ b ∧ work U { s with stack := s.stack.dropLast, log := s.log ++ [.started it] } ≤ b - weight U it := by
      have := h.work
      unfold Term.work at this ⊢
      rw [hst, List.map_append, List.sum_append] at this
      simp only [List.map_cons, List.map_nil, List.sum_cons, List.sum_nil] at this
      change _ ∧ nodeCost U * absent U s + (s.stack.dropLast.map (weight U)).sum ≤ _
      omega
    have hI : Inv env U { s with stack := s.stack.dropLast, log := s.log ++ [.started it] } := by
      refine ⟨h.inv.aliases, h.inv.table, fun it' hi => ?_, h.inv.miss, h.inv.post⟩
      exact (h.inv.items it' (List.dropLast_subset _ hi)).seen fun _ h => h
    have hit : ItemOk env U { s with stack := s.stack.dropLast, log := s.log ++ [.started it] } it :=
      (h.inv.items it (by rw [hst]; simp)).seen fun _ h => h
    refine Fin2.of (s1 := { s with stack := s.stack.dropLast, log := s.log ++ [.started it] }) ?_ ⟨fun _ h => h, fun _ h => h⟩
    generalize ({ s with stack := s.stack.dropLast, log := s.log ++ [.started it] } : St W) = s1 at hw hI hit
    have h1 : At env U (top U) (b - weight U it) s1 := At.topDepth hI hw.2
    have hp := weight_pos (U := U) it
    refine .bind (a1 := top U) (b1 := b - 1) (Q1 := fun _ _ => True) ?_ (Nat.le_refl _) (by omega) ?_
    · cases it with
      | pp m =>
        simp only [weight] at h1 hw
        refine (g.callPost (idx := 0) (b := b - 1) h1 (by omega) (by omega) hit.1 hit.2).mono (Nat.le_refl _) (Nat.le_refl _)
          ?_ fun _ _ h => h
        intro hR
        left
        unfold R at *
        omega
      | imp m i =>
        simp only [weight] at h1 hw
        exact (processImport_fin g hF h1 hit).mono (Nat.le_refl _) (by omega) id fun _ _ h => h
      | nl m y i => exact processNamelist_fin g hF h1 hit
      | pkg _ _ => exact absurd hit id
    · intro _ s2 h2 _ _
      refine (g.runStack h2).mono (Nat.le_refl _) (by omega) ?_ fun _ _ h => h
      intro hR
      unfold R at *
      omega

theorem mypyc_fin (hr : env.Returns) (g : TGood env U c n) {b0 : Nat} (h : At env U (top U) b0 s)
    (hb : b0 + 2 * U.limit ≤ b) {node : Node} (hm : MypycOk env U node) (hs : node.ident ∈ s.seen) :
    Fin2 env U (top U) b (R U b + 5 ≤ n + 1) (fun _ _ => True) s (mypycHook env c node s) := by
  unfold mypycHook
  have hp : ∀ {s1 : St W}, At env U (top U) b0 s1 → Fin2 env U (top U) b (R U b + 5 ≤ n + 1) (fun _ _ => True) s1
      (M.pure () s1) := fun h => .okPure h (Nat.le_refl _) (by omega) trivial
  cases hf : mypycFile node with
  | none => exact hp h
  | some file =>
    simp only []
    cases hd : node.distribution with
    | none => exact hp h
    | some dist =>
      simp only []
      cases file with
      | none => exact hp h
      | some file =>
        simp only []
        cases hh : dist.importNames.find? (endsWith c!"__mypyc") with
        | none => exact hp h
        | some helper =>
          simp only []
          obtain ⟨source, hso, hm1⟩ := hm file helper (Props.mypycModule_iff.mpr ⟨hf, dist, hd, hh⟩)
          rw [Props.sourceNextTo_eq hso]
          refine .bind (Fin2.ext' h (hr.isFile _)) (Nat.le_refl _) (by omega) ?_
          intro bb s1 h1 e1 hbb
          split
          · exact hp h1
          rename_i hnb
          obtain ⟨hin, hm2⟩ := hm1 ⟨s.world, by
            rw [hbb.1]; congr 1; simpa using hnb⟩
          refine .bind ((g.op (o := .addModule helper) h1 hin).mono (Nat.le_refl _) (Nat.le_refl _) ?_ fun _ _ h => h)
            (Nat.le_refl _) (by omega) ?_
          · intro hR
            have := R_mono (U := U) (show b0 ≤ b by omega)
            omega
          intro r s2 h2 e2 _
          cases r with
          | none => exact .throw (h2.mono (Nat.le_refl _) (by omega)) (by simp)
          | some y =>
            simp only []
            refine .bind (Fin2.addEdge h2) (Nat.le_refl _) (by omega) ?_
            intro _ s3 h3 e3 _
            refine .bind (Fin2.ext' h3 (hr.readBytes _)) (Nat.le_refl _) (by omega) ?_
            intro code s4 h4 e4 hcode
            refine .bind (Fin2.attempt (Fin2.ext' h4 (hr.compileAst _))) (Nat.le_refl _) (by omega) ?_
            rintro r s5 h5 e5 ⟨-, hnf, hQ⟩
            cases r with
            | error e =>
              have : e ≠ .fuel := fun he => hnf (by rw [he])
              cases e <;> first | exact hp h5 | exact .throw (h5.mono (Nat.le_refl _) (by omega)) this
            | ok imports =>
              simp only []
              split
              · exact hp h5
              have hseen : node.ident ∈ s5.seen := e5.seen _ (e4.seen _ (e3.seen _ (e2.seen _ (e1.seen _ hs))))
              have h6 := (h5.scheduleSeen (hm2 _ _ _ _ hcode.1 (hQ imports rfl).1) hseen).mono (Nat.le_refl _) hb
              rw [M.bind_schedule]
              refine Fin2.of (s1 := s5.schedule node imports) ?_
                ⟨by rw [schedule_nodes]; exact fun _ h => h, schedule_seen_sub _ _ _⟩
              exact (g.runStack h6).mono (Nat.le_refl _) (Nat.le_refl _) (by omega) fun _ _ h => h

theorem callPost_fin (hr : env.Returns) (g : TGood env U c n) {b0 : Nat} (h : At env U (top U) b0 s) (hb : b0 ≤ b)
    {idx : Nat} (hb0 : idx = 0 → b0 + 2 * U.limit ≤ b) {node : Node} (hm : MypycOk env U node)
    (hs : node.ident ∈ s.seen) :
    Fin2 env U (top U) b (R U b + 5 ≤ n + 1 ∨ (1 ≤ idx ∧ 1 ≤ n + 1)) (fun _ _ => True) s
      (callPostBody env c idx node s) := by
  unfold callPostBody
  rw [M.bind_get]
  cases hh : s.postHooks[idx]? with
  | none => exact .okPure h (Nat.le_refl _) hb trivial
  | some x =>
    have hx : x = .mypyc ∧ idx = 0 := by
      rcases h.inv.post with hm | hm
      · rw [hm] at hh; simp at hh
      · rw [hm] at hh
        cases idx with
        | zero => simp at hh; exact ⟨hh.symm, rfl⟩
        | succ k => simp at hh
    obtain ⟨rfl, rfl⟩ := hx
    simp only []
    rw [M.bind_modify]
    refine Fin2.of (s1 := s.event (.called .mypyc node.ident)) ?_ ⟨fun _ h => h, fun _ h => h⟩
    refine .bind ((mypyc_fin hr g (h.event _) (hb0 rfl) hm hs).mono (Nat.le_refl _) (Nat.le_refl _) (by omega) fun _ _ h => h)
      (Nat.le_refl _) (Nat.le_refl _) ?_
    intro _ s1 h1 e1 _
    refine (g.callPost (idx := 0 + 1) h1 (Nat.le_refl _) (by omega) hm (e1.seen _ hs)).mono (Nat.le_refl _) (Nat.le_refl _)
      ?_ fun _ _ h => h
    unfold R; omega

theorem addModule_fin (g : TGood env U c n) (h : At env U (top U) b s) {x} (hx : x ∈ U.names) :
    Fin2 env U (top U) b (R U b ≤ n) (fun _ _ => True) s (addModule c x s) := by
  unfold addModule
  refine .bind (Fin2.findModule h) (Nat.le_refl _) (Nat.le_refl _) ?_
  intro r s1 h1 _ _
  refine .bind (a1 := top U) (b1 := b) (Q1 := fun _ _ => True) ?_ (Nat.le_refl _) (Nat.le_refl _) ?_
  · cases r with
    | some m => exact .pure h1 trivial
    | none => exact (folTop' g h1 hx).mono (Nat.le_refl _) (Nat.le_refl _) id fun _ _ _ => trivial
  intro m s2 h2 _ _
  refine .bind (Fin2.addRoot h2) (Nat.le_refl _) (Nat.le_refl _) ?_
  intro _ s3 h3 _ _
  refine .bind (g.runStack h3) (Nat.le_refl _) (Nat.le_refl _) ?_
  intro _ s4 h4 _ _
  exact .pure h4 trivial

theorem addDistribution_fin (g : TGood env U c n) (h : At env U (top U) b s) {d : Dist}
    (hx : ∀ x ∈ d.importNames, x ∈ U.names) :
    Fin2 env U (top U) b (R U b ≤ n) (fun _ _ => True) s (addDistribution c d s) := by
  unfold addDistribution
  rw [M.bind_findNode]
  cases hf : s.find d.identifier with
  | some m =>
    refine .bind (Fin2.assert h) (Nat.le_refl _) (Nat.le_refl _) ?_
    intro _ s1 h1 _ _
    exact .pure h1 trivial
  | none =>
    simp only []
    rw [M.bind_addNode (n := distNode d) _ (find_none hf)]
    refine Fin2.of (s1 := s.addNode (distNode d)) ?_ ⟨fun _ h => List.mem_append_left _ h, fun _ h => h⟩
    have h1 : At env U (top U) b (s.addNode (distNode d)) := by
      refine .topDepth (h.inv.addNode (by intro t ht; cases ht)) ?_
      have := h.work
      unfold Term.work at this ⊢
      have h2 := Nat.mul_le_mul_left (nodeCost U) (absent_addNode_le (U := U) s (distNode d))
      show nodeCost U * absent U (s.addNode (distNode d)) + (s.stack.map (weight U)).sum ≤ b
      omega
    refine .bind (Fin2.addRoot h1) (Nat.le_refl _) (Nat.le_refl _) ?_
    intro _ s2 h2 _ _
    refine .bind (Fin2.forEach h2 hx ?_) (Nat.le_refl _) (Nat.le_refl _) ?_
    · intro x s3 hx h3 _
      refine .bind (folTop' g h3 hx) (Nat.le_refl _) (Nat.le_refl _) ?_
      intro _ s4 h4 _ _
      exact Fin2.addEdge h4
    · intro _ s3 h3 _ _
      refine .bind (g.runStack h3) (Nat.le_refl _) (Nat.le_refl _) ?_
      intro _ s4 h4 _ _
      exact .pure h4 trivial

theorem At.lazyTop (h : At env U (top U) b s) {f : Str → Option Implies}
    (hf : ∀ x v, x ∈ U.names → f x = some v → ImpliesOk U v) : At env U (top U) b { s with lazy := f } :=
  .topDepth ⟨h.inv.aliases, hf, fun it hi => (h.inv.items it hi).seen fun _ h => h, h.inv.miss, h.inv.post⟩ h.work

theorem At.excludes (h : At env U (top U) b s) (l : List Str) :
    At env U (top U) b (l.foldl addExclude s) ∧ (l.foldl addExclude s).nodes = s.nodes ∧
      (l.foldl addExclude s).seen = s.seen := by
  induction l generalizing s with
  | nil => exact ⟨h, rfl, rfl⟩
  | cons x l ih =>
    refine ih (s := addExclude s x) (h.lazyTop ?_)
    intro y v hy hv
    split at hv
    · cases hv; trivial
    · exact h.inv.table y v hy hv

theorem addImply_table (hi : ∀ x v, x ∈ U.names → s.lazy x = some v → ImpliesOk U v) {p : Str × Implies}
    (hp : p.1 ∈ U.names → ImpliesOk U p.2) :
    ∀ x v, x ∈ U.names → (addImply s p).lazy x = some v → ImpliesOk U v := by
  unfold addImply
  split
  · exact hi
  · intro y v hy hv
    simp only [] at hv
    split at hv
    · rename_i he
      cases hv
      exact hp (he ▸ hy)
    · exact hi y v hy hv

theorem At.implies (h : At env U (top U) b s) {l : List (Str × Implies)} (hl : TableOk U l) :
    At env U (top U) b (l.foldl addImply s) ∧ (l.foldl addImply s).nodes = s.nodes ∧
      (l.foldl addImply s).seen = s.seen := by
  induction l generalizing s with
  | nil => exact ⟨h, rfl, rfl⟩
  | cons p l ih =>
    have h1 := addImply_table h.inv.table (hl p (by simp))
    have hl' : TableOk U l := fun q hq => hl q (List.mem_cons_of_mem _ hq)
    have h2 : At env U (top U) b (addImply s p) := by
      have h3 := h.lazyTop h1
      unfold addImply at h3 ⊢
      split at h3
      · rw [if_pos (by assumption)]; exact h
      · rw [if_neg (by assumption)]; exact h3
    have := ih h2 hl'
    have e : (addImply s p).nodes = s.nodes ∧ (addImply s p).seen = s.seen := by
      unfold addImply; split <;> exact ⟨rfl, rfl⟩
    rw [e.1, e.2] at this
    exact this

theorem api_fin (hr : env.Returns) (g : TGood env U c n) (h : At env U (top U) b s) {o : ApiOp}
    (ho : OpOk env U o) :
    Fin2 env U (top U) b (R U b ≤ n) (fun _ _ => True) s (apiBody env c o s) := by
  have fin : ∀ {α} {m : M W α} {f : α → Option Node} {s}, Fin2 env U (top U) b (R U b ≤ n) (fun _ _ => True) s (m s) →
      Fin2 env U (top U) b (R U b ≤ n) (fun _ _ => True) s (M.bind m (fun x => M.pure (f x)) s) := by
    intro α m f s h
    refine .bind h (Nat.le_refl _) (Nat.le_refl _) ?_
    intro _ s1 h1 _ _
    exact .pure h1 trivial
  cases o with
  | addScript p =>
    refine fin ?_
    unfold addScript
    refine .bind (Fin2.findModule h) (Nat.le_refl _) (Nat.le_refl _) ?_
    intro r s1 h1 _ _
    cases r with
    | some m => exact .throw h1 (by simp)
    | none =>
      simp only []
      refine .bind (Fin2.ext' h1 (hr.loadScript _)) (Nat.le_refl _) (Nat.le_refl _) ?_
      rintro ⟨infos, f⟩ s2 h2 - ⟨hp, -⟩
      refine .addNode h2 ho.1 (by intro t ht; cases ht) fun ha hb h3 => ?_
      refine .schedule h3 (ho.2 _ _ _ hp) (MypycOk.of_none rfl) fun h4 => ?_
      have e : b - nodeCost U + nodeCost U = b := by omega
      rw [e] at h4
      refine .bind (Fin2.addRoot (h4.mono (Nat.sub_le ..) (Nat.le_refl _))) (Nat.le_refl _) (Nat.le_refl _) ?_
      intro _ s5 h5 _ _
      refine .bind (g.runStack h5) (Nat.le_refl _) (Nat.le_refl _) ?_
      intro _ s6 h6 _ _
      exact .pure h6 trivial
  | addModule x => exact fin (addModule_fin g h ho)
  | addDependenciesForSource src =>
    refine fin ?_
    unfold addDependenciesForSource
    refine .bind (Fin2.ext' h (hr.parseSource _)) (Nat.le_refl _) (Nat.le_refl _) ?_
    rintro infos s1 h1 - ⟨hp, -⟩
    refine Fin2.forEach h1 (ho _ _ hp) ?_
    rintro i s2 ⟨hi1, hi2⟩ h2 -
    refine .bind (addModule_fin g h2 hi1) (Nat.le_refl _) (Nat.le_refl _) ?_
    intro _ s3 h3 _ _
    refine Fin2.forEach h3 hi2 ?_
    intro m s4 hm h4 _
    refine .bind (addModule_fin g h4 hm) (Nat.le_refl _) (Nat.le_refl _) ?_
    intro _ s5 h5 _ _
    exact .pure h5 trivial
  | addDistribution d => exact fin (addDistribution_fin g h ho)
  | addDistributionNamed name =>
    refine fin ?_
    unfold addDistributionNamed
    refine .bind (Fin2.ext' h (hr.distributionNamed _)) (Nat.le_refl _) (Nat.le_refl _) ?_
    rintro d s1 h1 - ⟨hd, -⟩
    cases d with
    | none => exact .throw h1 (by simp)
    | some d => exact addDistribution_fin g h1 (ho _ _ hd)
  | importModule m x =>
    refine fin ?_
    unfold importModule
    refine .bind (Fin2.findModule h) (Nat.le_refl _) (Nat.le_refl _) ?_
    intro r s1 h1 _ _
    refine .bind (a1 := top U) (b1 := b) (Q1 := fun _ _ => True) ?_ (Nat.le_refl _) (Nat.le_refl _) ?_
    · cases r with
      | some m => exact .pure h1 trivial
      | none => exact (folTop' g h1 ho).mono (Nat.le_refl _) (Nat.le_refl _) id fun _ _ _ => trivial
    intro m s2 h2 _ _
    refine .bind (Fin2.addEdge h2) (Nat.le_refl _) (Nat.le_refl _) ?_
    intro _ s3 h3 _ _
    exact .pure h3 trivial
  | runStack => exact fin (g.runStack h)
  | addExcludes l =>
    have := At.excludes h l
    exact fin (f := fun _ => none) (Fin2.modify (f := fun s => l.foldl addExclude s) this.1 this.2.1 this.2.2)
  | addExcludesStr x => exact .throw h (by simp)
  | addImplies l =>
    have := At.implies h ho
    exact fin (f := fun _ => none) (Fin2.modify (f := fun s => l.foldl addImply s) this.1 this.2.1 this.2.2)
  | addEdge x y d => exact fin (Fin2.addEdge h)
  | addRoot x => exact fin (Fin2.addRoot h)
  | _ => exact absurd ho id

theorem op_fin (hr : env.Returns) (g : TGood env U c n) (h : At env U (top U) b s) {o : ApiOp}
    (ho : OpOk env U o) :
    Fin2 env U (top U) b (R U b + 1 ≤ n + 1) (fun _ _ => True) s (opBody env c o s) := by
  have := api_fin hr g h ho
  unfold opBody
  cases hb : apiBody env c o s with
  | mk r s1 =>
    rw [hb] at this
    cases r with
    | ok x => exact this.mono (Nat.le_refl _) (Nat.le_refl _) (by omega) fun _ _ h => h
    | error e => exact ⟨this.at_.event _, ⟨this.ext.nodes, this.ext.seen⟩, fun hR => this.fuel (by omega), by simp⟩

end

theorem good_zero : TGood env U (callsZero W) 0 := by
  have ex : ∀ {α} {a b : Nat} {ok : Prop} {Q : α → St W → Prop} {s : St W}, At env U a b s → ¬ ok →
      Fin2 env U a b ok Q s (M.throw .fuel s) := fun h hok => .exhausted h hok
  refine { findOrLoad := ?_, implied := ?_, loadModule := ?_, createMissing := ?_, callMissing := ?_, runStack := ?_, callPost := ?_, op := ?_ }
  · intro a b s i x lm h _; exact ex h (by unfold D; omega)
  · intro a b s i x h _; exact ex h (by unfold DI; omega)
  · intro a b s i x h _; exact ex h (by omega)
  · intro a b s i x h _
    exact ⟨ex h (by omega), fun _ _ e he => by simp [callsZero, M.throw] at he; exact he.symm⟩
  · intro a b s idx i x h _
    refine ⟨ex h (by omega), fun _ => ⟨?_, ?_, rfl⟩⟩
    · intro y hy; simp [callsZero, M.throw] at hy
    · intro e he; simp [callsZero, M.throw] at he; exact he.symm
  · intro b s h; exact ex h (by unfold R; omega)
  · intro b0 b s idx m h hb _ _ _; exact ex (h.mono (Nat.le_refl _) hb) (by omega)
  · intro b s o h _; exact ex h (by omega)

theorem calls_fin (hr : env.Returns) (hk : env.KeepsFakes) (hF : FiniteImports env U) (n : Nat) :
    TGood env U (calls env n) n := by
  induction n with
  | zero => exact good_zero
  | succ n g =>
    exact
      { findOrLoad := fun h hn => findOrLoad_fin hF g.toFGood h hn _ _
        implied := fun h hn => implied_fin hF g.toFGood h hn _
        loadModule := fun h hn => loadModule_fin hr hk hF g.toFGood h hn _
        createMissing := fun h hn => createMissing_fin g.toFGood h hn _
        callMissing := fun h hn => callMissing_fin hr g.toFGood h hn _ _
        runStack := fun h => runStack_fin g hF h
        callPost := fun h hb hb0 hm hs => callPost_fin hr g h hb hb0 hm hs
        op := fun h ho => op_fin hr g h ho }

theorem interp_at {n : Nat} (g : TGood env U (calls env n) n) {p : Hook W} (hp : p.Only (OpOk env U))
    (h : At env U (top U) b s) : At env U (top U) b (interp (calls env n) p s).2 := by
  induction hp generalizing s with
  | ret r => exact h
  | raise e => exact h
  | look _ ih => exact ih s (h.event _)
  | setWorld _ ih => exact ih (h.world _)
  | call ho _ ih =>
    have h1 := Fin2.attempt (g.op h ho)
    unfold interp M.bind
    cases hm : M.attempt ((calls env n).op _) s with
    | mk r s1 =>
      rw [hm] at h1
      cases r with
      | ok x => exact ih x h1.at_
      | error e => exact h1.at_

theorem init_at (w : W) {stdlib : List (Str × Implies)} (ht : TableOk U stdlib) (builtin : Bool) :
    At env U (top U) (nodeCost U * U.names.length) (initState w stdlib builtin) := by
  have key : ∀ l : List (Str × Implies), TableOk U l → ∀ s : St W, s.nodes = [] → s.stack = [] →
      (∀ x v, x ∈ U.names → s.lazy x = some v → ImpliesOk U v) → s.missHooks = [] → s.postHooks = [] →
      let s' := l.foldl addImply s
      s'.nodes = [] ∧ s'.stack = [] ∧ (∀ x v, x ∈ U.names → s'.lazy x = some v → ImpliesOk U v) ∧
        s'.missHooks = [] ∧ s'.postHooks = [] := by
    intro l
    induction l with
    | nil => intro _ s h1 h2 h3 h4 h5; exact ⟨h1, h2, h3, h4, h5⟩
    | cons p l ih =>
      intro hl s h1 h2 h3 h4 h5
      refine ih (fun q hq => hl q (List.mem_cons_of_mem _ hq)) (addImply s p) ?_ ?_
        (addImply_table h3 (hl p (by simp))) ?_ ?_ <;> (unfold addImply; split <;> assumption)
  obtain ⟨h1, h2, h3, h4, h5⟩ := key stdlib ht
    { world := w, lazy := fun k => if k = c!"__main__" then some .excluded else none } rfl rfl
    (by intro x v _ hv; simp only [] at hv; split at hv <;> cases hv; trivial) rfl rfl
  unfold initState
  simp only []
  have hc : ∀ s : St W, s.stack = [] → work U s ≤ nodeCost U * U.names.length := by
    intro s hs
    unfold Term.work absent
    rw [hs]
    simpa using Nat.mul_le_mul_left (nodeCost U) (List.countP_le_length (p := fun x => !s.has x) (l := U.names))
  split
  · exact .topDepth ⟨by simp only [h1]; simp, h3, by simp only [h2]; simp, .inr rfl, .inr rfl⟩ (hc _ h2)
  · exact .topDepth ⟨by simp only [h1]; simp, h3, by simp only [h2]; simp, .inl h4, .inl h5⟩ (hc _ h2)

end
end Verif.Term
