import Verif.Proofs.Queue
/-! # Which post-processing hooks are called -/
namespace Verif
open Spec
variable {W : Type}

theorem calledFor_append (id) (l l' : List Event) :
    calledFor id (l ++ l') = calledFor id l ++ calledFor id l' := by simp [calledFor]

/-- The node whose post-processing is being executed. -/
def busyPp : Busy → Option Str
  | (.pp n, _) => some n.ident
  | _ => none

theorem busyPp_cons (n : Node) (k : Nat) (β : List Busy) :
    ((Item.pp n, k) :: β).filterMap busyPp = n.ident :: β.filterMap busyPp := rfl

structure Rounds (β : List Busy) (s : St W) : Prop where
  started : ∀ n k, (Item.pp n, k) ∈ β → ppStarted n.ident s.log ≠ 0
  nodup : (β.filterMap busyPp).Nodup
  current : ∀ n k, (Item.pp n, k) ∈ β → calledFor n.ident s.log = s.postHooks.take k
  fresh : ∀ id, ppStarted id s.log = 0 → calledFor id s.log = []
  past : ∀ id, id ∉ β.filterMap busyPp → calledFor id s.log <:+: s.postHooks

def RoundsDone (β : List Busy) (s : St W) : Prop :=
  Event.failed ∉ s.log → ∀ id, id ∉ β.filterMap busyPp → ppStarted id s.log ≠ 0 →
    calledFor id s.log <:+ s.postHooks

def RI (β : List Busy) (s : St W) : Prop := QI false β s ∧ Rounds β s ∧ RoundsDone β s
def RE (β : List Busy) (s : St W) : Prop := QE false β s ∧ Rounds β s

/-- Events that say nothing about post-processing. -/
def NeutralPp : Event → Prop
  | .called _ _ | .started (.pp _) | .failed => False
  | _ => True

theorem neutralPp_counts {e : Event} (h : NeutralPp e) :
    (∀ id, isStart (isPp id) e = false) ∧ (∀ id, calledFor id [e] = []) ∧ e ≠ .failed := by
  cases e with
  | started it => cases it <;> simp [NeutralPp, isStart, isPp, calledFor] at *
  | _ => simp [NeutralPp, isStart, calledFor] at *

/-- Changes that add at most neutral events and keep the hooks. -/
structure SameRounds (s s' : St W) : Prop where
  log : s'.log = s.log ∨ ∃ e, NeutralPp e ∧ s'.log = s.log ++ [e]
  hooks : s'.postHooks = s.postHooks

theorem SameRounds.started {s s' : St W} (h : SameRounds s s') (id) :
    ppStarted id s'.log = ppStarted id s.log := by
  rcases h.log with h | ⟨e, he, h⟩
  · rw [h]
  · rw [h]; simp [ppStarted, (neutralPp_counts he).1]

theorem SameRounds.called {s s' : St W} (h : SameRounds s s') (id) :
    calledFor id s'.log = calledFor id s.log := by
  rcases h.log with h | ⟨e, he, h⟩
  · rw [h]
  · rw [h, calledFor_append, (neutralPp_counts he).2.1]; simp

theorem Rounds.same {β} {s s' : St W} (r : Rounds β s) (h : SameRounds s s') : Rounds β s' := by
  refine ⟨?_, r.nodup, ?_, ?_, ?_⟩
  · intro n k; rw [h.started]; exact r.started n k
  · intro n k; rw [h.called, h.hooks]; exact r.current n k
  · intro id; rw [h.called, h.started]; exact r.fresh id
  · intro id; rw [h.called, h.hooks]; exact r.past id

theorem RoundsDone.same {β} {s s' : St W} (r : RoundsDone β s) (h : SameRounds s s') :
    RoundsDone β s' := by
  intro hf id
  rw [h.called, h.hooks, h.started]
  refine r (fun hm => hf ?_) id
  rcases h.log with h | ⟨e, he, h⟩ <;> rw [h] <;> simp [hm]

/-- Executing or finishing items other than post-processing does not matter. -/
theorem Rounds.drop {β it} {s : St W} (r : Rounds (it :: β) s) (h : busyPp it = none) : Rounds β s := by
  refine ⟨fun n k hm => r.started n k (List.mem_cons_of_mem _ hm), ?_,
    fun n k hm => r.current n k (List.mem_cons_of_mem _ hm), r.fresh, ?_⟩
  · have := r.nodup
    rwa [List.filterMap_cons_none h] at this
  · have := r.past
    rwa [List.filterMap_cons_none h] at this

theorem RoundsDone.drop {β it} {s : St W} (r : RoundsDone (it :: β) s) (h : busyPp it = none) :
    RoundsDone β s := by
  unfold RoundsDone at *
  rwa [List.filterMap_cons_none h] at r

theorem Rounds.add {β it} {s : St W} (r : Rounds β s) (h : busyPp it = none) : Rounds (it :: β) s := by
  have hne : ∀ n k, (Item.pp n, k) ∈ it :: β → (Item.pp n, k) ∈ β := by
    intro n k hm
    rcases List.mem_cons.mp hm with rfl | hm
    · simp [busyPp] at h
    · exact hm
  refine ⟨fun n k hm => r.started n k (hne n k hm), ?_,
    fun n k hm => r.current n k (hne n k hm), r.fresh, ?_⟩
  · rw [List.filterMap_cons_none h]; exact r.nodup
  · rw [List.filterMap_cons_none h]; exact r.past

theorem RoundsDone.add {β it} {s : St W} (r : RoundsDone β s) (h : busyPp it = none) :
    RoundsDone (it :: β) s := by
  unfold RoundsDone at *
  rwa [List.filterMap_cons_none h]

theorem mem_busy {β : List Busy} {n : Node} {k : Nat} (h : (Item.pp n, k) ∈ β) :
    n.ident ∈ β.filterMap busyPp := List.mem_filterMap.mpr ⟨_, h, rfl⟩

theorem ppStarted_snoc (id : Str) (l : List Event) (n : Node) :
    ppStarted id (l ++ [.started (.pp n)]) = ppStarted id l + if n.ident = id then 1 else 0 := by
  simp only [ppStarted, List.countP_append, List.countP_cons, List.countP_nil, isStart, isPp]
  simp

/-- Dropping a finished or aborted round. -/
theorem Rounds.dropPp {β n k} {s : St W} (r : Rounds ((.pp n, k) :: β) s) : Rounds β s := by
  have hn := r.nodup
  rw [busyPp_cons, List.nodup_cons] at hn
  refine ⟨fun m j hm => r.started m j (List.mem_cons_of_mem _ hm), hn.2,
    fun m j hm => r.current m j (List.mem_cons_of_mem _ hm), r.fresh, ?_⟩
  intro id hid
  by_cases h : id = n.ident
  · subst h
    rw [r.current n k (by simp)]
    exact (List.take_prefix _ _).isInfix
  · refine r.past id ?_
    rw [busyPp_cons]
    simp [h, hid]

theorem Rounds.pop {β} {s : St W} {st : List Item} {it : Item} (r : Rounds β s) (q : Queue s)
    (hst : s.stack = st ++ [it]) :
    Rounds ((it, 0) :: β) { s with stack := st, log := s.log ++ [.started it] } := by
  by_cases hp : ∃ n, it = .pp n
  · obtain ⟨n, rfl⟩ := hp
    have h0 : ppStarted n.ident s.log = 0 := by
      have h1 := q.pp n.ident
      have h2 : 0 < ppPending n.ident (pending s) := by
        unfold ppPending
        rw [List.countP_pos_iff]
        exact ⟨.pp n, by simp [pending, hst], by simp [isPp]⟩
      split at h1 <;> omega
    have hnb : n.ident ∉ β.filterMap busyPp := by
      intro hm
      obtain ⟨⟨it, k⟩, hx, hx'⟩ := List.mem_filterMap.mp hm
      cases it with
      | pp m =>
        simp [busyPp] at hx'
        exact r.started m k hx (by rw [hx']; exact h0)
      | _ => simp [busyPp] at hx'
    have hc : ∀ id, calledFor id (s.log ++ [.started (.pp n)]) = calledFor id s.log := by
      intro id; rw [calledFor_append]; simp [calledFor]
    refine ⟨?_, ?_, ?_, ?_, ?_⟩
    · intro m k hm
      show ppStarted m.ident (s.log ++ _) ≠ 0
      rw [ppStarted_snoc]
      rcases List.mem_cons.mp hm with hm | hm
      · simp only [Prod.mk.injEq, Item.pp.injEq] at hm
        rw [hm.1]; simp
      · have := r.started m k hm
        omega
    · rw [busyPp_cons, List.nodup_cons]
      exact ⟨hnb, r.nodup⟩
    · intro m k hm
      show calledFor m.ident (s.log ++ _) = s.postHooks.take k
      rw [hc]
      rcases List.mem_cons.mp hm with hm | hm
      · simp only [Prod.mk.injEq, Item.pp.injEq] at hm
        rw [hm.1, hm.2, r.fresh _ h0]; simp
      · exact r.current m k hm
    · intro id h
      show calledFor id (s.log ++ _) = []
      rw [hc]
      refine r.fresh id ?_
      have h' : ppStarted id (s.log ++ [.started (.pp n)]) = 0 := h
      rw [ppStarted_snoc] at h'
      omega
    · intro id h
      show calledFor id (s.log ++ _) <:+: s.postHooks
      rw [hc]
      refine r.past id ?_
      rw [busyPp_cons] at h
      exact fun hm => h (List.mem_cons_of_mem _ hm)
  · have hb : busyPp (it, 0) = none := by
      cases it <;> simp [busyPp] at *
    refine (r.add hb).same ⟨.inr ⟨_, ?_, rfl⟩, rfl⟩
    cases it <;> simp [NeutralPp] at *

theorem RoundsDone.pop {β} {s : St W} {st : List Item} {it : Item} (r : RoundsDone β s) :
    RoundsDone ((it, 0) :: β) { s with stack := st, log := s.log ++ [.started it] } := by
  by_cases hp : ∃ n, it = .pp n
  · obtain ⟨n, rfl⟩ := hp
    intro hf id hid hst
    rw [busyPp_cons] at hid
    simp only [List.mem_cons, not_or] at hid
    show calledFor id (s.log ++ _) <:+ s.postHooks
    rw [show calledFor id (s.log ++ [.started (.pp n)]) = calledFor id s.log by
      rw [calledFor_append]; simp [calledFor]]
    refine r (fun hm => hf (by simp [hm])) id hid.2 ?_
    have h' : ppStarted id (s.log ++ [.started (.pp n)]) ≠ 0 := hst
    rw [ppStarted_snoc, if_neg (fun h => hid.1 h.symm)] at h'
    simpa using h'
  · have hb : busyPp (it, 0) = none := by
      cases it <;> simp [busyPp] at *
    refine (r.add hb).same ⟨.inr ⟨_, ?_, rfl⟩, rfl⟩
    cases it <;> simp [NeutralPp] at *

theorem same_schedule (s : St W) (n i) : SameRounds s (s.schedule n i) := by
  refine ⟨.inr ⟨_, ?_, log_schedule s n i⟩, ?_⟩
  · trivial
  · unfold St.schedule; simp only []; split <;> rfl

theorem same_refl {s s' : St W} (h1 : s'.log = s.log) (h2 : s'.postHooks = s.postHooks) :
    SameRounds s s' := ⟨.inl h1, h2⟩

theorem RI.same {β} {s s' : St W} (h : RI β s) (hq : QI false β s') (hs : SameRounds s s') :
    RI β s' := ⟨hq, h.2.1.same hs, h.2.2.same hs⟩

theorem roundsClosed : Closed (W := W) ApiOp.NoReg RI RE (fun _ => True) where
  aAddModule _ := trivial
  toE h := ⟨(queueClosed false).toE h.1, h.2.1⟩
  world w h := h.same ((queueClosed false).world w h.1) (same_refl rfl rfl)
  addNode n h hn := h.same ((queueClosed false).addNode n h.1 hn) (same_refl rfl rfl)
  addEdge a b d h ha hb := h.same ((queueClosed false).addEdge a b d h.1 ha hb) (by
    unfold St.addEdge; split <;> exact same_refl rfl rfl)
  addRoot a h ha := h.same ((queueClosed false).addRoot a h.1 ha) (by
    unfold St.addRoot; split <;> exact same_refl rfl rfl)
  popExcluded name h h1 h2 := h.same ((queueClosed false).popExcluded name h.1 h1 h2) (by
    obtain ⟨ha, hb⟩ := same_schedule ((_ : St W).addNode (excludedNode name)) (excludedNode name) []
    exact ⟨ha, hb⟩)
  popOther name v h h1 h2 h3 := h.same ((queueClosed false).popOther name v h.1 h1 h2 h3)
    (same_refl rfl rfl)
  exclude names _ h := h.same ((queueClosed false).exclude names trivial h.1) (by
    refine foldl_pres (P := fun s' => SameRounds _ s') (fun s a h => ?_) names _ (same_refl rfl rfl)
    exact ⟨h.1, h.2⟩)
  imply l _ h := h.same ((queueClosed false).imply l trivial h.1) (by
    refine foldl_pres (P := fun s' => SameRounds _ s') (fun s a h => ?_) l _ (same_refl rfl rfl)
    unfold addImply; split <;> exact ⟨h.1, h.2⟩)
  schedule n i h := h.same ((queueClosed false).schedule n i h.1) (same_schedule _ _ _)
  addGlobals a l h := h.same ((queueClosed false).addGlobals a l h.1) (same_refl rfl rfl)
  apiAddNode n _ h hn := h.same ((queueClosed false).addNode n h.1 hn) (same_refl rfl rfl)
  apiAddEdge a b d _ h ha hb := h.same ((queueClosed false).addEdge a b d h.1 ha hb) (by
    unfold St.addEdge; split <;> exact same_refl rfl rfl)
  apiAddRoot a _ h ha := h.same ((queueClosed false).addRoot a h.1 ha) (by
    unfold St.addRoot; split <;> exact same_refl rfl rfl)
  apiSchedule n i _ h := h.same ((queueClosed false).schedule n i h.1) (same_schedule _ _ _)
  looked {β s} h := h.same ((queueClosed false).looked h.1)
    ⟨.inr ⟨.looked s.nodes s.edges s.roots, trivial, rfl⟩, rfl⟩
  called {β s k} hk n h he := by
    obtain ⟨hq, r, d⟩ := h
    have hsn : ∀ id, ppStarted id (s.log ++ [.called hk n.ident]) = ppStarted id s.log := by
      intro id; simp [ppStarted, isStart]
    have hcn : ∀ id, id ≠ n.ident →
        calledFor id (s.log ++ [.called hk n.ident]) = calledFor id s.log := by
      intro id h
      rw [calledFor_append]
      simp [calledFor, Ne.symm h]
    have hn := r.nodup
    rw [busyPp_cons, List.nodup_cons] at hn
    refine ⟨(queueClosed false).called hk n hq he, ⟨?_, ?_, ?_, ?_, ?_⟩, ?_⟩
    · intro m j hm
      show ppStarted m.ident (s.log ++ _) ≠ 0
      rw [hsn]
      rcases List.mem_cons.mp hm with hm | hm
      · simp only [Prod.mk.injEq, Item.pp.injEq] at hm
        rw [hm.1]; exact r.started n k (by simp)
      · exact r.started m j (List.mem_cons_of_mem _ hm)
    · rw [busyPp_cons, List.nodup_cons]; exact hn
    · intro m j hm
      show calledFor m.ident (s.log ++ _) = s.postHooks.take j
      rcases List.mem_cons.mp hm with hm | hm
      · simp only [Prod.mk.injEq, Item.pp.injEq] at hm
        rw [hm.1, hm.2, calledFor_append, r.current n k (by simp)]
        have hlt : k < s.postHooks.length := by
          rw [List.getElem?_eq_some_iff] at he; exact he.1
        rw [List.take_add_one, he]
        simp [calledFor]
      · rw [hcn]
        · exact r.current m j (List.mem_cons_of_mem _ hm)
        · intro h; exact hn.1 (h ▸ mem_busy hm)
    · intro id h
      have h' : ppStarted id (s.log ++ [.called hk n.ident]) = 0 := h
      show calledFor id (s.log ++ _) = []
      rw [hsn] at h'
      rw [hcn]
      · exact r.fresh id h'
      · rintro rfl
        exact r.started n k (by simp) h'
    · intro id h
      show calledFor id (s.log ++ _) <:+: s.postHooks
      rw [busyPp_cons] at h
      simp only [List.mem_cons, not_or] at h
      rw [hcn id h.1]
      refine r.past id ?_
      rw [busyPp_cons]
      simp [h.1, h.2]
    · intro hf id h hs
      have hs' : ppStarted id (s.log ++ [.called hk n.ident]) ≠ 0 := hs
      show calledFor id (s.log ++ _) <:+ s.postHooks
      rw [busyPp_cons] at h
      simp only [List.mem_cons, not_or] at h
      rw [hcn id h.1]
      rw [hsn] at hs'
      refine d (fun hm => hf (by simp [St.event, hm])) id ?_ hs'
      rw [busyPp_cons]
      simp [h.1, h.2]
  asked a b c h := h.same ((queueClosed false).asked a b c h.1) ⟨.inr ⟨.asked a b c, trivial, rfl⟩, rfl⟩
  failed {β s} h := by
    obtain ⟨q, r⟩ := h
    have hst : ∀ id, ppStarted id (s.event .failed).log = ppStarted id s.log := by
      intro id; simp [ppStarted, St.event, isStart]
    have hc : ∀ id, calledFor id (s.event .failed).log = calledFor id s.log := by
      intro id; simp only [St.event, calledFor_append]; simp [calledFor]
    refine ⟨(queueClosed false).failed q, ⟨?_, r.nodup, ?_, ?_, ?_⟩,
      fun hf => absurd (by simp [St.event]) hf⟩
    · intro n k; rw [hst]; exact r.started n k
    · intro n k; rw [hc]; exact r.current n k
    · intro id; rw [hst, hc]; exact r.fresh id
    · intro id; rw [hc]; exact r.past id
  missHook k _ h := h.same ((queueClosed false).missHook k trivial h.1) (same_refl rfl rfl)
  postHook k hA _ := hA.elim
  pushPkg n name h := h.same ((queueClosed false).pushPkg n name h.1) (same_refl rfl rfl)
  pop _ h hst := ⟨(queueClosed false).pop (by intro h; cases h) h.1 hst, h.2.1.pop h.1.1.1 hst, h.2.2.pop⟩
  okPp := id
  okPkg := id
  finishPp {β s1 s n k} h0 hr h hk := by
    refine ⟨(queueClosed false).finishPp h0.1 trivial h.1 hk, h.2.1.dropPp, ?_⟩
    intro hf id hid hs
    by_cases hn : id = n.ident
    · subst hn
      rw [h.2.1.current n k (by simp)]
      rw [List.getElem?_eq_none_iff] at hk
      rw [List.take_of_length_le hk]
      exact List.suffix_refl _
    · refine h.2.2 hf id ?_ hs
      rw [busyPp_cons]
      simp [hn, hid]
  finishPkg h0 _ h := ⟨(queueClosed false).finishPkg h0.1 trivial h.1, h.2.1.drop rfl, h.2.2.drop rfl⟩
  finishNl h0 _ h := ⟨(queueClosed false).finishNl h0.1 trivial h.1, h.2.1.drop rfl, h.2.2.drop rfl⟩
  finishInvalid {β s n i t k} h ha he hx := by
    have h' : RI β s → _ := fun h => h
    have hs : SameRounds s (s.event (.imported n.ident i t)) := ⟨.inr ⟨_, by exact True.intro, rfl⟩, rfl⟩
    exact ⟨(queueClosed false).finishInvalid h.1 ha he (hx.imp fun _ h => ⟨h.1.1, trivial⟩), (h.2.1.drop rfl).same hs,
      (h.2.2.drop rfl).same hs⟩
  finishImp {β s n i t name k} offset h ha he hx := by
    refine ⟨(queueClosed false).finishImp offset h.1 ha he (hx.imp fun _ h => ⟨h.1.1, trivial⟩), (h.2.1.drop rfl).same ?_,
      (h.2.2.drop rfl).same ?_⟩
    · exact ⟨.inr ⟨_, by exact True.intro, rfl⟩, rfl⟩
    · exact ⟨.inr ⟨_, by exact True.intro, rfl⟩, rfl⟩
  errItem {β s it} h := by
    refine ⟨(queueClosed false).errItem h.1, ?_⟩
    obtain ⟨it, k⟩ := it
    cases it with
    | pp n => exact h.2.dropPp
    | _ => exact h.2.drop rfl
  enter _ h := h.same ((queueClosed false).enter (by intro h; cases h) h.1) (same_refl rfl rfl)
  exit _ h0 h he := h.same ((queueClosed false).exit (by intro h; cases h) h0.1 h.1 he)
    (same_refl rfl rfl)
  exitE _ h0 h he := ⟨(queueClosed false).exitE (by intro h; cases h) h0.1 h.1 he,
    h.2.same (same_refl rfl rfl)⟩

end Verif
