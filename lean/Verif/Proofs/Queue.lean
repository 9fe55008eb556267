import Verif.Proofs.Structure
import Verif.Spec.QueueSpec
/-! # Invariants of the work queue -/
namespace Verif
open Spec
variable {W : Type}

theorem impFound_append (id i) (l l' : List Event) :
    impFound id i (l ++ l') = impFound id i l + impFound id i l' := by
  induction l with
  | nil => simp [impFound]
  | cons e l ih => cases e <;> simp [impFound, ih] <;> omega

/-- The post-processing of `a` comes after the statement `b` of the same node. -/
def Bad (a b : Item) : Prop := ∃ id, isImpOf id a = true ∧ isPp id b = true

structure Queue (s : St W) : Prop where
  pp : ∀ id, ppPending id (pending s) + ppStarted id s.log = if id ∈ s.seen then 1 else 0
  seen : ∀ id, id ∈ s.seen ↔ Scanned id s.log
  imp : ∀ id i, impPending id i (pending s) + impStarted id i s.log = impFound id i s.log
  edge : ∀ id i t, Event.imported id i t ∈ s.log → ∃ as, (id, t, fromImportInfo i false as) ∈ s.edges ∧
    (as = i.importModule.asname ∨ (i.importLevel ≠ 0 ∧ as = none))
  edgeSeen : ∀ l g e r l', s.log = l ++ .looked g e r :: l' → ∀ id i t, Event.imported id i t ∈ l →
    ∃ as, (id, t, fromImportInfo i false as) ∈ e ∧
    (as = i.importModule.asname ∨ (i.importLevel ≠ 0 ∧ as = none))

/-- Statements that were started are completed or being executed, unless something failed. -/
def Done (β : List Busy) (s : St W) : Prop :=
  Event.failed ∉ s.log → ∀ id i, impStarted id i s.log = impDone id i s.log + impPending id i (β.map Prod.fst)

/-- Post-processing waits below the statements of its node, and was only started when these were
completed. -/
structure Order (s : St W) : Prop where
  order : (pending s).Pairwise (fun a b => ¬ Bad a b)
  done : ∀ l n l', s.log = l ++ .started (.pp n) :: l' → Event.failed ∉ l →
    ∀ i, impFound n.ident i l = impDone n.ident i l

theorem append_single_split {α : Type} {l l1 l2 : List α} {x y : α} (h : l ++ [x] = l1 ++ y :: l2) :
    (l2 = [] ∧ l1 = l ∧ x = y) ∨ ∃ l2', l2 = l2' ++ [x] ∧ l = l1 ++ y :: l2' := by
  rcases List.eq_nil_or_concat l2 with rfl | ⟨l2', z, rfl⟩
  · left
    have := List.append_inj' h rfl
    simp at this
    exact ⟨rfl, this.1.symm, this.2⟩
  · right
    rw [List.concat_eq_append] at *
    have h' : l ++ [x] = (l1 ++ y :: l2') ++ [z] := by simpa using h
    have := List.append_inj' h' rfl
    simp at this
    exact ⟨l2', by simp [this.2], this.1⟩

/-- Hooks are only called for nodes whose post-processing was started. -/
structure CallsOk (β : List Busy) (s : St W) : Prop where
  busy : ∀ n k, (Item.pp n, k) ∈ β → Event.started (.pp n) ∈ s.log
  calls : ∀ l h id l', s.log = l ++ .called h id :: l' → ∃ n, n.ident = id ∧ Event.started (.pp n) ∈ l

theorem CallsOk.same {β} {s s' : St W} (c : CallsOk β s) (h : s'.log = s.log) : CallsOk β s' :=
  ⟨by rw [h]; exact c.busy, by rw [h]; exact c.calls⟩

theorem CallsOk.snoc {β} {s s' : St W} {e : Event} (c : CallsOk β s) (h : s'.log = s.log ++ [e])
    (he : ∀ h id, e ≠ .called h id) : CallsOk β s' := by
  refine ⟨fun n k hm => by rw [h]; exact List.mem_append_left _ (c.busy n k hm), ?_⟩
  intro l h' id l' hl
  rw [h] at hl
  rcases append_single_split hl with ⟨_, _, h⟩ | ⟨l2, _, hl2⟩
  · exact absurd h (he _ _)
  · exact c.calls l h' id l2 hl2

theorem CallsOk.drop {β x} {s : St W} (c : CallsOk (x :: β) s) : CallsOk β s :=
  ⟨fun n k hm => c.busy n k (List.mem_cons_of_mem _ hm), c.calls⟩

def QI (k : Bool) (β : List Busy) (s : St W) : Prop :=
  (Queue s ∧ Done β s ∧ (k = true → Order s)) ∧ CallsOk β s
def QE (k : Bool) (β : List Busy) (s : St W) : Prop :=
  (Queue s ∧ (k = true → Order s)) ∧ CallsOk β s
def QRun (k : Bool) (β : List Busy) : Prop := k = true → ∀ it ∈ β, isAnyImp it.1 = false

/-- State changes that do not concern the queue. -/
structure SameQueue (s s' : St W) : Prop where
  pending : pending s' = pending s
  seen : s'.seen = s.seen
  log : s'.log = s.log
  edges : ∀ e ∈ s.edges, e ∈ s'.edges

theorem QI.same {k β} {s s' : St W} (h : QI k β s) (e : SameQueue s s') : QI k β s' := by
  obtain ⟨⟨q, d, o⟩, c⟩ := h
  refine ⟨⟨⟨?_, ?_, ?_, ?_, ?_⟩, ?_, ?_⟩, c.same e.log⟩
  · rw [e.pending, e.seen, e.log]; exact q.pp
  · rw [e.seen, e.log]; exact q.seen
  · rw [e.pending, e.log]; exact q.imp
  · rw [e.log]; intro id i t h
    obtain ⟨as, h1, h2⟩ := q.edge id i t h
    exact ⟨as, e.edges _ h1, h2⟩
  · rw [e.log]; exact q.edgeSeen
  · unfold Done; rw [e.log]; exact d
  · intro hk
    refine ⟨?_, ?_⟩
    · rw [e.pending]; exact (o hk).order
    · rw [e.log]; exact (o hk).done

/-- Events that say nothing about work items. -/
def Neutral : Event → Prop
  | .called _ _ | .asked _ _ _ | .failed => True
  | _ => False

theorem neutral_counts {e : Event} (h : Neutral e) : (∀ f, isStart f e = false) ∧
    (∀ id i, isImported id i e = false) ∧ (∀ id i, impFound id i [e] = 0) ∧
    (∀ id infos, e ≠ .scheduled id infos) := by
  cases e <;> simp [Neutral, isStart, isImported, impFound] at *

theorem Queue.event {s : St W} {e : Event} (q : Queue s) (h : Neutral e) : Queue (s.event e) := by
  obtain ⟨h1, h2, h3, h4⟩ := neutral_counts h
  refine ⟨?_, ?_, ?_, ?_, ?_⟩
  · intro id
    have h : ppStarted id (s.log ++ [e]) = ppStarted id s.log := by simp [ppStarted, h1]
    show ppPending id (pending s) + ppStarted id (s.log ++ [e]) = _
    rw [h]; exact q.pp id
  · intro id
    rw [show (s.event e).seen = s.seen from rfl, q.seen id]
    simp only [Scanned, St.event, List.mem_append, List.mem_singleton]
    constructor
    · rintro ⟨i, hi⟩; exact ⟨i, .inl hi⟩
    · rintro ⟨i, hi | hi⟩
      · exact ⟨i, hi⟩
      · exact absurd hi.symm (h4 _ _)
  · intro id i
    have := q.imp id i
    simp only [St.event, impStarted, pending, List.countP_append, impFound_append, h3] at *
    simpa [h1] using this
  · intro id i t hm
    simp only [St.event, List.mem_append, List.mem_singleton] at hm
    rcases hm with hm | rfl
    · exact q.edge id i t hm
    · simp [Neutral] at h
  · intro l g ed r l' hl id i t hm
    rcases append_single_split hl with ⟨_, _, rfl⟩ | ⟨l2, _, hl2⟩
    · simp [Neutral] at h
    · exact q.edgeSeen l g ed r l2 hl2 id i t hm

theorem Order.event {s : St W} {e : Event} (o : Order s) (h : ∀ n, e ≠ .started (.pp n)) :
    Order (s.event e) := by
  refine ⟨o.order, ?_⟩
  intro l n l' hl hf i
  rcases append_single_split hl with ⟨_, _, rfl⟩ | ⟨l2, _, hl2⟩
  · exact absurd rfl (h n)
  · exact o.done l n l2 hl2 hf i

theorem QI.event {k β} {s : St W} {e : Event} (h : QI k β s) (he : Neutral e) (_hf : e ≠ .failed)
    (hc : ∀ h id, e ≠ .called h id) : QI k β (s.event e) := by
  obtain ⟨⟨q, d, o⟩, c⟩ := h
  obtain ⟨h1, h2, h3, h4⟩ := neutral_counts he
  refine ⟨⟨q.event he, ?_, fun hk => (o hk).event (by intro n hn; subst hn; simp [Neutral] at he)⟩,
    c.snoc rfl hc⟩
  intro hfl id i
  have := d (by intro hm; exact hfl (by simp [St.event, hm])) id i
  simp only [St.event, impStarted, impDone, List.countP_append] at *
  simpa [h1, h2] using this

theorem schedule_pending (s : St W) (n : Node) (infos) : pending (s.schedule n infos) =
    pending s ++ (if n.ident ∈ s.seen then [] else [.pp n]) ++ infos.map (Item.imp n) := by
  unfold St.schedule pending
  simp only []
  split <;> simp

theorem schedule_seen (s : St W) (n : Node) (infos) : (s.schedule n infos).seen =
    if n.ident ∈ s.seen then s.seen else n.ident :: s.seen := by
  unfold St.schedule
  simp only []
  split <;> simp

theorem schedule_edges (s : St W) (n : Node) (infos) : (s.schedule n infos).edges = s.edges := by
  unfold St.schedule
  simp only []
  split <;> simp

theorem countP_map_imp_pp (id : Str) (n : Node) (l : List ImportInfo) :
    (l.map (Item.imp n)).countP (isPp id) = 0 := by
  induction l with
  | nil => rfl
  | cons x l ih => simp [ih, isPp]

theorem countP_map_imp (id : Str) (j : ImportInfo) (n : Node) (l : List ImportInfo) :
    (l.map (Item.imp n)).countP (isImp id j) = if n.ident = id then l.count j else 0 := by
  induction l with
  | nil => simp
  | cons x l ih =>
    simp only [List.map_cons, List.countP_cons, ih, List.count_cons, isImp, Bool.and_eq_true, beq_iff_eq]
    by_cases h : n.ident = id <;> simp [h]

theorem no_imp_of_unseen {s : St W} (q : Queue s) {id : Str} (h : id ∉ s.seen) :
    ∀ it ∈ pending s, isImpOf id it = false := by
  intro it hit
  cases it with
  | imp n i =>
    simp only [isImpOf, beq_eq_false_iff_ne]
    intro he
    have h1 := q.imp id i
    have h2 : 0 < impPending id i (pending s) := by
      unfold impPending
      rw [List.countP_pos_iff]
      exact ⟨_, hit, by simp [isImp, he]⟩
    have h3 : 0 < impFound id i s.log := by omega
    have h4 : ∀ l : List Event, 0 < impFound id i l → Scanned id l := by
      intro l
      induction l with
      | nil => simp [impFound]
      | cons e l ih =>
        intro hp
        have key : (∃ infos, e = .scheduled id infos) ∨ 0 < impFound id i l := by
          cases e with
          | scheduled id' infos =>
            by_cases hid : id' = id
            · exact .inl ⟨infos, by rw [hid]⟩
            · simp [impFound, hid] at hp; exact .inr hp
          | _ => exact .inr hp
        rcases key with ⟨infos, rfl⟩ | key
        · exact ⟨infos, by simp⟩
        · obtain ⟨infos, hm⟩ := ih key
          exact ⟨infos, by simp [hm]⟩
    exact h ((q.seen id).mpr (h4 _ h3))
  | _ => rfl

theorem QI.schedule {k β} {s : St W} (h : QI k β s) (n : Node) (infos : List ImportInfo) :
    QI k β (s.schedule n infos) := by
  obtain ⟨⟨q, d, o⟩, c⟩ := h
  refine ⟨⟨⟨?_, ?_, ?_, ?_, ?_⟩, ?_, ?_⟩, c.snoc (log_schedule s n infos) (by simp)⟩
  · intro id
    have := q.pp id
    simp only [ppPending, ppStarted, schedule_pending, log_schedule, List.countP_append,
      countP_map_imp_pp, schedule_seen] at *
    by_cases h1 : n.ident ∈ s.seen
    · simp [h1, isStart, this]
    · by_cases h2 : n.ident = id
      · subst h2
        simp only [h1, if_false] at this ⊢
        simp [isStart, isPp]; omega
      · have h3 : ¬ id = n.ident := fun h => h2 h.symm
        simp [h1, isStart, isPp, h2, h3] at this ⊢; exact this
  · intro id
    rw [schedule_seen, log_schedule]
    have := q.seen id
    unfold Scanned at *
    simp only [List.mem_append, List.mem_singleton, Event.scheduled.injEq]
    split
    · rename_i h1
      constructor
      · intro h2; obtain ⟨i, hi⟩ := this.mp h2; exact ⟨i, .inl hi⟩
      · rintro ⟨i, hi | hi⟩
        · exact this.mpr ⟨i, hi⟩
        · rw [hi.1]; exact h1
    · rename_i h1
      constructor
      · intro h2
        rcases List.mem_cons.mp h2 with rfl | h2
        · exact ⟨infos, .inr ⟨rfl, rfl⟩⟩
        · obtain ⟨i, hi⟩ := this.mp h2; exact ⟨i, .inl hi⟩
      · rintro ⟨i, hi | hi⟩
        · exact List.mem_cons_of_mem _ (this.mpr ⟨i, hi⟩)
        · rw [hi.1]; exact List.mem_cons_self
  · intro id i
    have := q.imp id i
    simp only [impPending, impStarted, schedule_pending, log_schedule, List.countP_append,
      countP_map_imp, impFound_append] at *
    have e1 : (if n.ident ∈ s.seen then [] else [Item.pp n]).countP (isImp id i) = 0 := by
      split <;> simp [isImp]
    rw [e1]
    simp only [impFound, isStart, List.countP_cons, List.countP_nil]
    split <;> simp_all <;> omega
  · intro id i t hm
    rw [log_schedule] at hm
    simp at hm
    rw [schedule_edges]
    exact q.edge id i t hm
  · intro l g ed r l' hl id i t hm
    rw [log_schedule] at hl
    rcases append_single_split hl with ⟨_, _, h⟩ | ⟨l2, _, hl2⟩
    · simp at h
    · exact q.edgeSeen l g ed r l2 hl2 id i t hm
  · intro hf id i
    rw [log_schedule] at *
    have := d (by intro hm; exact hf (by simp [hm])) id i
    simp only [impStarted, impDone, List.countP_append] at *
    simpa [isStart, isImported] using this
  · intro hk
    refine ⟨?_, ?_⟩
    · rw [schedule_pending, List.append_assoc, List.pairwise_append]
      refine ⟨(o hk).order, ?_, ?_⟩
      · rw [List.pairwise_append]
        refine ⟨by split <;> simp, ?_, ?_⟩
        · rw [List.pairwise_map]
          refine List.pairwise_of_forall fun a b => ?_
          rintro ⟨id, h1, h2⟩
          simp [isPp] at h2
        · intro a _ b hb
          simp only [List.mem_map] at hb
          obtain ⟨j, _, rfl⟩ := hb
          rintro ⟨id, h1, h2⟩
          simp [isPp] at h2
      · intro a ha b hb
        simp only [List.mem_append, List.mem_map] at hb
        rcases hb with hb | ⟨j, _, rfl⟩
        · split at hb
          · simp at hb
          · rename_i h1
            simp at hb; subst hb
            rintro ⟨id, h2, h3⟩
            simp [isPp] at h3; subst h3
            rw [no_imp_of_unseen q h1 a ha] at h2
            simp at h2
        · rintro ⟨id, h1, h2⟩
          simp [isPp] at h2
    · intro l m l' hl hf i
      rw [log_schedule] at hl
      rcases append_single_split hl with ⟨_, _, h⟩ | ⟨l2, _, hl2⟩
      · simp at h
      · exact (o hk).done l m l2 hl2 hf i

theorem QI.pop {k β} {s : St W} {st : List Item} {it : Item} (hr : QRun k β) (h : QI k β s)
    (hst : s.stack = st ++ [it]) :
    QI k ((it, 0) :: β) { s with stack := st, log := s.log ++ [.started it] } := by
  obtain ⟨⟨q, d, o⟩, c⟩ := h
  have hp : pending s = s.hidden ++ st ++ [it] := by simp [pending, hst]
  have c' : CallsOk β { s with stack := st, log := s.log ++ [.started it] } := c.snoc rfl (by simp)
  refine ⟨⟨⟨?_, ?_, ?_, ?_, ?_⟩, ?_, ?_⟩, ⟨?_, c'.calls⟩⟩
  rotate_right
  · intro n k hm
    rcases List.mem_cons.mp hm with hm | hm
    · simp only [Prod.mk.injEq] at hm
      rw [hm.1]; simp
    · exact c'.busy n k hm
  · intro id
    have := q.pp id
    rw [hp] at this
    simp only [ppPending, ppStarted, pending, List.countP_append, List.countP_cons, List.countP_nil,
      isStart] at *
    by_cases hb : isPp id it = true <;> simp [hb] at * <;> omega
  · intro id
    have := q.seen id
    unfold Scanned at *
    simpa using this
  · intro id i
    have := q.imp id i
    rw [hp] at this
    simp only [impPending, impStarted, pending, List.countP_append, List.countP_cons, List.countP_nil,
      isStart, impFound_append, impFound] at *
    by_cases hb : isImp id i it = true <;> simp [hb] at * <;> omega
  · intro id i t hm
    simp at hm
    exact q.edge id i t hm
  · intro l g ed r l' hl id i t hm
    rcases append_single_split hl with ⟨_, _, h⟩ | ⟨l2, _, hl2⟩
    · simp at h
    · exact q.edgeSeen l g ed r l2 hl2 id i t hm
  · intro hf id i
    have := d (by intro hm; exact hf (by simp [hm])) id i
    simp only [impStarted, impDone, impPending, List.countP_append, List.countP_cons, List.countP_nil,
      List.map_cons, isStart, isImported] at *
    by_cases hb : isImp id i it = true <;> simp [hb] at * <;> omega
  · intro hk
    have ho := (o hk).order
    rw [hp, List.pairwise_append] at ho
    refine ⟨ho.1, ?_⟩
    intro l n l' hl hf i
    rcases append_single_split hl with ⟨_, rfl, h⟩ | ⟨l2, _, hl2⟩
    · simp at h; subst h
      have h1 := q.imp n.ident i
      have h2 := d hf n.ident i
      have h3 : impPending n.ident i (pending s) = 0 := by
        rw [hp]
        unfold impPending
        rw [List.countP_eq_zero]
        intro a ha hb
        rw [List.mem_append] at ha
        rcases ha with ha | ha
        · refine ho.2.2 a ha (.pp n) (by simp) ⟨n.ident, ?_, by simp [isPp]⟩
          cases a <;> simp [isImp, isImpOf] at *
          exact hb.1
        · simp at ha; subst ha; simp [isImp] at hb
      have h4 : impPending n.ident i (β.map Prod.fst) = 0 := by
        unfold impPending
        rw [List.countP_eq_zero]
        intro a ha hb
        obtain ⟨x, hx, rfl⟩ := List.mem_map.mp ha
        have := hr hk x hx
        cases hx1 : x.1 <;> simp [isImp, isAnyImp, hx1] at *
      omega
    · exact (o hk).done l n l2 hl2 hf i

theorem QI.weaken {k β it j} {s : St W} (h : QI k ((it, j) :: β) s) (hi : ∀ id i, isImp id i it = false) :
    QI k β s := by
  refine ⟨⟨h.1.1, ?_, h.1.2.2⟩, h.2.drop⟩
  intro hf id i
  have := h.1.2.1 hf id i
  simpa [impPending, List.countP_cons, hi] using this

theorem Queue.imported {s : St W} {id : Str} {i : ImportInfo} {t : Str} {st : List Item} (q : Queue s)
    (hpp : ∀ id, ppPending id (s.hidden ++ st) = ppPending id (pending s))
    (himp : ∀ id i, impPending id i (s.hidden ++ st) = impPending id i (pending s))
    (he : ∃ as, (id, t, fromImportInfo i false as) ∈ s.edges ∧
      (as = i.importModule.asname ∨ (i.importLevel ≠ 0 ∧ as = none))) :
    Queue { s with stack := st, log := s.log ++ [.imported id i t] } := by
  refine ⟨?_, ?_, ?_, ?_, ?_⟩
  · intro id'
    have := q.pp id'
    simp only [ppStarted, List.countP_append, pending] at *
    rw [hpp]
    simpa [isStart, pending] using this
  · intro id'
    have := q.seen id'
    unfold Scanned at *
    simpa using this
  · intro id' i'
    have := q.imp id' i'
    simp only [impStarted, List.countP_append, pending, impFound_append] at *
    rw [himp]
    simpa [isStart, impFound, pending] using this
  · intro id' i' t' hm
    simp at hm
    rcases hm with hm | ⟨rfl, rfl, rfl⟩
    · exact q.edge id' i' t' hm
    · exact he
  · intro l g ed r l' hl id i t hm
    rcases append_single_split hl with ⟨_, _, h⟩ | ⟨l2, _, hl2⟩
    · simp at h
    · exact q.edgeSeen l g ed r l2 hl2 id i t hm

theorem QI.imported {k β j} {s : St W} {n : Node} {i : ImportInfo} {t : Str} {st : List Item}
    (h : QI k ((.imp n i, j) :: β) s)
    (hpp : ∀ id, ppPending id (s.hidden ++ st) = ppPending id (pending s))
    (himp : ∀ id i, impPending id i (s.hidden ++ st) = impPending id i (pending s))
    (hord : k = true → (s.hidden ++ st).Pairwise (fun a b => ¬ Bad a b))
    (he : ∃ as, (n.ident, t, fromImportInfo i false as) ∈ s.edges ∧
      (as = i.importModule.asname ∨ (i.importLevel ≠ 0 ∧ as = none))) :
    QI k β { s with stack := st, log := s.log ++ [.imported n.ident i t] } := by
  obtain ⟨⟨q, d, o⟩, c⟩ := h
  refine ⟨⟨q.imported hpp himp he, ?_, ?_⟩, c.drop.snoc rfl (by simp)⟩
  · intro hf id' i'
    have := d (by intro hm; exact hf (by simp [hm])) id' i'
    simp only [impStarted, impDone, impPending, List.countP_append, List.countP_cons, List.countP_nil,
      List.map_cons, isStart, isImp, isImported] at *
    by_cases hb : (n.ident == id' && i == i') = true <;> simp [hb] at * <;> omega
  · intro hk
    refine ⟨hord hk, ?_⟩
    intro l n l' hl hf i
    rcases append_single_split hl with ⟨_, _, h⟩ | ⟨l2, _, hl2⟩
    · simp at h
    · exact (o hk).done l n l2 hl2 hf i

theorem queueClosed (k : Bool) :
    Closed (W := W) (fun _ => True) (QI k) (QE k) (QRun k) where
  aAddModule _ := trivial
  toE h := ⟨⟨h.1.1, h.1.2.2⟩, h.2⟩
  world _ h := h.same ⟨rfl, rfl, rfl, fun _ h => h⟩
  addNode n h _ := h.same ⟨rfl, rfl, rfl, fun _ h => h⟩
  addEdge a b d h _ _ := by
    refine h.same ?_
    unfold St.addEdge
    split
    · exact ⟨rfl, rfl, rfl, fun _ h => h⟩
    · exact ⟨rfl, rfl, rfl, fun _ h => List.mem_append_left _ h⟩
  addRoot a h _ := by
    refine h.same ?_
    unfold St.addRoot
    split <;> exact ⟨rfl, rfl, rfl, fun _ h => h⟩
  popExcluded {β s} name h _ _ := QI.schedule
    (h.same (s' := (s.popLazy name).addNode (excludedNode name)) ⟨rfl, rfl, rfl, fun _ h => h⟩) _ _
  popOther name v h _ _ _ := h.same ⟨rfl, rfl, rfl, fun _ h => h⟩
  exclude names _ h := by
    refine foldl_pres (P := QI k _) (fun s a h => ?_) names _ h
    exact h.same ⟨rfl, rfl, rfl, fun _ h => h⟩
  imply l _ h := by
    refine foldl_pres (P := QI k _) (fun s a h => ?_) l _ h
    refine h.same ?_
    unfold addImply
    split <;> exact ⟨rfl, rfl, rfl, fun _ h => h⟩
  schedule n i h := h.schedule n i
  addGlobals _ _ h := h.same ⟨rfl, rfl, rfl, fun _ h => h⟩
  apiAddNode n _ h _ := h.same ⟨rfl, rfl, rfl, fun _ h => h⟩
  apiAddEdge a b d _ h _ _ := by
    refine h.same ?_
    unfold St.addEdge
    split
    · exact ⟨rfl, rfl, rfl, fun _ h => h⟩
    · exact ⟨rfl, rfl, rfl, fun _ h => List.mem_append_left _ h⟩
  apiAddRoot a _ h _ := by
    refine h.same ?_
    unfold St.addRoot
    split <;> exact ⟨rfl, rfl, rfl, fun _ h => h⟩
  apiSchedule n i _ h := h.schedule n i
  looked {β s} h := by
    obtain ⟨⟨q, d, o⟩, c⟩ := h
    refine ⟨⟨⟨?_, ?_, ?_, ?_, ?_⟩, ?_, fun hk => (o hk).event (by simp)⟩, c.snoc rfl (by simp)⟩
    · intro id
      show ppPending id (pending s) + ppStarted id (s.log ++ [_]) = _
      rw [show ppStarted id (s.log ++ [_]) = ppStarted id s.log by simp [ppStarted, isStart]]
      exact q.pp id
    · intro id
      have := q.seen id
      unfold Scanned at *
      simpa [St.event] using this
    · intro id i
      have := q.imp id i
      simp only [St.event, impStarted, pending, List.countP_append, impFound_append] at *
      simpa [isStart, impFound] using this
    · intro id i t hm
      simp [St.event] at hm
      exact q.edge id i t hm
    · intro l g ed r l' hl id i t hm
      rcases append_single_split hl with ⟨_, rfl, h⟩ | ⟨l2, _, hl2⟩
      · simp at h
        obtain ⟨_, rfl, _⟩ := h
        exact q.edge id i t hm
      · exact q.edgeSeen l g ed r l2 hl2 id i t hm
    · intro hf id i
      have := d (by intro hm; exact hf (by simp [St.event, hm])) id i
      simp only [St.event, impStarted, impDone, List.countP_append] at *
      simpa [isStart, isImported] using this
  called {β s k'} h' n h _ := by
    obtain ⟨⟨q, d, o⟩, c⟩ := h
    obtain ⟨h1, h2, h3, h4⟩ := neutral_counts (e := .called h' n.ident) trivial
    refine ⟨⟨q.event trivial, ?_, fun hk => (o hk).event (by simp)⟩, ⟨?_, ?_⟩⟩
    · intro hfl id i
      have := d (by intro hm; exact hfl (by simp [St.event, hm])) id i
      simp only [St.event, impStarted, impDone, List.countP_append] at *
      simpa [h1, h2] using this
    · intro m j hm
      refine List.mem_append_left _ ?_
      rcases List.mem_cons.mp hm with hm | hm
      · simp only [Prod.mk.injEq, Item.pp.injEq] at hm
        rw [hm.1]; exact c.busy n k' (by simp)
      · exact c.busy m j (List.mem_cons_of_mem _ hm)
    · intro l h2 id l' hl
      rcases append_single_split hl with ⟨_, rfl, h⟩ | ⟨l2, _, hl2⟩
      · simp only [Event.called.injEq] at h
        exact ⟨n, h.2, c.busy n k' (by simp)⟩
      · exact c.calls l h2 id l2 hl2
  asked _ _ _ h := h.event trivial (by simp) (by simp)
  failed h := ⟨⟨h.1.1.event trivial, fun hf => absurd (by simp [St.event]) hf,
    fun hk => (h.1.2 hk).event (by simp)⟩, h.2.snoc rfl (by simp)⟩
  missHook _ _ h := h.same ⟨rfl, rfl, rfl, fun _ h => h⟩
  postHook _ _ h := h.same ⟨rfl, rfl, rfl, fun _ h => h⟩
  pushPkg {β s} n name h := by
    obtain ⟨⟨q, d, o⟩, c⟩ := h
    have hp : pending { s with stack := s.stack ++ [.pkg n name] } = pending s ++ [.pkg n name] := by
      simp [pending]
    refine ⟨⟨⟨?_, q.seen, ?_, q.edge, q.edgeSeen⟩, d, ?_⟩, c.same rfl⟩
    · intro id
      rw [hp]
      have := q.pp id
      simpa [ppPending, isPp] using this
    · intro id i
      rw [hp]
      have := q.imp id i
      simpa [impPending, isImp] using this
    · intro hk
      refine ⟨?_, (o hk).done⟩
      rw [hp, List.pairwise_append]
      refine ⟨(o hk).order, by simp, ?_⟩
      rintro a _ b hb ⟨id, h1, h2⟩
      simp at hb; subst hb
      simp [isPp] at h2
  pop hr h hst := h.pop hr hst
  okPp h hk it hit := by
    rcases List.mem_cons.mp hit with rfl | hit
    · rfl
    · exact h hk it hit
  okPkg h hk it hit := by
    rcases List.mem_cons.mp hit with rfl | hit
    · rfl
    · exact h hk it hit
  finishPp _ _ h _ := h.weaken fun _ _ => rfl
  finishPkg _ _ h := h.weaken fun _ _ => rfl
  finishNl _ _ h := h.weaken fun _ _ => rfl
  finishInvalid {β s n i t j} h ha he _ := by
    have hl : i.importLevel ≠ 0 := by
      intro h0
      simp [absoluteName, h0] at ha
    exact h.imported (st := s.stack) (fun _ => rfl) (fun _ _ => rfl) (fun hk => (h.1.2.2 hk).order)
      ⟨none, he, .inr ⟨hl, rfl⟩⟩
  finishImp {β s n i t name j} offset h ha he _ := by
    have hs : s.stack = s.stack.take offset ++ s.stack.drop offset := (List.take_append_drop _ _).symm
    refine h.imported ?_ ?_ ?_ ⟨_, he, .inl rfl⟩
    · intro id
      simp only [ppPending, pending]
      have := congrArg (List.countP (isPp id)) hs
      simp only [List.countP_append] at this
      simp [List.countP_append, isPp]; omega
    · intro id j
      simp only [impPending, pending]
      have := congrArg (List.countP (isImp id j)) hs
      simp only [List.countP_append] at this
      simp [List.countP_append, isImp]; omega
    · intro hk
      have := (h.1.2.2 hk).order
      unfold pending at this
      rw [hs] at this
      simp only [List.pairwise_append, List.mem_append, List.append_assoc, List.mem_singleton] at *
      obtain ⟨h1, ⟨h2, h3, h4⟩, h5⟩ := this
      have nb : ∀ a, ¬ Bad a (.nl n t i) := by rintro a ⟨id, _, hb⟩; simp [isPp] at hb
      have nb' : ∀ a, ¬ Bad (.nl n t i) a := by rintro a ⟨id, hb, _⟩; simp [isImpOf] at hb
      refine ⟨h1, ⟨h2, ⟨by simp, h3, ?_⟩, ?_⟩, ?_⟩
      · rintro a rfl b _; exact nb' b
      · rintro a ha b (rfl | hb)
        · exact nb a
        · exact h4 a ha b hb
      · rintro a ha b (hb | rfl | hb)
        · exact h5 a ha b (.inl hb)
        · exact nb a
        · exact h5 a ha b (.inr hb)
  errItem h := ⟨h.1, h.2.drop⟩
  enter _ h := h.same ⟨by simp [pending], rfl, rfl, fun _ h => h⟩
  exit _ _ h he := h.same ⟨by simp [pending, he], rfl, rfl, fun _ h => h⟩
  exitE {β s0 s} _ _ h he := by
    have hp : pending { s with stack := s0.stack ++ s.stack, hidden := s0.hidden } = pending s := by
      simp [pending, he]
    obtain ⟨⟨q, o⟩, c⟩ := h
    exact ⟨⟨⟨by rw [hp]; exact q.pp, q.seen, by rw [hp]; exact q.imp, q.edge, q.edgeSeen⟩,
      fun hk => ⟨by rw [hp]; exact (o hk).order, (o hk).done⟩⟩, c.same rfl⟩

end Verif
