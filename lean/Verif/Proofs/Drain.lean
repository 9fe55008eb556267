import Verif.Proofs.Rounds
/-! # Draining the queue, no lost work, excludes -/
namespace Verif
open Spec
variable {W : Type} {α γ : Type}

theorem M.bind_ok {m : M W α} {f : α → M W γ} {s s' : St W} {b : γ}
    (h : M.bind m f s = (.ok b, s')) : ∃ a s1, m s = (.ok a, s1) ∧ f a s1 = (.ok b, s') := by
  unfold M.bind at h
  cases hm : m s with
  | mk r s1 =>
    rw [hm] at h
    cases r with
    | ok a => exact ⟨a, s1, rfl, h⟩
    | error e => simp at h

theorem M.pure_ok {a b : α} {s s' : St W} (h : M.pure a s = (.ok b, s')) : a = b ∧ s = s' := by
  simpa [M.pure] using h

/-- `_run_stack` only returns with an empty queue. -/
theorem runStack_drains (env : Env W) (n : Nat) {s s' : St W}
    (h : (calls env n).runStack s = (.ok (), s')) : s'.stack = [] := by
  induction n generalizing s s' with
  | zero => simp [calls, callsZero, M.throw] at h
  | succ n ih =>
    have h' : runStackBody env (calls env n) s = (.ok (), s') := h
    obtain ⟨it, s1, h1, h2⟩ := M.bind_ok h'
    cases it with
    | none =>
      obtain ⟨_, rfl⟩ := M.pure_ok h2
      unfold popItem at h1
      cases hl : s.stack.getLast? with
      | none =>
        rw [hl] at h1
        simp at h1
        rw [← h1]; simpa using hl
      | some it => rw [hl] at h1; simp at h1
    | some it =>
      obtain ⟨_, s2, _, h3⟩ := M.bind_ok h2
      exact ih h3

theorem addModule_drains (env : Env W) (n : Nat) {name : Str} {s s' : St W} {r : Node}
    (h : addModule (calls env n) name s = (.ok r, s')) : s'.stack = [] := by
  obtain ⟨_, _, _, h⟩ := M.bind_ok h
  obtain ⟨_, _, _, h⟩ := M.bind_ok h
  obtain ⟨_, _, _, h⟩ := M.bind_ok h
  obtain ⟨_, _, h1, h⟩ := M.bind_ok h
  obtain ⟨_, rfl⟩ := M.pure_ok h
  exact runStack_drains env n h1

theorem forEach_ok {l : List α} {f : α → M W Unit} {s s' : St W} {P : St W → Prop}
    (hP : ∀ a ∈ l, ∀ s s', P s → f a s = (.ok (), s') → P s') (h0 : P s)
    (h : M.forEach l f s = (.ok (), s')) : P s' := by
  induction l generalizing s with
  | nil => obtain ⟨_, rfl⟩ := M.pure_ok h; exact h0
  | cons x l ih =>
    obtain ⟨_, s1, h1, h2⟩ := M.bind_ok h
    exact ih (fun a ha => hP a (List.mem_cons_of_mem _ ha)) (hP x (by simp) s s1 h0 h1) h2

/-- Nothing that waits in `s0` is lost: it still waits or was started since. -/
def NotLost (s0 s : St W) : Prop := ∀ f : Item → Bool,
  (pending s0).countP f + s0.log.countP (isStart f) ≤
    (pending s).countP f + s.log.countP (isStart f)

theorem NotLost.same {s0 s s' : St W} (h : NotLost s0 s) (hp : pending s' = pending s)
    (hl : s'.log = s.log ∨ ∃ e, s'.log = s.log ++ [e]) : NotLost s0 s' := by
  intro f
  have := h f
  rw [hp]
  rcases hl with hl | ⟨e, hl⟩ <;> rw [hl]
  · exact this
  · rw [List.countP_append]; omega

theorem NotLost.more {s0 s s' : St W} (h : NotLost s0 s) {l : List Item}
    (hp : ∀ f, (pending s').countP f = (pending s).countP f + l.countP f)
    (hl : s'.log = s.log ∨ ∃ e, s'.log = s.log ++ [e]) : NotLost s0 s' := by
  intro f
  have := h f
  rw [hp]
  rcases hl with hl | ⟨e, hl⟩ <;> rw [hl]
  · omega
  · rw [List.countP_append]; omega

theorem notLost_schedule {s0 s : St W} (h : NotLost s0 s) (n i) : NotLost s0 (s.schedule n i) :=
  h.more (l := (if n.ident ∈ s.seen then [] else [.pp n]) ++ i.map (Item.imp n))
    (fun f => by rw [schedule_pending, List.append_assoc, List.countP_append])
    (.inr ⟨_, log_schedule _ _ _⟩)

theorem notLostClosed (s0 : St W) : SimplyClosed (NotLost s0) where
  world _ h := h.same rfl (.inl rfl)
  addNode _ h _ := h.same rfl (.inl rfl)
  addEdge _ _ _ h _ _ := by unfold St.addEdge; split <;> exact h.same rfl (.inl rfl)
  addRoot _ h _ := by unfold St.addRoot; split <;> exact h.same rfl (.inl rfl)
  popExcluded {s} name h _ _ := notLost_schedule
    (h.same (s' := (s.popLazy name).addNode (excludedNode name)) rfl (.inl rfl)) _ _
  popOther _ _ h _ _ _ := h.same rfl (.inl rfl)
  exclude _ h := h.same rfl (.inl rfl)
  imply _ h := by unfold addImply; split <;> exact h.same rfl (.inl rfl)
  schedule n i h := notLost_schedule h n i
  addGlobals _ _ h := h.same rfl (.inl rfl)
  looked h := h.same rfl (.inr ⟨_, rfl⟩)
  called _ _ h := h.same rfl (.inr ⟨_, rfl⟩)
  asked _ _ _ h := h.same rfl (.inr ⟨_, rfl⟩)
  failed h := h.same rfl (.inr ⟨_, rfl⟩)
  missHook _ h := h.same rfl (.inl rfl)
  postHook _ h := h.same rfl (.inl rfl)
  pushPkg n name h := h.more (l := [.pkg n name])
    (fun f => by simp only [pending]; rw [← List.append_assoc, List.countP_append]) (.inl rfl)
  pop {s st it} h hst := by
    intro f
    have := h f
    rw [show pending s = s.hidden ++ st ++ [it] by simp [pending, hst]] at this
    simp only [pending, List.countP_append, List.countP_cons, List.countP_nil, isStart] at *
    by_cases hb : f it = true <;> simp [hb] at * <;> omega
  finishInvalid h _ _ := h.same rfl (.inr ⟨_, rfl⟩)
  finishImp {s n i t name} offset h _ _ := h.more (l := [.nl n t i])
    (fun f => by
      have := congrArg (List.countP f) (List.take_append_drop offset s.stack)
      simp only [pending, List.countP_append] at *
      omega) (.inr ⟨_, rfl⟩)
  enter h := h.same (by simp [pending]) (.inl rfl)
  exit _ h he := h.same (by simp [pending, he]) (.inl rfl)

/-- A name that was excluded is excluded until there is a node for it. -/
theorem excludedClosed (name : Str) :
    SimplyClosed (fun s : St W => s.has name = true ∨ s.lazy name = some .excluded) := by
  have hn : ∀ {s : St W} (m : Node), s.has name = true → (s.addNode m).has name = true := by
    intro s m h
    simp only [St.has, St.addNode, List.any_append, Bool.or_eq_true]
    exact .inl h
  have hsch : ∀ (s : St W) m i, (s.schedule m i).has name = s.has name ∧
      (s.schedule m i).lazy = s.lazy := by
    intro s m i
    unfold St.schedule; simp only []; split <;> exact ⟨rfl, rfl⟩
  constructor
  case world => exact fun _ h => h
  case addNode => exact fun m h _ => h.imp (hn m) id
  case addEdge => intro s a b d h _ _; unfold St.addEdge; split <;> exact h
  case addRoot => intro s a h _; unfold St.addRoot; split <;> exact h
  case popExcluded =>
    intro s nm h h1 h2
    rw [(hsch _ _ _).1, (hsch _ _ _).2]
    by_cases he : name = nm
    · left; subst he; simp [St.has, St.addNode, excludedNode]
    · refine h.imp (fun h => hn _ h) fun h => ?_
      simp [St.popLazy, St.addNode, he, h]
  case popOther =>
    intro s nm v h h1 h2 h3
    by_cases he : name = nm
    · subst he
      rcases h with h | h
      · rw [h] at h1; simp at h1
      · rw [h2] at h; simp at h; exact absurd h h3
    · refine h.imp id fun h => ?_
      simp [St.popLazy, he, h]
  case exclude =>
    intro s nm h
    refine h.imp id fun h => ?_
    simp [addExclude, h]
  case imply =>
    intro s p h
    unfold addImply
    split
    · exact h
    · rename_i hne
      refine h.imp id fun h => ?_
      have : name ≠ p.1 := fun he => hne (he ▸ h)
      simp [this, h]
  case schedule => intro s m i h; rw [(hsch _ _ _).1, (hsch _ _ _).2]; exact h
  case addGlobals => exact fun _ _ h => h
  case looked => exact fun h => h
  case called => exact fun _ _ h => h
  case asked => exact fun _ _ _ h => h
  case failed => exact fun h => h
  case missHook => exact fun _ h => h
  case postHook => exact fun _ h => h
  case pushPkg => exact fun _ _ h => h
  case pop => exact fun h _ => h
  case finishInvalid => exact fun h _ _ => h
  case finishImp => exact fun _ h _ _ => h
  case enter => exact fun h => h
  case exit => exact fun _ h _ => h

/-- Outside of `import_package` nothing is set aside. -/
theorem client_hidden (env : Env W) (n : Nat) (p : Hook W) (s : St W) :
    (runClient env n p s).2.hidden = s.hidden :=
  (interp_run (notLostClosed s).closed ((notLostClosed s).good env n) (β := []) trivial
    (Hook.only_true p) s (fun _ => Nat.le_refl _)).1

theorem op_hidden (env : Env W) (n : Nat) (o : ApiOp) (s : St W) :
    ((calls env n).op o s).2.hidden = s.hidden :=
  (((notLostClosed s).good env n).op o [] trivial (.inl trivial) s (fun _ => Nat.le_refl _)).1

theorem initState_fields (w : W) (l b) : (initState w l b).hidden = [] ∧
    (initState w l b).stack = [] ∧ (initState w l b).seen = [] := by
  unfold initState
  simp only []
  have h : ∀ (l : List (Str × Implies)) (s : St W),
      (l.foldl addImply s).hidden = s.hidden ∧ (l.foldl addImply s).stack = s.stack ∧
      (l.foldl addImply s).seen = s.seen := by
    intro l
    induction l with
    | nil => intro s; exact ⟨rfl, rfl, rfl⟩
    | cons p l ih =>
      intro s
      rw [List.foldl_cons]
      have : (addImply s p).hidden = s.hidden ∧ (addImply s p).stack = s.stack ∧
          (addImply s p).seen = s.seen := by unfold addImply; split <;> exact ⟨rfl, rfl, rfl⟩
      exact ⟨(ih _).1.trans this.1, (ih _).2.1.trans this.2.1, (ih _).2.2.trans this.2.2⟩
  split
  · exact h l _
  · exact h l _

theorem init_queue (w : W) (l b) (k : Bool) : QI k [] (initState w l b) := by
  obtain ⟨h1, h2, h3⟩ := initState_fields w l b
  have h4 := (initState_view w l b).2
  have hp : pending (initState w l b) = [] := by simp [pending, h1, h2]
  refine ⟨⟨⟨?_, ?_, ?_, ?_, ?_⟩, ?_, ?_⟩, ⟨by simp, by rw [h4]; simp⟩⟩
  · intro id; rw [hp, h3, h4]; simp [ppPending, ppStarted]
  · intro id; rw [h3, h4]; simp [Scanned]
  · intro id i; rw [hp, h4]; simp [impPending, impStarted, impFound]
  · intro id i t; rw [h4]; simp
  · intro l g e r l'; rw [h4]; simp
  · intro _ id i; rw [h4]; simp [impStarted, impDone, impPending]
  · intro _
    refine ⟨by rw [hp]; simp, ?_⟩
    intro l n l'; rw [h4]; simp

/-- The queue invariant after any client program. -/
theorem client_queue (env : Env W) (n : Nat) (p : Hook W) (w : W) (l b) :
    QI false [] (runClient env n p (initState w l b)).2 :=
  client_pres (queueClosed false) (fun _ _ => Hook.only_true _)
    (fun _ => .inl ⟨(by intro h; cases h), fun _ _ _ => Hook.only_true _⟩) (by intro h; cases h) n
    (Hook.only_true p) _ (init_queue w l b false)

/-- The same with the order, if missing hooks do not run the queue. -/
theorem client_queue_order (env : Env W)
    (hH : ∀ k i n, (env.userMissing k i n).Only ApiOp.NoRun) (n : Nat) (p : Hook W) (w : W) (l b) :
    QI true [] (runClient env n p (initState w l b)).2 :=
  client_pres (queueClosed true) (fun _ _ => Hook.only_true _)
    (fun _ => .inr fun k i n => (hH k i n).mono fun _ h => ⟨trivial, h⟩)
    (by intro _ it h; simp at h) n
    (Hook.only_true p) _ (init_queue w l b true)

theorem init_rounds (w : W) (l b) : RI [] (initState w l b) := by
  have h4 := (initState_view w l b).2
  refine ⟨init_queue w l b false, ⟨by simp, by simp, by simp, ?_, ?_⟩, ?_⟩
  · intro id; rw [h4]; simp [calledFor]
  · intro id; rw [h4]; simp [calledFor]
  · intro _ id; rw [h4]; simp [ppStarted]

/-- Registration of a hook by the client. -/
theorem rounds_register {s : St W} (h : RI [] s) (k : PostHook) :
    RI [] { s with postHooks := k :: s.postHooks } := by
  obtain ⟨q, r, d⟩ := h
  refine ⟨(queueClosed false).postHook k trivial q, ⟨by simp, by simp, by simp, r.fresh, ?_⟩, ?_⟩
  · intro id hid; exact (r.past id hid).trans (List.suffix_cons _ _).isInfix
  · intro hf id hid hs; exact (d hf id hid hs).trans (List.suffix_cons _ _)

/-- The rounds invariant after any client program (hooks do not register hooks; the client
may). -/
theorem client_rounds (env : Env W) (hP : ∀ k n, (env.userPost k n).Only ApiOp.NoReg)
    (hH : ∀ k i n, (env.userMissing k i n).Only ApiOp.NoReg) (n : Nat) (p : Hook W) (s : St W)
    (h : RI [] s) : RI [] (runClient env n p s).2 := by
  have hR := calls_good roundsClosed hP (fun _ => .inl ⟨trivial, hH⟩) n
  unfold runClient
  induction p generalizing s with
  | ret r => exact h
  | raise e => exact h
  | look k ih => exact ih s _ (roundsClosed.looked h)
  | setWorld w k ih => exact ih _ (roundsClosed.world w h)
  | call op k ih =>
    have h1 : RI [] ((calls env n).op op s).2 := by
      by_cases ho : op.NoReg
      · exact (hR.op op [] ho (.inl trivial) s h).2
      · cases op with
        | addPostHook k =>
          cases n with
          | zero => exact h
          | succ n => exact rounds_register h k
        | _ => exact absurd trivial ho
    show RI [] (M.bind (M.attempt ((calls env n).op op)) (fun r => interp (calls env n) (k r)) s).2
    unfold M.bind M.attempt
    cases hq : (calls env n).op op s with
    | mk r s' =>
      rw [hq] at h1
      cases r with
      | ok a => exact ih _ _ h1
      | error e =>
        cases e with
        | fuel => exact h1
        | _ => exact ih _ _ h1

end Verif
