import Verif.Proofs.Stars
import Verif.Proofs.Load
/-!
# Import statements are processed depth first

The import statements of a module that was loaded for an import statement are processed, with
their name lists, before the name list of that statement.
-/
namespace Verif
open M Spec
variable {W : Type}

/-- What loading does to the queue and the log. -/
structure Pushes (s s' : St W) (rest : List Item) (l : List Event) : Prop where
  hidden : s'.hidden = s.hidden
  nodes : s.nodes <+: s'.nodes
  stack : s'.stack = s.stack ++ rest
  log : s'.log = s.log ++ l
  noStart : NoStart l
  noImported : ∀ a i t, Event.imported a i t ∉ l
  pushed : ∀ n infos, Event.scheduled n infos ∈ l → ∀ j ∈ infos, ∃ Y : Node, Y.ident = n ∧ .imp Y j ∈ rest

def PushesTo (s s' : St W) : Prop := ∃ rest l, Pushes s s' rest l

theorem PushesTo.nil {s s' : St W} (h1 : s'.hidden = s.hidden) (h2 : s.nodes <+: s'.nodes)
    (h3 : s'.stack = s.stack) (h4 : s'.log = s.log) : PushesTo s s' :=
  ⟨[], [], h1, h2, by simp [h3], by simp [h4], by simp [NoStart], by simp, by simp⟩

theorem Pushes.trans {a b c : St W} {r r' l l'} (h : Pushes a b r l) (h' : Pushes b c r' l') :
    Pushes a c (r ++ r') (l ++ l') := by
  refine ⟨h'.hidden.trans h.hidden, h.nodes.trans h'.nodes, ?_, ?_, ?_, ?_, ?_⟩
  · rw [h'.stack, h.stack, List.append_assoc]
  · rw [h'.log, h.log, List.append_assoc]
  · intro it hm; exact (List.mem_append.mp hm).elim (h.noStart it) (h'.noStart it)
  · intro a i t hm; exact (List.mem_append.mp hm).elim (h.noImported a i t) (h'.noImported a i t)
  · intro n infos hm j hj
    rcases List.mem_append.mp hm with hm | hm
    · obtain ⟨Y, h1, h2⟩ := h.pushed n infos hm j hj
      exact ⟨Y, h1, List.mem_append_left _ h2⟩
    · obtain ⟨Y, h1, h2⟩ := h'.pushed n infos hm j hj
      exact ⟨Y, h1, List.mem_append_right _ h2⟩

theorem pushes_schedule (s : St W) (n : Node) (i) : ∃ rest, Pushes s (s.schedule n i) rest
    [.scheduled n.ident i] ∧ ∀ j ∈ i, .imp n j ∈ rest := by
  have key : ∃ rest, (s.schedule n i).stack = s.stack ++ rest ∧ ∀ j ∈ i, .imp n j ∈ rest := by
    unfold St.schedule
    simp only []
    split
    · exact ⟨_, rfl, fun j hj => List.mem_map_of_mem hj⟩
    · exact ⟨_, List.append_assoc .., fun j hj => List.mem_append_right _ (List.mem_map_of_mem hj)⟩
  obtain ⟨rest, h1, h2⟩ := key
  refine ⟨rest, ⟨?_, ?_, h1, log_schedule .., ?_, ?_, ?_⟩, h2⟩
  · unfold St.schedule; simp only []; split <;> rfl
  · rw [schedule_nodes]; exact List.prefix_rfl
  · intro it; simp
  · simp
  · intro n' infos hm j hj
    simp at hm
    obtain ⟨rfl, rfl⟩ := hm
    exact ⟨n, rfl, h2 j hj⟩

theorem pushes_rel : LoadRel (PushesTo (W := W)) := by
  refine ⟨?_, ?_, ?_, ?_, ?_, ?_, ?_, ?_⟩
  · exact fun s => .nil rfl List.prefix_rfl rfl rfl
  · rintro a b c ⟨r, l, h⟩ ⟨r', l', h'⟩
    exact ⟨_, _, h.trans h'⟩
  · exact fun s w => .nil rfl List.prefix_rfl rfl rfl
  · intro s e he
    refine ⟨[], [e], rfl, List.prefix_rfl, by simp [St.event], rfl, ?_, ?_, ?_⟩
    · intro it hm; rw [← List.mem_singleton.mp hm] at he; cases he
    · intro _ _ _ hm; rw [← List.mem_singleton.mp hm] at he; cases he
    · intro _ _ hm; rw [← List.mem_singleton.mp hm] at he; cases he
  · exact fun s n _ => .nil rfl (List.prefix_append ..) rfl rfl
  · intro s a b d
    exact .nil (by unfold St.addEdge; split <;> rfl) (by rw [addEdge_nodes]; exact List.prefix_rfl)
      (addEdge_stack ..) (log_addEdge ..)
  · intro s n i
    obtain ⟨rest, h, _⟩ := pushes_schedule s n i
    exact ⟨_, _, h⟩
  · exact fun s n => .nil rfl List.prefix_rfl rfl rfl

/-- An import statement. -/
theorem imp_run {env : Env W} (hM : ∀ k i n, (env.userMissing k i n).Passive) {k : Nat} {m : Node}
    {i : ImportInfo} {s s' : St W} (h : runItem env (calls env k) (.imp m i) s = (.ok (), s')) :
    (∃ t rest l, s'.hidden = s.hidden ∧ s'.stack = s.stack ++ .nl m t i :: rest ∧
      s'.log = s.log ++ (l ++ [.imported m.ident i t.ident]) ∧ NoStart l ∧
      (∀ a i t, Event.imported a i t ∉ l) ∧
      ∀ n infos, Event.scheduled n infos ∈ l → ∀ j ∈ infos, ∃ Y : Node, Y.ident = n ∧ .imp Y j ∈ rest) ∨
    (∃ t rest l, s'.hidden = s.hidden ∧ s'.stack = s.stack ++ rest ∧
      s'.log = s.log ++ (l ++ [.imported m.ident i t.ident]) ∧ NoStart l ∧
      (∀ a i t, Event.imported a i t ∉ l) ∧ (∀ n infos, Event.scheduled n infos ∈ l → infos = []) ∧
      t ∈ s'.nodes ∧ t.isInvalidRel = true) := by
  change processImport (calls env k) m i s = _ at h
  unfold processImport at h
  obtain ⟨a, sa, ha, g1⟩ := M.bind_ok h
  clear h
  obtain ⟨_, rfl⟩ := M.ofExcept_ok ha
  cases a with
  | none =>
    right
    simp only [] at g1
    obtain ⟨r, sb, hb, g2⟩ := M.bind_ok g1
    clear g1
    obtain ⟨rfl, hr, _⟩ := M.findModule_ok hb
    obtain ⟨node, sc, hc, g3⟩ := M.bind_ok g2
    clear g2
    obtain ⟨_, se, he, g4⟩ := M.bind_ok g3
    clear g3
    obtain ⟨_, _, rfl⟩ := M.addEdge_ok he
    cases g4
    have key : ∃ rest l, sc.hidden = sb.hidden ∧ sc.stack = sb.stack ++ rest ∧ sc.log = sb.log ++ l ∧
        NoStart l ∧ (∀ a i t, Event.imported a i t ∉ l) ∧
        (∀ n infos, Event.scheduled n infos ∈ l → infos = []) ∧ node ∈ sc.nodes ∧
        node.isInvalidRel = true := by
      cases r with
      | none =>
        simp only [] at hc
        obtain ⟨_, sd, hd, hc⟩ := M.bind_ok hc
        obtain ⟨_, rfl⟩ := M.addNode_ok hd
        rw [M.bind_schedule] at hc
        obtain ⟨rfl, rfl⟩ := M.pure_ok hc
        obtain ⟨rest, hp, _⟩ := pushes_schedule (sb.addNode (invalidRelNode
          (List.replicate i.importLevel '.' ++ i.importModule.name))) (invalidRelNode
          (List.replicate i.importLevel '.' ++ i.importModule.name)) []
        refine ⟨rest, _, hp.hidden, hp.stack, hp.log, hp.noStart, hp.noImported, ?_, ?_, rfl⟩
        · intro n infos hm; simp at hm; exact hm.2
        · rw [schedule_nodes]; simp [St.addNode]
      | some n =>
        simp only [] at hc
        obtain ⟨_, sd, hd, hc'⟩ := M.bind_ok hc
        obtain ⟨h1, rfl⟩ := M.assert_ok hd
        obtain ⟨rfl, rfl⟩ := M.pure_ok hc'
        exact ⟨[], [], rfl, by simp, by simp, by simp [NoStart], by simp, by simp,
          (find_some hr.symm).1, h1⟩
    obtain ⟨rest, l, h1, h2, h3, h4, h5, h6, h7, h8⟩ := key
    refine ⟨node, rest, l, ?_, ?_, ?_, h4, h5, h6, ?_, h8⟩
    · rw [← h1]; show (St.addEdge ..).hidden = _; unfold St.addEdge; split <;> rfl
    · show (St.addEdge ..).stack = _; rw [addEdge_stack, h2]
    · show (St.addEdge ..).log ++ _ = _; rw [log_addEdge, h3, List.append_assoc]
    · show _ ∈ (St.addEdge ..).nodes; rw [addEdge_nodes]; exact h7
  | some name =>
    left
    simp only [] at g1
    rw [M.bind_get] at g1
    obtain ⟨node, sb, hb, g2⟩ := M.bind_ok g1
    clear g1
    obtain ⟨_, se, he, g3⟩ := M.bind_ok g2
    clear g2
    obtain ⟨_, _, rfl⟩ := M.addEdge_ok he
    cases g3
    have hL := (calls_load pushes_rel env hM k).findOrLoad (some m) name true sa
    rw [hb] at hL
    obtain ⟨rest, l, hP⟩ := hL
    refine ⟨node, rest, l, ?_, ?_, ?_, hP.noStart, hP.noImported, hP.pushed⟩
    · show (St.addEdge ..).hidden = _
      rw [← hP.hidden]; unfold St.addEdge; split <;> rfl
    · show (St.addEdge ..).stack.take _ ++ _ ++ (St.addEdge ..).stack.drop _ = _
      rw [addEdge_stack, hP.stack]
      simp
    · show (St.addEdge ..).log ++ _ = _; rw [log_addEdge, hP.log, List.append_assoc]

/-- The item is the import statement `j` of module `n`. -/
def IsImp (n : Str) (j : ImportInfo) (it : Item) : Prop := ∃ Y : Node, it = .imp Y j ∧ Y.ident = n

/-- How far the import statement `j` of module `n` is, that was queued above the name list of the import
statement `i` of module `m`; `l` is what happened since. -/
inductive Progress (m : Str) (i : ImportInfo) (n : Str) (j : ImportInfo) (β : List Busy) (s : St W)
    (l : List Event) : Prop
  | waits {X Y} : IsNameList m i X → IsImp n j Y → [X, Y].Sublist (pending s) → Progress m i n j β s l
  | busy {X Y k β'} : IsNameList m i X → IsImp n j Y → X ∈ pending s → β = (Y, k) :: β' →
      Progress m i n j β s l
  | names {X Z} : IsNameList m i X → IsNameList n j Z → [X, Z].Sublist (pending s) →
      Progress m i n j β s l
  | last {X Z} : IsNameList m i X → IsNameList n j Z → X ∈ pending s → .started Z ∈ l →
      Progress m i n j β s l
  | done {X Z} : IsNameList m i X → IsNameList n j Z → [Event.started Z, .started X].Sublist l →
      Progress m i n j β s l
  | invalid {t : Node} : .imported n j t.ident ∈ l → t ∈ s.nodes → t.isInvalidRel = true →
      Progress m i n j β s l

/-- Everything loaded for an import statement makes progress. -/
def Deep (β : List Busy) (s : St W) : Prop :=
  ∀ m i t n infos l, LoadedBy s.log m i t n infos l → ∀ j ∈ infos, Progress m i n j β s l

/-- No import statement and no name list is being executed. -/
def DeepOk (β : List Busy) : Prop := ∀ b ∈ β, (∀ n i, b.1 ≠ .imp n i)

def DeepI (β : List Busy) (s : St W) : Prop := Event.failed ∈ s.log ∨ Deep β s

variable {β β' : List Busy} {s s' : St W} {m n t : Str} {i j : ImportInfo}

theorem Progress.mono {l l' : List Event} (h : Progress m i n j β s l)
    (hβ : ∀ Y k γ, β = (Y, k) :: γ → IsImp n j Y → ∃ k' γ', β' = (Y, k') :: γ')
    (hp : pending s <+: pending s') (hn : ∀ x ∈ s.nodes, x ∈ s'.nodes) :
    Progress m i n j β' s' (l ++ l') := by
  cases h with
  | waits h1 h2 h3 => exact .waits h1 h2 (h3.trans hp.sublist)
  | busy h1 h2 h3 h4 =>
    obtain ⟨k', γ', he⟩ := hβ _ _ _ h4 h2
    exact .busy h1 h2 (hp.subset h3) he
  | names h1 h2 h3 => exact .names h1 h2 (h3.trans hp.sublist)
  | last h1 h2 h3 h4 => exact .last h1 h2 (hp.subset h3) (List.mem_append_left _ h4)
  | done h1 h2 h3 => exact .done h1 h2 (h3.trans (List.sublist_append_left ..))
  | invalid h1 h2 h3 => exact .invalid (List.mem_append_left _ h1) (hn _ h2) h3

/-- Where an `imported` event is, when there is none in the second part. -/
theorem LoadedBy.split {log l : List Event} {infos later} (h : LoadedBy (log ++ l) m i t n infos later)
    (hl : ∀ a i t, Event.imported a i t ∉ l) :
    ∃ later', later = later' ++ l ∧ LoadedBy log m i t n infos later' := by
  obtain ⟨before, M, during, h1, h2, h3, h4⟩ := h
  have h2' : log ++ l = (before ++ .started (.imp M i) :: during ++ [.imported m i t]) ++ later := by
    rw [h2]; simp
  have fin : ∀ c, log = (before ++ .started (.imp M i) :: during ++ [.imported m i t]) ++ c →
      LoadedBy log m i t n infos c := fun c hc => ⟨before, M, during, h1, by rw [hc]; simp, h3, h4⟩
  obtain ⟨c, hc1, hc2⟩ | ⟨c, hc1, hc2⟩ := List.append_eq_append_iff.mp h2'
  · rcases List.eq_nil_or_concat c with rfl | ⟨c', e, rfl⟩
    · exact ⟨[], by simpa using hc2.symm, fin [] (by rw [hc1]; simp)⟩
    · exfalso
      rw [List.concat_eq_append, ← List.append_assoc] at hc1
      have := (List.append_inj' hc1 rfl).2
      cases this
      exact hl m i t (by rw [hc2]; simp)
  · exact ⟨c, hc2, fin c hc1⟩

/-- The last `imported` event. -/
theorem LoadedBy.last {pre l : List Event} {it : Item} {a : Str} {i' : ImportInfo} {t' : Str} {infos later}
    (h : LoadedBy (pre ++ .started it :: (l ++ [.imported a i' t'])) m i t n infos later)
    (hl : NoStart l) (hl' : ∀ a i t, Event.imported a i t ∉ l) :
    (∃ later', later = later' ++ (l ++ [.imported a i' t']) ∧
      LoadedBy (pre ++ [.started it]) m i t n infos later') ∨
    (later = [] ∧ a = m ∧ i' = i ∧ t' = t ∧ .scheduled n infos ∈ l ∧ ∃ M, it = .imp M i ∧ M.ident = m) := by
  rcases List.eq_nil_or_concat later with rfl | ⟨later', e, rfl⟩
  · right
    obtain ⟨before, M, during, h1, h2, h3, h4⟩ := h
    rw [← List.cons_append, ← List.append_assoc, ← List.cons_append, ← List.append_assoc] at h2
    obtain ⟨e1, e2⟩ := List.append_inj' h2 rfl
    cases e2
    have key : ∀ (p q : List Event) (x y : Event) (u v : List Event), NoStart u → NoStart v →
        (∃ it, x = .started it) → (∃ it, y = .started it) → p ++ x :: u = q ++ y :: v →
        u = v ∧ x = y := by
      intro p q x y u v hu hv hx hy he
      obtain ⟨c, hc1, hc2⟩ | ⟨c, hc1, hc2⟩ := List.append_eq_append_iff.mp he
      · cases c with
        | nil => simp at hc2; exact ⟨hc2.2, hc2.1⟩
        | cons z c =>
          exfalso
          simp only [List.cons_append, List.cons.injEq] at hc2
          obtain ⟨it, rfl⟩ := hy
          exact hu it (by rw [hc2.2]; simp)
      · cases c with
        | nil => simp at hc2; exact ⟨hc2.2.symm, hc2.1.symm⟩
        | cons z c =>
          exfalso
          simp only [List.cons_append, List.cons.injEq] at hc2
          obtain ⟨it, rfl⟩ := hx
          exact hv it (by rw [hc2.2]; simp)
    obtain ⟨rfl, hx⟩ := key _ _ _ _ _ _ hl h3 ⟨_, rfl⟩ ⟨_, rfl⟩ e1
    cases hx
    exact ⟨rfl, rfl, rfl, rfl, h4, M, rfl, h1⟩
  · left
    obtain ⟨before, M, during, h1, h2, h3, h4⟩ := h
    have h2' : pre ++ .started it :: l ++ [.imported a i' t'] =
        before ++ .started (.imp M i) :: (during ++ .imported m i t :: later') ++ [e] := by
      rw [List.concat_eq_append] at h2
      simpa using h2
    obtain ⟨e1, e2⟩ := List.append_inj' h2' rfl
    cases e2
    have hL : LoadedBy ((pre ++ [.started it]) ++ l) m i t n infos later' :=
      ⟨before, M, during, h1, by rw [← e1]; simp, h3, h4⟩
    obtain ⟨later'', h5, h6⟩ := LoadedBy.split hL hl'
    exact ⟨later'', by rw [h5]; simp, h6⟩

theorem DeepI.step (h : DeepI β s) (l : List Event) (hl : s'.log = s.log ++ l)
    (hI : ∀ a i t, Event.imported a i t ∉ l)
    (hβ : ∀ Y k γ, β = (Y, k) :: γ → (∃ n j, IsImp n j Y) → ∃ k' γ', β' = (Y, k') :: γ')
    (hp : pending s <+: pending s') (hn : ∀ x ∈ s.nodes, x ∈ s'.nodes) : DeepI β' s' := by
  rcases h with h | h
  · exact .inl (by rw [hl]; exact List.mem_append_left _ h)
  · refine .inr fun m i t n infos later hL j hj => ?_
    rw [hl] at hL
    obtain ⟨later', rfl, hL'⟩ := LoadedBy.split hL hI
    exact (h m i t n infos later' hL' j hj).mono (fun Y k γ h1 h2 => hβ Y k γ h1 ⟨_, _, h2⟩) hp hn

theorem DeepI.same (h : DeepI β s) (hl : s'.log = s.log) (hp : pending s' = pending s)
    (hn : s'.nodes = s.nodes) : DeepI β s' :=
  h.step [] (by simp [hl]) (by simp) (fun _ _ _ h _ => ⟨_, _, h⟩) (by rw [hp]; exact List.prefix_rfl)
    (by rw [hn]; exact fun _ h => h)

theorem DeepI.event (h : DeepI β s) (e : Event) (he : ∀ a i t, e ≠ .imported a i t) :
    DeepI β (s.event e) :=
  h.step [e] rfl (fun a i t hm => he a i t (List.mem_singleton.mp hm).symm)
    (fun _ _ _ h _ => ⟨_, _, h⟩) List.prefix_rfl (fun _ h => h)

theorem DeepI.schedule (h : DeepI β s) (n : Node) (i) : DeepI β (s.schedule n i) := by
  obtain ⟨rest, hp, _⟩ := pushes_schedule s n i
  refine h.step _ hp.log hp.noImported (fun _ _ _ h _ => ⟨_, _, h⟩) ?_ hp.nodes.subset
  unfold pending
  rw [hp.hidden, hp.stack, ← List.append_assoc]
  exact List.prefix_append ..

theorem DeepI.addNode (h : DeepI β s) (n : Node) : DeepI β (s.addNode n) :=
  h.step [] (by simp [St.addNode]) (by simp) (fun _ _ _ h _ => ⟨_, _, h⟩) List.prefix_rfl
    (fun _ h => List.mem_append_left _ h)

theorem DeepI.drop {it : Item} {k : Nat} (h : DeepI ((it, k) :: β) s) (hi : ∀ n i, it ≠ .imp n i) :
    DeepI β s := by
  refine h.step [] (by simp) (by simp) ?_ List.prefix_rfl (fun _ h => h)
  intro Y k' γ he hY
  cases he
  obtain ⟨n, j, Z, rfl, _⟩ := hY
  exact absurd rfl (hi _ _)

theorem sublist_pair_snoc {α : Type} {a b c : α} {l : List α} (h : [a, b].Sublist (l ++ [c])) :
    [a, b].Sublist l ∨ a ∈ l ∧ b = c := by
  rw [List.sublist_append_iff] at h
  obtain ⟨l1, l2, he, h1, h2⟩ := h
  rcases l1 with _ | ⟨x, _ | ⟨y, _ | ⟨z, l1⟩⟩⟩
  · simp at he; subst he
    have := h2.length_le; simp at this
  · simp at he
    obtain ⟨rfl, rfl⟩ := he
    simp at h1 h2
    exact .inr ⟨h1, h2⟩
  · simp at he
    obtain ⟨rfl, rfl, rfl⟩ := he
    exact .inl h1
  · simp at he

theorem mem_sublist_pair {α : Type} {a b : α} {l l' : List α} (h : a ∈ l) (h' : b ∈ l') :
    [a, b].Sublist (l ++ l') := by
  rw [show [a, b] = [a] ++ [b] from rfl]
  exact (List.singleton_sublist.mpr h).append (List.singleton_sublist.mpr h')

/-- A completed import statement. -/
theorem DeepI.ran {env : Env W} (hM : ∀ k i n, (env.userMissing k i n).Passive) {a : Node}
    {i : ImportInfo} {k : Nat} {s1 : St W} (h : DeepI ((.imp a i, k) :: β) s1)
    (hr : Ran env (.imp a i) s1 s') (hg : ∀ x ∈ s1.nodes, x ∈ s'.nodes) : DeepI β s' := by
  obtain ⟨⟨d, hr⟩, pre, hpre⟩ := hr
  rcases imp_run hM hr with ⟨t, rest, l, e1, e2, e3, e4, e5, e6⟩ | ⟨t, rest, l, e1, e2, e3, e4, e5, e6, e7, e8⟩
  all_goals
    have hlog : s'.log = pre ++ .started (.imp a i) :: (l ++ [.imported a.ident i t.ident]) := by
      rw [e3, hpre]; simp
    rcases h with h | h
    · exact .inl (by rw [e3]; exact List.mem_append_left _ h)
    refine .inr fun m i' t' n infos later hL j hj => ?_
    rw [hlog] at hL
    rcases LoadedBy.last hL e4 e5 with ⟨later', rfl, hL'⟩ | ⟨rfl, h1, h2, h3, h4, M, h5, h6⟩
  · have hp : pending s' = pending s1 ++ .nl a t i :: rest := by simp [pending, e1, e2]
    rw [← hpre] at hL'
    have hP := h m i' t' n infos later' hL' j hj
    cases hP with
    | busy h1 h2 h3 h4 =>
      cases h4
      obtain ⟨Y, hY, hYn⟩ := h2
      cases hY
      refine .names h1 ⟨a, t, rfl, hYn⟩ ?_
      rw [hp]
      exact mem_sublist_pair h3 (by simp)
    | waits h1 h2 h3 => exact .waits h1 h2 (h3.trans (by rw [hp]; exact List.sublist_append_left ..))
    | names h1 h2 h3 => exact .names h1 h2 (h3.trans (by rw [hp]; exact List.sublist_append_left ..))
    | last h1 h2 h3 h4 =>
      exact .last h1 h2 (by rw [hp]; exact List.mem_append_left _ h3) (List.mem_append_left _ h4)
    | done h1 h2 h3 => exact .done h1 h2 (h3.trans (List.sublist_append_left ..))
    | invalid h1 h2 h3 => exact .invalid (List.mem_append_left _ h1) (hg _ h2) h3
  · obtain ⟨Y, hY, hm⟩ := e6 n infos h4 j hj
    subst h2
    refine .waits (X := .nl a t i) ⟨a, t, rfl, h1⟩ ⟨Y, rfl, hY⟩ ?_
    rw [show pending s' = (s1.hidden ++ s1.stack ++ [.nl a t i]) ++ rest by simp [pending, e1, e2]]
    exact mem_sublist_pair (by simp) hm
  · have hp : pending s' = pending s1 ++ rest := by simp [pending, e1, e2]
    rw [← hpre] at hL'
    have hP := h m i' t' n infos later' hL' j hj
    cases hP with
    | busy h1 h2 h3 h4 =>
      cases h4
      obtain ⟨Y, hY, hYn⟩ := h2
      cases hY
      exact .invalid (t := t) (by rw [← hYn]; simp) e7 e8
    | waits h1 h2 h3 => exact .waits h1 h2 (h3.trans (by rw [hp]; exact List.sublist_append_left ..))
    | names h1 h2 h3 => exact .names h1 h2 (h3.trans (by rw [hp]; exact List.sublist_append_left ..))
    | last h1 h2 h3 h4 =>
      exact .last h1 h2 (by rw [hp]; exact List.mem_append_left _ h3) (List.mem_append_left _ h4)
    | done h1 h2 h3 => exact .done h1 h2 (h3.trans (List.sublist_append_left ..))
    | invalid h1 h2 h3 => exact .invalid (List.mem_append_left _ h1) (hg _ h2) h3
  · rw [e6 n infos h4] at hj; cases hj

theorem imp_nodes (env : Env W) (n : Nat) {a : Node} {i : ImportInfo} {s s' : St W}
    (h : runItem env (calls env n) (.imp a i) s = (.ok (), s')) : ∀ x ∈ s.nodes, x ∈ s'.nodes := by
  have hG := (grewClosed s).good env n
  have := (processImport_pres (grewClosed s).closed hG a i [] 0 s (.refl s) (fun _ _ => trivial)).2
  change processImport (calls env n) a i s = _ at h
  rw [h] at this
  exact fun x hx => this.nodes.subset hx

theorem deepClosed (env : Env W) (hM : ∀ k i n, (env.userMissing k i n).Passive) :
    Closed (W := W) (fun _ => True) DeepI (fun _ _ => True) DeepOk (Ran env) where
  aAddModule _ := trivial
  toE _ := trivial
  world w h := h.same rfl rfl rfl
  addNode n h _ := h.addNode n
  addEdge a b d h _ _ := h.same (log_addEdge ..) (by unfold St.addEdge; split <;> rfl) (addEdge_nodes ..)
  addRoot a h _ := h.same (log_addRoot ..) (by unfold St.addRoot; split <;> rfl)
    (by unfold St.addRoot; split <;> rfl)
  popExcluded {β s} name h _ _ :=
    ((h.same (s' := s.popLazy name) rfl rfl rfl).addNode (excludedNode name)).schedule _ _
  popOther name v h _ _ _ := h.same rfl rfl rfl
  exclude l _ h := h.same
    (foldl_pres (P := fun s' => s'.log = _) (f := addExclude) (fun _ _ h => h) l _ rfl)
    (foldl_pres (P := fun s' => pending s' = _) (f := addExclude) (fun _ _ h => h) l _ rfl)
    (foldl_pres (P := fun s' => s'.nodes = _) (f := addExclude) (fun _ _ h => h) l _ rfl)
  imply l _ h := h.same
    (foldl_pres (P := fun s' => s'.log = _) (f := addImply)
      (fun _ _ h => by unfold addImply; split <;> exact h) l _ rfl)
    (foldl_pres (P := fun s' => pending s' = _) (f := addImply)
      (fun _ _ h => by unfold addImply; split <;> exact h) l _ rfl)
    (foldl_pres (P := fun s' => s'.nodes = _) (f := addImply)
      (fun _ _ h => by unfold addImply; split <;> exact h) l _ rfl)
  schedule n i h := h.schedule n i
  addGlobals a l h := h.same rfl rfl rfl
  apiAddNode n _ h _ := h.addNode n
  apiAddEdge a b d _ h _ _ := h.same (log_addEdge ..) (by unfold St.addEdge; split <;> rfl)
    (addEdge_nodes ..)
  apiAddRoot a _ h _ := h.same (log_addRoot ..) (by unfold St.addRoot; split <;> rfl)
    (by unfold St.addRoot; split <;> rfl)
  apiSchedule n i _ h := h.schedule n i
  looked h := h.event _ (by simp)
  called {β s k} hk n h _ := by
    refine (h.event (.called hk n.ident) (by simp)).step [] (by simp) (by simp) ?_ List.prefix_rfl
      (fun _ h => h)
    intro Y k' γ he hY
    cases he
    exact ⟨_, _, rfl⟩
  asked hk n i h := h.event _ (by simp)
  failed _ := .inl (by simp [St.event])
  missHook hk _ h := h.same rfl rfl rfl
  postHook hk _ h := h.same rfl rfl rfl
  pushPkg n name h := h.step [] (by simp) (by simp) (fun _ _ _ h _ => ⟨_, _, h⟩)
    (by unfold pending; rw [← List.append_assoc]; exact List.prefix_append ..) (fun _ h => h)
  pop {β s st it} hok h hst := by
    rcases h with h | h
    · exact .inl (List.mem_append_left _ h)
    · refine .inr fun m i t n infos later hL j hj => ?_
      obtain ⟨later', rfl, hL'⟩ := LoadedBy.split (l := [Event.started it]) hL (by simp)
      have hP := h m i t n infos later' hL' j hj
      have hpend : pending s = pending { s with stack := st, log := s.log ++ [.started it] } ++ [it] := by
        simp [pending, hst]
      cases hP with
      | waits h1 h2 h3 =>
        rw [hpend] at h3
        rcases sublist_pair_snoc h3 with h3 | ⟨h3, rfl⟩
        · exact .waits h1 h2 h3
        · exact .busy h1 h2 h3 rfl
      | @busy X Y k γ h1 h2 h3 h4 =>
        obtain ⟨Z, rfl, _⟩ := h2
        exact absurd rfl (hok (.imp Z j, k) (by rw [h4]; exact List.mem_cons_self ..) Z j)
      | names h1 h2 h3 =>
        rw [hpend] at h3
        rcases sublist_pair_snoc h3 with h3 | ⟨h3, rfl⟩
        · exact .names h1 h2 h3
        · exact .last h1 h2 h3 (by simp)
      | last h1 h2 h3 h4 =>
        rw [hpend] at h3
        rcases List.mem_append.mp h3 with h3 | h3
        · exact .last h1 h2 h3 (List.mem_append_left _ h4)
        · rw [List.mem_singleton.mp h3] at h1
          exact .done h1 h2 (mem_sublist_pair h4 (by simp))
      | done h1 h2 h3 => exact .done h1 h2 (h3.trans (List.sublist_append_left ..))
      | invalid h1 h2 h3 => exact .invalid (List.mem_append_left _ h1) h2 h3
  okPp h b hb := by
    rcases List.mem_cons.mp hb with rfl | hb
    · simp
    · exact h b hb
  okPkg h b hb := by
    rcases List.mem_cons.mp hb with rfl | hb
    · simp
    · exact h b hb
  finishPp _ _ h _ := h.drop (by simp)
  finishPkg _ _ h := h.drop (by simp)
  finishNl _ _ h := h.drop (by simp)
  finishInvalid {β s n i t k} h ha he hx := by
    obtain ⟨s1, h1, hr⟩ := hx
    exact h1.ran hM hr (imp_nodes env _ hr.1.choose_spec)
  finishImp {β s n i t name k} offset h ha he hx := by
    obtain ⟨s1, h1, hr⟩ := hx
    exact h1.ran hM hr (imp_nodes env _ hr.1.choose_spec)
  errItem _ := trivial
  enter _ h := h.same rfl (by simp [pending]) rfl
  exit _ _ h he := h.same rfl (by simp [pending, he]) rfl
  exitE _ _ _ _ := trivial

theorem Hook.Passive.only {h : Hook W} (hh : h.Passive) : h.Only ApiOp.NoRun := by
  induction hh with
  | ret => exact .ret _
  | raise e => exact .raise e
  | look _ ih => exact .look ih
  | setWorld _ ih => exact .setWorld ih

theorem client_deep (env : Env W) (hM : ∀ k i n, (env.userMissing k i n).Passive)
    (n : Nat) (p : Hook W) (w : W) (stdlib : List (Str × Implies)) (builtin : Bool) :
    DeepI [] (runClient env n p (initState w stdlib builtin)).2 := by
  refine client_pres (deepClosed env hM) (env := env) (fun _ _ => Hook.only_true _)
    (fun _ => .inr fun k i n => Hook.Only.mono (Hook.Passive.only (hM k i n)) fun _ h => ⟨trivial, h⟩)
    (β := []) (by simp [DeepOk]) n (Hook.only_true p) (initState w stdlib builtin) ?_
    (fun _ _ _ h => h)
  refine .inr ?_
  intro m i t n infos later hL
  rw [(initState_view w stdlib builtin).2] at hL
  obtain ⟨before, M, during, h1, h2, _⟩ := hL
  simp at h2

end Verif
