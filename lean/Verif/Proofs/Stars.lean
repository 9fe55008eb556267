import Verif.Proofs.Completed
import Verif.Proofs.Exec
import Verif.Proofs.NlNodes
import Verif.Spec.StarSpec
/-!
# Star imports

The names that chains of star imports bring to a module are in its set of global names, if the
name lists were processed deepest first.
-/
namespace Verif
open M Spec
variable {W : Type}

/-- A star import. -/
def Item.isStar : Item → Bool
  | .nl _ _ i => i.starImport
  | _ => false

/-- The claim for the events `l` and the global names in `s`. -/
def StarsIn (l : List Event) (s : St W) : Prop :=
  ∀ ch a (c : Node), StarChain ch a c.ident → StartedInOrder ch l → c ∈ s.nodes →
    ∀ x ∈ c.globalsWritten, x ∈ s.gw a

/-- No star import was started in `l`. -/
def NoStar (l : List Event) : Prop := ∀ it, Event.started it ∈ l → it.isStar = false

/-- No star import is being executed. -/
def StarOk (β : List Busy) : Prop := ∀ b ∈ β, b.1.isStar = false

/-- The events since the claim was established. -/
def StarRest (β : List Busy) (post : List Event) : Prop :=
  (StarOk β ∧ NoStar post) ∨
  ∃ it k β' post', β = (it, k) :: β' ∧ it.isStar = true ∧ StarOk β' ∧ post = .started it :: post' ∧
    NoStar post'

def StarI (β : List Busy) (s : St W) : Prop :=
  NlKnown s ∧ (Event.failed ∈ s.log ∨
    ∃ pre post, s.log = pre ++ post ∧ StarsIn pre s ∧ StarRest β post)

variable {β : List Busy} {s s' : St W}

theorem StarChain.star {ch : List Item} {a c : Str} (h : StarChain ch a c) :
    ∀ it ∈ ch, it.isStar = true := by
  induction h with
  | nil => simp
  | snoc h h1 h2 ih =>
    intro it hit
    rcases List.mem_append.mp hit with hit | hit
    · exact ih it hit
    · rw [List.mem_singleton.mp hit]; exact h1

theorem StarsIn.extend {pre post : List Event} (h : StarsIn pre s) (hp : NoStar post) :
    StarsIn (pre ++ post) s := by
  intro ch a c hc ho
  refine h ch a c hc ?_
  unfold StartedInOrder at *
  rw [List.sublist_append_iff] at ho
  obtain ⟨l1, l2, he, h1, h2⟩ := ho
  have : l2 = [] := by
    cases l2 with
    | nil => rfl
    | cons e l2 =>
      have hm : e ∈ ch.map Event.started := by rw [he]; simp
      obtain ⟨it, hit, rfl⟩ := List.mem_map.mp hm
      have := hp it (h2.subset (List.mem_cons_self ..))
      rw [StarChain.star hc it hit] at this; cases this
  subst this
  rw [he, List.append_nil]; exact h1

theorem StarsIn.grow {l : List Event} (h : StarsIn l s) (hn : s'.nodes = s.nodes)
    (hg : ∀ id, ∀ x ∈ s.gw id, x ∈ s'.gw id) : StarsIn l s' :=
  fun ch a c hc ho hm x hx => hg _ _ (h ch a c hc ho (hn ▸ hm) x hx)

theorem StarChain.ends {ch : List Item} {a c : Str} (h : StarChain ch a c) :
    ch = [] ∧ a = c ∨ (∃ b c' i, c'.ident = c ∧ Item.nl b c' i ∈ ch) ∧
      ∃ a' b i, a'.ident = a ∧ Item.nl a' b i ∈ ch := by
  induction h with
  | nil => exact .inl ⟨rfl, rfl⟩
  | @snoc l a b c i h h1 h2 ih =>
    refine .inr ⟨?_, a, b, i, rfl, by simp⟩
    rcases ih with ⟨_, rfl⟩ | ⟨⟨b', c', i', he, hm⟩, _⟩
    · exact ⟨a, b, i, rfl, by simp⟩
    · exact ⟨b', c', i', he, List.mem_append_left _ hm⟩

theorem StarsIn.addNode {l : List Event} (h : StarsIn l s) (hK : NlKnown s) {n : Node}
    (hn : s.has n.ident = false) (hl : ∀ e ∈ l, e ∈ s.log) : StarsIn l (s.addNode n) := by
  have known : ∀ a b i, Event.started (.nl a b i) ∈ l → s.has a.ident = true ∧ s.has b.ident = true := by
    intro a b i hm
    obtain ⟨d, hd⟩ := hK.edge a b i (.inr (hl _ hm))
    exact ⟨has_of_Has (hK.dangling.1 _ _ _ hd).1, has_of_Has (hK.dangling.1 _ _ _ hd).2⟩
  intro ch a c hc ho hm x hx
  show x ∈ if a = n.ident then n.globalsWritten else s.gw a
  have hsub : ∀ it ∈ ch, Event.started it ∈ l := fun it hit => ho.subset (List.mem_map_of_mem hit)
  rcases StarChain.ends hc with ⟨hch, rfl⟩ | ⟨⟨b, c', i, hc', h1⟩, ⟨a', b', i', rfl, h2⟩⟩
  · rcases List.mem_append.mp hm with hm | hm
    · have : s.has c.ident = true := has_of_Has ⟨c, hm, rfl⟩
      rw [if_neg (by intro he; rw [he, hn] at this; cases this)]
      exact h ch _ c hc ho hm x hx
    · rw [List.mem_singleton.mp hm] at hx ⊢
      rw [if_pos rfl]; exact hx
  · have ha := (known a' b' i' (hsub _ h2)).1
    have hcc := (known b c' i (hsub _ h1)).2
    rw [hc'] at hcc
    rw [if_neg (by intro he; rw [he, hn] at ha; cases ha)]
    rcases List.mem_append.mp hm with hm | hm
    · exact h ch _ c hc ho hm x hx
    · rw [List.mem_singleton.mp hm, hn] at hcc; cases hcc

theorem StarRest.append {post l : List Event} (h : StarRest β post) (hl : NoStar l) :
    StarRest β (post ++ l) := by
  have hn : ∀ {p}, NoStar p → NoStar (p ++ l) := fun hp it hm =>
    (List.mem_append.mp hm).elim (hp it) (hl it)
  rcases h with ⟨h1, h2⟩ | ⟨it, k, β', post', h1, h2, h3, rfl, h5⟩
  · exact .inl ⟨h1, hn h2⟩
  · exact .inr ⟨it, k, β', post' ++ l, h1, h2, h3, rfl, hn h5⟩

theorem StarI.step (h : StarI β s) (hK : NlKnown s') (l : List Event) (hl : s'.log = s.log ++ l)
    (hs : NoStar l) (hS : ∀ p, (∀ e ∈ p, e ∈ s.log) → StarsIn p s → StarsIn p s') : StarI β s' := by
  refine ⟨hK, ?_⟩
  rcases h.2 with h | ⟨pre, post, h1, h2, h3⟩
  · exact .inl (by rw [hl]; exact List.mem_append_left _ h)
  · exact .inr ⟨pre, post ++ l, by rw [hl, h1, List.append_assoc],
      hS pre (fun e he => by rw [h1]; exact List.mem_append_left _ he) h2, h3.append hs⟩

theorem StarI.same (h : StarI β s) (hK : NlKnown s') (hl : s'.log = s.log)
    (hn : s'.nodes = s.nodes) (hg : s'.gw = s.gw) : StarI β s' :=
  h.step hK [] (by rw [hl, List.append_nil]) (by simp [NoStar]) fun _ _ h =>
    h.grow hn (by rw [hg]; exact fun _ _ h => h)

theorem StarI.event (h : StarI β s) (e : Event) (hK : NlKnown (s.event e))
    (he : ∀ it, e ≠ .started it) : StarI β (s.event e) :=
  h.step hK [e] rfl (by intro it hm; exact absurd (List.mem_singleton.mp hm).symm (he it))
    fun _ _ h => h.grow rfl (fun _ _ h => h)

theorem StarI.schedule (h : StarI β s) (n i) (hK : NlKnown (s.schedule n i)) :
    StarI β (s.schedule n i) := by
  refine h.step hK [.scheduled n.ident i] ?_ (by intro it hm; simp at hm) fun _ _ h => h.grow ?_ ?_
  · rw [log_schedule]
  · rw [schedule_nodes]
  · rw [schedule_gw]; exact fun _ _ h => h

theorem StarI.addNode (h : StarI β s) (n : Node) (hK : NlKnown (s.addNode n))
    (hn : s.has n.ident = false) : StarI β (s.addNode n) :=
  h.step hK [] (by simp [St.addNode]) (by simp [NoStar]) fun _ hp h' => h'.addNode h.1 hn hp

theorem StarI.drop {it : Item} {k : Nat} (h : StarI ((it, k) :: β) s) (hi : it.isStar = false) :
    StarI β s := by
  refine ⟨h.1, h.2.imp id ?_⟩
  rintro ⟨pre, post, h1, h2, h3⟩
  refine ⟨pre, post, h1, h2, ?_⟩
  rcases h3 with ⟨h3, h4⟩ | ⟨it', k', β', post', h3, h4, _⟩
  · exact .inl ⟨fun b hb => h3 b (List.mem_cons_of_mem _ hb), h4⟩
  · cases h3; rw [hi] at h4; cases h4

theorem StarI.swap {it : Item} {k k' : Nat} (h : StarI ((it, k) :: β) s) :
    StarI ((it, k') :: β) s := by
  refine ⟨h.1, h.2.imp id ?_⟩
  rintro ⟨pre, post, h1, h2, h3⟩
  refine ⟨pre, post, h1, h2, ?_⟩
  rcases h3 with ⟨h3, h4⟩ | ⟨it', k'', β', post', h3, h4⟩
  · refine .inl ⟨fun b hb => ?_, h4⟩
    rcases List.mem_cons.mp hb with rfl | hb
    · exact h3 (it, k) (List.mem_cons_self ..)
    · exact h3 b (List.mem_cons_of_mem _ hb)
  · cases h3
    exact .inr ⟨it, k', β, post', rfl, h4⟩

theorem star_run {env : Env W} {rec : Calls W} {a b : Node} {i : ImportInfo} {s s' : St W}
    (hs : i.starImport = true) (h : runItem env rec (.nl a b i) s = (.ok (), s')) :
    s'.log = s.log ∧ s'.nodes = s.nodes ∧ (∀ id, ∀ x ∈ s.gw id, x ∈ s'.gw id) ∧
      ((b.isPackage = true ∨ b.isModule = true) → ∀ x ∈ s.gw b.ident, x ∈ s'.gw a.ident) := by
  change processNamelist env rec a b i s = _ at h
  unfold processNamelist at h
  obtain ⟨_, sa, ha, hb⟩ := M.bind_ok h
  obtain ⟨_, hsa⟩ := M.assert_ok ha
  subst hsa
  rw [if_pos hs] at hb
  split at hb
  · cases hb
    refine ⟨rfl, rfl, fun id x hx => ?_, fun _ x hx => ?_⟩
    · unfold St.addGlobals
      simp only []
      split
      · exact List.mem_append_left _ hx
      · exact hx
    · unfold St.addGlobals
      simp only [if_pos]
      by_cases hm : x ∈ sa.gw a.ident
      · exact List.mem_append_left _ hm
      · exact List.mem_append_right _ (List.mem_filter.mpr ⟨hx, by simpa using hm⟩)
  · rename_i hn
    obtain ⟨_, rfl⟩ := M.pure_ok hb
    refine ⟨rfl, rfl, fun _ _ h => h, fun hk => absurd ?_ hn⟩
    rcases hk with hk | hk <;> simp [hk]

theorem starClosed (env : Env W) : Closed (W := W) (fun _ => True) StarI (fun _ => NlKnown) StarOk (Ran env) where
  aAddModule _ := trivial
  toE h := h.1
  world w h := h.same (nlKnownClosed.world w h.1) rfl rfl rfl
  addNode n h hn := h.addNode n (nlKnownClosed.addNode n h.1 hn) hn
  addEdge a b d h ha hb := h.same (nlKnownClosed.addEdge a b d h.1 ha hb) (log_addEdge ..)
    (addEdge_nodes ..) (addEdge_gw ..)
  addRoot {β s} a h ha := h.same (nlKnownClosed.addRoot a h.1 ha) (log_addRoot ..)
    (by unfold St.addRoot; split <;> rfl) (by unfold St.addRoot; split <;> rfl)
  popExcluded {β s} name h hn hl := by
    have hK : NlKnown (s.popLazy name) := by
      obtain ⟨h1, h2, h3⟩ := h.1
      exact ⟨h1, h2, h3⟩
    have hn' : (s.popLazy name).has (excludedNode name).ident = false := hn
    exact ((h.same (s' := s.popLazy name) hK rfl rfl rfl).addNode (excludedNode name)
      (nlKnownClosed.addNode _ hK hn') hn').schedule _ _ (nlKnownClosed.popExcluded name h.1 hn hl)
  popOther name v h hn hl hv := h.same (nlKnownClosed.popOther name v h.1 hn hl hv) rfl rfl rfl
  exclude l _ h := h.same (foldl_pres (fun _ _ h' => nlKnownClosed.exclude _ h') l _ h.1)
    (foldl_pres (P := fun s' => s'.log = _) (f := addExclude) (fun _ _ h => h) l _ rfl)
    (foldl_pres (P := fun s' => s'.nodes = _) (f := addExclude) (fun _ _ h => h) l _ rfl)
    (foldl_pres (P := fun s' => s'.gw = _) (f := addExclude) (fun _ _ h => h) l _ rfl)
  imply l _ h := h.same (foldl_pres (fun _ _ h' => nlKnownClosed.imply _ h') l _ h.1)
    (foldl_pres (P := fun s' => s'.log = _) (f := addImply)
      (fun _ _ h => by unfold addImply; split <;> exact h) l _ rfl)
    (foldl_pres (P := fun s' => s'.nodes = _) (f := addImply)
      (fun _ _ h => by unfold addImply; split <;> exact h) l _ rfl)
    (foldl_pres (P := fun s' => s'.gw = _) (f := addImply)
      (fun _ _ h => by unfold addImply; split <;> exact h) l _ rfl)
  schedule n i h := h.schedule n i (nlKnownClosed.schedule n i h.1)
  addGlobals {β s} a l h := by
    refine h.step (nlKnownClosed.addGlobals a l h.1) [] (by simp [St.addGlobals]) (by simp [NoStar])
      fun _ _ h => h.grow rfl fun id x hx => ?_
    unfold St.addGlobals
    simp only []
    split
    · exact List.mem_append_left _ hx
    · exact hx
  apiAddNode n _ h hn := h.addNode n (nlKnownClosed.addNode n h.1 hn) hn
  apiAddEdge a b d _ h ha hb := h.same (nlKnownClosed.addEdge a b d h.1 ha hb) (log_addEdge ..)
    (addEdge_nodes ..) (addEdge_gw ..)
  apiAddRoot a _ h ha := h.same (nlKnownClosed.addRoot a h.1 ha) (log_addRoot ..)
    (by unfold St.addRoot; split <;> rfl) (by unfold St.addRoot; split <;> rfl)
  apiSchedule n i _ h := h.schedule n i (nlKnownClosed.schedule n i h.1)
  looked h := h.event _ (nlKnownClosed.looked h.1) (by simp)
  called hk n h _ := (h.event _ (nlKnownClosed.called hk n.ident h.1) (by simp)).swap
  asked hk n i h := h.event _ (nlKnownClosed.asked hk n i h.1) (by simp)
  failed h := ⟨nlKnownClosed.failed h, .inl (by simp [St.event])⟩
  missHook hk _ h := h.same (nlKnownClosed.missHook hk h.1) rfl rfl rfl
  postHook hk _ h := h.same (nlKnownClosed.postHook hk h.1) rfl rfl rfl
  pushPkg n name h := h.same (nlKnownClosed.pushPkg n name h.1) rfl rfl rfl
  pop {β s st it} hok h hst := by
    refine ⟨nlKnownClosed.pop h.1 hst, ?_⟩
    rcases h.2 with h | ⟨pre, post, h1, h2, h3⟩
    · exact .inl (List.mem_append_left _ h)
    · have hn : NoStar post := by
        rcases h3 with ⟨_, h3⟩ | ⟨it', k, β', _, h3, h4, _⟩
        · exact h3
        · have := hok (it', k) (by rw [h3]; exact List.mem_cons_self ..)
          rw [h4] at this; cases this
      have hall : StarsIn s.log { s with stack := st, log := s.log ++ [.started it] } :=
        (h1 ▸ h2.extend hn).grow rfl (fun _ _ h => h)
      refine .inr ⟨s.log, [.started it], rfl, hall, ?_⟩
      by_cases hi : it.isStar = true
      · exact .inr ⟨it, 0, β, [], rfl, hi, hok, rfl, by simp [NoStar]⟩
      · have hi : it.isStar = false := by simpa using hi
        refine .inl ⟨fun b hb => ?_, fun it' hm => ?_⟩
        · rcases List.mem_cons.mp hb with rfl | hb
          · exact hi
          · exact hok b hb
        · have := List.mem_singleton.mp hm
          cases this; exact hi
  okPp h b hb := by
    rcases List.mem_cons.mp hb with rfl | hb
    · rfl
    · exact h b hb
  okPkg h b hb := by
    rcases List.mem_cons.mp hb with rfl | hb
    · rfl
    · exact h b hb
  finishPp _ _ h _ := h.drop rfl
  finishPkg _ _ h := h.drop rfl
  finishNl {β s1 s a b i k} h0 hr h := by
    by_cases hi : i.starImport = true
    · obtain ⟨⟨n, hr⟩, p0, hp0⟩ := hr
      obtain ⟨e1, e2, e3, e4⟩ := star_run hi hr
      refine ⟨h.1, ?_⟩
      rcases h0.2 with hf | ⟨pre, post, h1, h2, h3⟩
      · exact .inl (by rw [e1]; exact hf)
      · rcases h3 with ⟨h3, _⟩ | ⟨it', k', β', post', h3, h4, h5, rfl, h6⟩
        · have := h3 (.nl a b i, k) (List.mem_cons_self ..)
          rw [show Item.isStar (.nl a b i) = i.starImport from rfl, hi] at this; cases this
        · cases h3
          have hpost : post' = [] := by
            rcases List.eq_nil_or_concat post' with h | ⟨L, e, rfl⟩
            · exact h
            · rw [h1, List.concat_eq_append, ← List.cons_append, ← List.append_assoc] at hp0
              have := (List.append_inj' hp0 rfl).2
              cases this
              have := h6 (.nl a b i) (by simp)
              rw [h4] at this; cases this
          subst hpost
          refine .inr ⟨s.log, [], by simp, ?_, .inl ⟨h5, by simp [NoStar]⟩⟩
          rw [e1, h1]
          intro ch a' c hc ho hm x hx
          unfold StartedInOrder at ho
          rw [List.sublist_append_iff] at ho
          obtain ⟨l1, l2, he, g1, g2⟩ := ho
          rw [e2] at hm
          have g2' : l2 = [] ∨ l2 = [Event.started (.nl a b i)] := by
            rcases l2 with _ | ⟨e, l2⟩
            · exact .inl rfl
            · have : l2 = [] := by
                have := g2.length_le
                simpa using this
              subst this
              simpa using g2
          rcases g2' with rfl | rfl
          · rw [List.append_nil] at he
            exact e3 _ _ (h2 ch a' c hc (by unfold StartedInOrder; rw [he]; exact g1) hm x hx)
          · generalize hcid : c.ident = cid at hc
            cases hc with
            | nil => simp at he
            | @snoc l a'' b' _ i' hch g3 g4 =>
              subst hcid
              rw [List.map_append] at he
              obtain ⟨he1, he2⟩ := List.append_inj' he rfl
              simp at he2
              obtain ⟨rfl, rfl, rfl⟩ := he2
              refine e4 g4 _ (h2 l _ c hch ?_ hm x hx)
              unfold StartedInOrder
              rw [he1]; exact g1
    · exact h.drop (by show i.starImport = false; simpa using hi)
  finishInvalid {β s n i t k} h ha he _ :=
    (h.event _ (nlKnownClosed.finishInvalid h.1 ha he) (by simp)).drop rfl
  finishImp {β s n i t name k} offset h ha he _ := by
    refine (h.step (nlKnownClosed.finishImp offset h.1 ha he) [.imported n.ident i t.ident] rfl ?_
      fun _ _ h => h.grow rfl (fun _ _ h => h)).drop rfl
    intro it hm; simp at hm
  errItem h := h
  enter _ h := h.same (nlKnownClosed.enter h.1) rfl rfl rfl
  exit _ h0 h he := h.same (nlKnownClosed.exit h0.1 h.1 he) rfl rfl rfl
  exitE _ h0 h he := nlKnownClosed.exit h0.1 h he

theorem client_stars (env : Env W) (hH : ∀ k i n, (env.userMissing k i n).Only ApiOp.NoRun)
    (n : Nat) (p : Hook W) (w : W) (stdlib : List (Str × Implies)) (builtin : Bool) :
    let s := (runClient env n p (initState w stdlib builtin)).2
    Event.failed ∉ s.log → StarsIn s.log s := by
  intro s hf
  have h : StarI [] s := by
    refine client_pres (R := Ran env) (starClosed env) (env := env) (fun _ _ => Hook.only_true _)
      (fun _ => .inr fun k i n => (hH k i n).mono fun _ h => ⟨trivial, h⟩) (β := []) (by simp [StarOk]) n
      (Hook.only_true p) (initState w stdlib builtin) ?_ (fun _ _ _ h => h)
    refine ⟨?_, .inr ⟨[], [], ?_, ?_, .inl ⟨by simp [StarOk], by simp [NoStar]⟩⟩⟩
    · have hv := initState_view w stdlib builtin
      have hf := initState_fields w stdlib builtin
      refine ⟨?_, ?_, ?_⟩
      · rw [hv.1]; intro i j hi; simp at hi
      · rw [hv.1]; exact ⟨by simp, by simp⟩
      · rintro a b i (h | h)
        · simp [pending, hf] at h
        · simp [hv.2] at h
    · exact (initState_view w stdlib builtin).2
    · intro ch a c hc ho hm
      have := (initState_view w stdlib builtin).1
      have hn : (initState w stdlib builtin).nodes = [] := congrArg View.nodes this
      rw [hn] at hm; cases hm
  rcases h.2 with h | ⟨pre, post, h1, h2, h3⟩
  · exact absurd h hf
  · rcases h3 with ⟨_, h3⟩ | ⟨_, _, _, _, h3, _⟩
    · rw [h1]; exact h2.extend h3
    · cases h3

end Verif
