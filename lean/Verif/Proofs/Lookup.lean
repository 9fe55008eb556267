import Verif.Spec.LookupSpec
import Verif.Proofs.Ctx
/-! # Exceptions of the methods: the walk -/
namespace Verif
open M Spec
variable {W : Type} {P : Exc → Prop}

/-- Nodes that work items mention are in the graph. -/
def ItemIn (s : St W) : Item → Prop
  | .pp n => s.has n.ident = true
  | .imp n _ => s.has n.ident = true
  | .nl a b _ => s.has a.ident = true ∧ s.has b.ident = true
  | .pkg n _ => s.has n.ident = true

/-- Work items and edges mention nodes of the graph only. -/
structure KeptIn (s : St W) : Prop where
  items : ∀ it ∈ s.stack, ItemIn s it
  edges : ∀ e ∈ s.edges, s.has e.2.1 = true

/-- No node was removed. -/
def GrowsTo (s s' : St W) : Prop := ∀ id, s.has id = true → s'.has id = true

theorem GrowsTo.refl (s : St W) : GrowsTo s s := fun _ h => h
theorem GrowsTo.trans {a b c : St W} (h : GrowsTo a b) (h' : GrowsTo b c) : GrowsTo a c := fun _ x => h' _ (h _ x)

theorem ItemIn.grows {s s' : St W} (h : GrowsTo s s') {it} (hi : ItemIn s it) : ItemIn s' it := by
  cases it <;> simp only [ItemIn] at hi ⊢
  · exact h _ hi
  · exact h _ hi
  · exact ⟨h _ hi.1, h _ hi.2⟩
  · exact h _ hi

/-- The outcome `r` of a method that was started in `s`. -/
def Fine (P : Exc → Prop) {α : Type} (Q : α → St W → Prop) (s : St W) (r : Except Exc α × St W) : Prop :=
  KeptIn r.2 ∧ GrowsTo s r.2 ∧ match r.1 with
    | .ok a => Q a r.2
    | .error e => Allowed P e

section
variable {α γ : Type} {Q Q1 : α → St W → Prop} {Q2 : γ → St W → Prop} {s : St W}

theorem Fine.bind {m : M W α} {f : α → M W γ} (h : Fine P Q1 s (m s))
    (k : ∀ a s1, KeptIn s1 → GrowsTo s s1 → Q1 a s1 → Fine P Q2 s1 (f a s1)) : Fine P Q2 s (M.bind m f s) := by
  unfold M.bind
  cases hm : m s with
  | mk r s1 =>
    rw [hm] at h
    cases r with
    | error e => exact h
    | ok a =>
      have := k a s1 h.1 h.2.1 h.2.2
      exact ⟨this.1, h.2.1.trans this.2.1, this.2.2⟩

theorem Fine.weaken {r} (h : Fine P Q1 s r) (hq : ∀ a s', GrowsTo s s' → Q1 a s' → Q a s') : Fine P Q s r := by
  cases r with
  | mk r s1 =>
    cases r with
    | ok a => exact ⟨h.1, h.2.1, hq _ _ h.2.1 h.2.2⟩
    | error e => exact h

theorem Fine.shift {s1 r} (hg : GrowsTo s s1) (h : Fine P Q s1 r) : Fine P Q s r := ⟨h.1, hg.trans h.2.1, h.2.2⟩

theorem Fine.pure {a : α} (h : KeptIn s) (hq : Q a s) : Fine P Q s (M.pure a s) := ⟨h, .refl s, hq⟩
theorem Fine.throw {e} (h : KeptIn s) (he : Allowed P e) : Fine P Q s (M.throw e s) := ⟨h, .refl s, he⟩
theorem Fine.get {Q : St W → St W → Prop} (h : KeptIn s) (hq : Q s s) : Fine P Q s (M.get s) := ⟨h, .refl s, hq⟩

theorem Fine.ite {c : Prop} [Decidable c] {m1 m2 : M W α} (h1 : c → Fine P Q s (m1 s)) (h2 : ¬ c → Fine P Q s (m2 s)) :
    Fine P Q s ((if c then m1 else m2) s) := by
  split
  · exact h1 (by assumption)
  · exact h2 (by assumption)

theorem not_assertion : Allowed P .assertion := by simp [Allowed]

theorem Fine.assert {b : Bool} {Q : Unit → St W → Prop} (h : KeptIn s) (hq : Q () s) :
    Fine P Q s (M.assert b s) := by
  unfold M.assert
  split
  · exact .pure h hq
  · exact .throw h not_assertion

theorem Fine.ofExcept {x : Except Exc α} (h : KeptIn s) (he : ∀ e, x = .error e → Allowed P e)
    (hq : ∀ a, x = .ok a → Q a s) : Fine P Q s (M.ofExcept x s) := by
  cases x with
  | ok a => exact ⟨h, .refl s, hq a rfl⟩
  | error e => exact ⟨h, .refl s, he e rfl⟩

/-- Changes that leave stack, edges and nodes alone. -/
theorem KeptIn.same {s' : St W} (h : KeptIn s) (hn : s'.nodes = s.nodes) (hs : s'.stack = s.stack)
    (he : s'.edges = s.edges) : KeptIn s' := by
  have hg : GrowsTo s s' := fun id hi => by unfold St.has at *; rw [hn]; exact hi
  exact ⟨fun it hi => (h.items it (hs ▸ hi)).grows hg, fun e hi => hg _ (h.edges e (he ▸ hi))⟩

theorem GrowsTo.same {s' : St W} (hn : s'.nodes = s.nodes) : GrowsTo s s' :=
  fun id hi => by unfold St.has at *; rw [hn]; exact hi

theorem Fine.modify {f : St W → St W} {Q : Unit → St W → Prop} (h : KeptIn s) (hn : (f s).nodes = s.nodes)
    (hs : (f s).stack = s.stack) (he : (f s).edges = s.edges) (hq : Q () (f s)) :
    Fine P Q s (M.modify f s) := ⟨h.same hn hs he, .same hn, hq⟩

theorem Fine.ext {x : Ext W α} (h : KeptIn s) (hx : Raises P x) (hq : ∀ a w, Q a { s with world := w }) :
    Fine P Q s (M.ext x s) := by
  refine ⟨h.same rfl rfl rfl, .same rfl, ?_⟩
  show match (x s.world).1 with | .ok a => Q a _ | .error e => Allowed P e
  cases hr : (x s.world).1 with
  | ok a => exact hq a _
  | error e => exact .inl (hx _ _ hr)

theorem Fine.attempt {m : M W α} {Q : Except Exc α → St W → Prop} (h : Fine P Q1 s (m s))
    (hok : ∀ a s', Q1 a s' → Q (.ok a) s') (herr : ∀ e s', Allowed P e → Q (.error e) s') :
    Fine P Q s (M.attempt m s) := by
  unfold M.attempt
  cases hm : m s with
  | mk r s1 =>
    rw [hm] at h
    cases r with
    | ok a => exact ⟨h.1, h.2.1, hok _ _ h.2.2⟩
    | error e =>
      by_cases hf : e = .fuel
      · subst hf; exact h
      · cases e <;> first | exact absurd rfl hf | exact ⟨h.1, h.2.1, herr _ _ h.2.2⟩

theorem Fine.findNode {name : Str} {Q : Option Node → St W → Prop} (h : KeptIn s)
    (hq : ∀ r, (∀ n, r = some n → s.has n.ident = true) → Q r s) : Fine P Q s (M.findNode name s) :=
  ⟨h, .refl s, hq _ fun n hn => has_of_Has ⟨n, (find_some hn).1, rfl⟩⟩

theorem Fine.findModule {name : Str} {Q : Option Node → St W → Prop} (h : KeptIn s)
    (hq : ∀ r, (∀ n, r = some n → s.has n.ident = true) → Q r s) : Fine P Q s (M.findModule name s) := by
  unfold M.findModule
  cases hf : s.find name with
  | none => exact ⟨h, .refl s, hq _ (by simp)⟩
  | some n =>
    have hn : s.has n.ident = true := has_of_Has ⟨n, (find_some hf).1, rfl⟩
    simp only []
    split
    · exact ⟨h, .refl s, hq _ (by rintro _ ⟨⟩; exact hn)⟩
    · exact ⟨h, .refl s, not_assertion⟩

theorem grows_addNode (s : St W) (n : Node) : GrowsTo s (s.addNode n) := fun id hi => by
  unfold St.has at *; simp only [St.addNode, List.any_append, hi, Bool.true_or]

theorem has_addedNode (s : St W) (n : Node) : (s.addNode n).has n.ident = true := by
  unfold St.has; simp [St.addNode]

theorem KeptIn.addNode (h : KeptIn s) (n : Node) : KeptIn (s.addNode n) :=
  ⟨fun it hi => (h.items it hi).grows (grows_addNode s n), fun e he => grows_addNode s n _ (h.edges e he)⟩

theorem Fine.addNode {n : Node} (h : KeptIn s) :
    Fine P (fun _ s' => s'.has n.ident = true) s (M.addNode n s) := by
  unfold M.addNode
  split
  · exact ⟨h, .refl s, by simp [Allowed]⟩
  · exact ⟨h.addNode n, grows_addNode s n, has_addedNode s n⟩

theorem addEdge_keeps_nodes (s : St W) (a b d) : (s.addEdge a b d).nodes = s.nodes := by
  unfold St.addEdge; split <;> rfl
theorem addEdge_keeps_stack (s : St W) (a b d) : (s.addEdge a b d).stack = s.stack := by
  unfold St.addEdge; split <;> rfl

theorem KeptIn.addEdge (h : KeptIn s) {a b d} (hb : s.has b = true) : KeptIn (s.addEdge a b d) := by
  have hg : GrowsTo s (s.addEdge a b d) := .same (addEdge_keeps_nodes s a b d)
  refine ⟨fun it hi => (h.items it (addEdge_keeps_stack s a b d ▸ hi)).grows hg, fun e he => ?_⟩
  unfold St.addEdge at he
  split at he
  · exact hg _ (h.edges e he)
  · simp only [List.mem_append, List.mem_singleton] at he
    rcases he with he | rfl
    · exact hg _ (h.edges e he)
    · exact hg _ hb

theorem Fine.addEdge {a b : Str} {d} {Q : Unit → St W → Prop} (h : KeptIn s) (ha : s.has a = true)
    (hb : s.has b = true) (hq : ∀ s', Q () s') : Fine P Q s (M.addEdge a b d s) := by
  unfold M.addEdge
  rw [if_pos (by simp [ha, hb])]
  exact ⟨h.addEdge hb, .same (addEdge_keeps_nodes s a b d), hq _⟩

theorem Fine.addRoot {a : Str} {Q : Unit → St W → Prop} (h : KeptIn s) (ha : s.has a = true)
    (hq : ∀ s', Q () s') : Fine P Q s (M.addRoot a s) := by
  unfold M.addRoot
  rw [if_pos ha]
  have : KeptIn (s.addRoot a) ∧ GrowsTo s (s.addRoot a) := by
    unfold St.addRoot
    split
    · exact ⟨h, .refl s⟩
    · exact ⟨h.same rfl rfl rfl, .same rfl⟩
  exact ⟨this.1, this.2, hq _⟩

theorem Fine.schedule {n : Node} {i} {Q : Unit → St W → Prop} (h : KeptIn s) (hn : s.has n.ident = true)
    (hq : ∀ s', GrowsTo s s' → Q () s') : Fine P Q s (M.schedule n i s) := by
  have hg : GrowsTo s (s.schedule n i) := .same (by unfold St.schedule; simp only []; split <;> rfl)
  refine ⟨⟨fun it hi => ?_, fun e he => hg _ (h.edges e ?_)⟩, hg, hq _ hg⟩
  · have : it ∈ s.stack ∨ it = .pp n ∨ ∃ x, it = .imp n x := by
      revert hi
      show it ∈ (s.schedule n i).stack → _
      unfold St.schedule
      simp only []
      split <;> simp only [List.mem_append, List.mem_map, List.mem_singleton] <;> grind
    rcases this with h1 | rfl | ⟨x, rfl⟩
    · exact (h.items it h1).grows hg
    · exact hg _ hn
    · exact hg _ hn
  · revert he
    show e ∈ (s.schedule n i).edges → _
    unfold St.schedule
    simp only []
    split <;> exact id

/-- `add_node`, then `_process_import_list`. -/
theorem Fine.addSched {n : Node} {i} {f : M W γ} (h : KeptIn s)
    (k : ∀ s1, KeptIn s1 → GrowsTo s s1 → s1.has n.ident = true → Fine P Q2 s1 (f s1)) :
    Fine P Q2 s (M.bind (M.addNode n) (fun _ => M.bind (M.schedule n i) fun _ => f) s) := by
  refine .bind (.addNode h) fun _ s1 h1 g1 q1 => ?_
  refine .bind (Q1 := fun _ s' => s'.has n.ident = true) (.schedule h1 q1 fun s' g => g _ q1) fun _ s2 h2 g2 q2 => ?_
  exact k s2 h2 (g1.trans g2) q2

theorem Fine.forEach {l : List α} {f : α → M W Unit} {Q : Unit → St W → Prop} (h : KeptIn s)
    (hf : ∀ a ∈ l, ∀ s1, KeptIn s1 → GrowsTo s s1 → Fine P (fun _ _ => True) s1 (f a s1))
    (hq : ∀ s', Q () s') : Fine P Q s (M.forEach l f s) := by
  induction l generalizing s with
  | nil => exact ⟨h, .refl s, hq s⟩
  | cons x l ih =>
    refine .bind (hf x (by simp) s h (.refl s)) fun _ s1 h1 g _ => ?_
    exact ih h1 fun a ha s2 h2 g2 => hf a (by simp [ha]) s2 h2 (g.trans g2)

theorem Fine.savedStack {m : M W α} (h : KeptIn s)
    (hm : ∀ s1 : St W, s1.nodes = s.nodes → KeptIn s1 → Fine P Q s1 (m s1))
    (hq : ∀ a s1 s2, s2.nodes = s1.nodes → Q a s1 → Q a s2) : Fine P Q s (M.savedStack m s) := by
  unfold M.savedStack
  have h0 : KeptIn { s with stack := [], hidden := s.hidden ++ s.stack } :=
    ⟨by simp, fun e he => h.edges e he⟩
  have := hm { s with stack := [], hidden := s.hidden ++ s.stack } rfl h0
  obtain ⟨h1, h2, h3⟩ := this
  generalize m { s with stack := [], hidden := s.hidden ++ s.stack } = r at *
  obtain ⟨r, s1⟩ := r
  have hg : GrowsTo s s1 := h2
  refine ⟨⟨fun it hi => ?_, h1.edges⟩, h2, ?_⟩
  · simp only [List.mem_append] at hi
    rcases hi with hi | hi
    · exact ((h.items it hi).grows hg : ItemIn s1 it).grows (.same rfl)
    · exact (h1.items it hi).grows (.same rfl)
  · cases r with
    | ok a => exact hq a s1 _ rfl h3
    | error e => exact h3

end

/-! ## The methods -/

/-- The importing node, if any, is in the graph. -/
def Known (i : Option Node) (s : St W) : Prop := ∀ n, i = some n → s.has n.ident = true
theorem Known.grows {i} {s s' : St W} (h : Known i s) (hg : GrowsTo s s') : Known i s' := fun n hn => hg _ (h n hn)
theorem known_none (s : St W) : Known none s := fun _ h => by cases h
theorem known_some {n : Node} {s : St W} (h : s.has n.ident = true) : Known (some n) s := by
  rintro _ ⟨⟩; exact h

/-- The result is a node of the graph. -/
abbrev InG (n : Node) (s : St W) : Prop := s.has n.ident = true

structure RecFine (P : Exc → Prop) (rec : Calls W) : Prop where
  findOrLoad : ∀ i name b s, KeptIn s → Known i s → Fine P InG s (rec.findOrLoad i name b s)
  implied : ∀ i name s, KeptIn s → Known i s → Fine P Known s (rec.implied i name s)
  loadModule : ∀ i name s, KeptIn s → Known i s → Fine P InG s (rec.loadModule i name s)
  createMissing : ∀ i name s, KeptIn s → Known i s → Fine P InG s (rec.createMissing i name s)
  importPackage : ∀ n name s, KeptIn s → InG n s → Fine P InG s (rec.importPackage n name s)
  runStack : ∀ s, KeptIn s → Fine P (fun _ _ => True) s (rec.runStack s)
  callPost : ∀ k n s, KeptIn s → InG n s → Fine P (fun _ _ => True) s (rec.callPost k n s)
  callMissing : ∀ k i name s, KeptIn s → Known i s → Fine P Known s (rec.callMissing k i name s)
  op : ∀ o known s, KeptIn s → (∀ x ∈ known, s.has x = true) → UsesKnown P known o →
    Fine P (fun r s' => ∀ x ∈ learnt o (.ok r), s'.has x = true) s (rec.op o s)

section
variable {env : Env W} (hW : WorldRaises P env) {rec : Calls W} (hR : RecFine P rec)

include hR in
theorem interp_fine (p : Hook W) : ∀ (known : List Str) (s : St W), Careful P known p → KeptIn s →
    (∀ x ∈ known, s.has x = true) → Fine P Known s (interp rec p s) := by
  induction p with
  | ret r => exact fun known s hc h hk => .pure h fun n hn => hk _ (hc n hn)
  | raise e => exact fun known s hc h hk => .throw h hc
  | look k ih =>
    intro known s hc h hk
    refine .shift (s1 := s.event (.looked s.nodes s.edges s.roots)) (.same rfl)
      (ih s _ _ (hc s) (h.same rfl rfl rfl) fun x hx => ?_)
    simp only [List.mem_append, List.mem_map] at hx
    rcases hx with hx | ⟨n, hn, rfl⟩
    · exact hk x hx
    · exact has_of_Has ⟨n, hn, rfl⟩
  | setWorld w k ih =>
    intro known s hc h hk
    exact .shift (s1 := { s with world := w }) (.same rfl) (ih _ _ hc (h.same rfl rfl rfl) hk)
  | call o k ih =>
    intro known s hc h hk
    refine .bind (Q1 := fun r s' => (∀ e, r = .error e → Allowed P e) ∧ ∀ x ∈ learnt o r, s'.has x = true)
      (.attempt (hR.op o known s h hk hc.1) (fun a s' hq => ⟨by simp, hq⟩) (fun e s' he => ⟨?_, by simp [learnt]⟩))
      fun r s1 h1 g1 q1 => ?_
    · rintro _ ⟨⟩; exact he
    · refine ih r _ s1 (hc.2 r q1.1) h1 fun x hx => ?_
      simp only [List.mem_append] at hx
      rcases hx with hx | hx
      · exact g1 _ (hk x hx)
      · exact q1.2 x hx

include hW in
theorem swig_fine {i name} {s : St W} (h : KeptIn s) : Fine P Known s (swigHook env i name s) := by
  unfold swigHook
  cases i with
  | none => exact .pure h (known_none s)
  | some imp =>
    simp only []
    split
    · exact .pure h (known_none s)
    split
    · exact .pure h (known_none s)
    refine .bind (Q1 := fun _ _ => True) (.get h trivial) fun s0 s1 h1 _ _ => ?_
    split
    · exact .pure h1 (known_none _)
    refine .bind (Q1 := fun r _ => ∀ e, r = .error e → Allowed P e)
      (.attempt (Q1 := fun _ _ => True) (.ext h1 (hW.findSpecRel _ _) fun _ _ => trivial) (by simp)
        (fun e _ he => by rintro _ ⟨⟩; exact he)) fun r s2 h2 _ hr => ?_
    refine .bind (Q1 := fun _ _ => True) ?_ fun spec s3 h3 _ _ => ?_
    · cases r with
      | ok sp => exact .pure h2 trivial
      | error e =>
        simp only []
        split
        · refine .bind (Q1 := fun _ _ => True) (.ext h2 (hW.findSpec _) fun _ _ => trivial) fun sp s3 h3 _ _ => ?_
          cases sp with
          | none => exact .throw h3 not_assertion
          | some sp =>
            simp only []
            cases sp.origin with
            | none => exact .throw h3 not_assertion
            | some origin =>
              refine .bind (Q1 := fun _ _ => True) (.modify h3 rfl rfl rfl trivial) fun _ s4 h4 _ _ => ?_
              refine .bind (Q1 := fun _ _ => True) (.ext h4 (hW.findSpecRel _ _) fun _ _ => trivial) fun _ s5 h5 _ _ => ?_
              refine .bind (Q1 := fun _ _ => True) (.ext h5 (hW.delModule _) fun _ _ => trivial) fun _ s6 h6 _ _ => ?_
              exact .pure h6 trivial
        · exact .throw h2 (hr e rfl)
    · cases spec with
      | none => exact .pure h3 (known_none _)
      | some spec =>
        refine .bind (Q1 := fun _ _ => True) (.ext h3 (hW.nodeForSpec _) fun _ _ => trivial) fun p s4 h4 _ _ => ?_
        split
        · exact .pure h4 (known_none _)
        refine .bind (Q1 := fun _ _ => True) (.assert h4 trivial) fun _ s5 h5 _ _ => ?_
        refine .bind (.addNode h5) fun _ s6 h6 _ q6 => ?_
        exact .pure h6 (known_some q6)

include hW hR in
theorem mypyc_fine {n : Node} {s : St W} (h : KeptIn s) (hn : InG n s) :
    Fine P (fun _ _ => True) s (mypycHook env rec n s) := by
  unfold mypycHook
  cases mypycFile n with
  | none => exact .pure h trivial
  | some file =>
    simp only []
    cases n.distribution with
    | none => exact .pure h trivial
    | some dist =>
      simp only []
      cases file with
      | none => exact .pure h trivial
      | some file =>
        simp only []
        cases dist.importNames.find? (endsWith c!"__mypyc") with
        | none => exact .pure h trivial
        | some helper =>
          refine .bind (Q1 := fun _ _ => True) (.ext h (hW.isFile _) fun _ _ => trivial) fun b s1 h1 g1 _ => ?_
          split
          · exact .pure h1 trivial
          refine .bind (hR.op (.addModule helper) [] s1 h1 (by simp) trivial) fun r s2 h2 g2 q2 => ?_
          cases r with
          | none => exact .throw h2 not_assertion
          | some hm =>
            have hh : s2.has hm.ident = true := q2 _ (by simp [learnt])
            refine .bind (Q1 := fun _ _ => True) (.addEdge h2 (g2 _ (g1 _ hn)) hh fun _ => trivial) fun _ s3 h3 g3 _ => ?_
            refine .bind (Q1 := fun _ _ => True) (.ext h3 (hW.readBytes _) fun _ _ => trivial) fun _ s4 h4 g4 _ => ?_
            refine .bind (Q1 := fun r _ => ∀ e, r = .error e → Allowed P e)
              (.attempt (Q1 := fun _ _ => True) (.ext h4 (hW.compileAst _) fun _ _ => trivial) (by simp)
                (fun e _ he => by rintro _ ⟨⟩; exact he)) fun r s5 h5 g5 hr => ?_
            cases r with
            | error e =>
              cases e <;> first | exact .pure h5 trivial | exact .throw h5 (hr _ rfl)
            | ok imports =>
              simp only []
              split
              · exact .pure h5 trivial
              · exact .bind (Q1 := fun _ _ => True)
                  (.schedule h5 (g5 _ (g4 _ (g3 _ (g2 _ (g1 _ hn))))) fun _ _ => trivial)
                  fun _ s6 h6 _ _ => hR.runStack s6 h6

include hW hR in
theorem callPost_fine (hH : HooksCareful P env) {k n} {s : St W} (h : KeptIn s) (hn : InG n s) :
    Fine P (fun _ _ => True) s (callPostBody env rec k n s) := by
  unfold callPostBody
  refine .bind (Q1 := fun _ _ => True) (.get h trivial) fun s0 s1 h1 g1 _ => ?_
  cases s0.postHooks[k]? with
  | none => exact .pure h1 trivial
  | some hk =>
    refine .bind (Q1 := fun _ _ => True) (.modify h1 rfl rfl rfl trivial) fun _ s2 h2 g2 _ => ?_
    have hn2 : InG n s2 := g2 _ (g1 _ hn)
    refine .bind (Q1 := fun _ _ => True) ?_ fun _ s3 h3 g3 _ => hR.callPost _ _ _ h3 (g3 _ hn2)
    cases hk with
    | mypyc => exact mypyc_fine hW hR h2 hn2
    | user j =>
      exact .bind (interp_fine hR _ _ s2 (hH.post j n) h2 (by simpa using hn2)) fun _ s3 h3 _ _ => .pure h3 trivial

include hW hR in
theorem callMissing_fine (hH : HooksCareful P env) {k i name} {s : St W} (h : KeptIn s) (hi : Known i s) :
    Fine P Known s (callMissingBody env rec k i name s) := by
  unfold callMissingBody
  refine .bind (Q1 := fun _ _ => True) (.get h trivial) fun s0 s1 h1 g1 _ => ?_
  cases s0.missHooks[k]? with
  | none => exact .pure h1 (known_none _)
  | some hk =>
    refine .bind (Q1 := fun _ _ => True) (.modify h1 rfl rfl rfl trivial) fun _ s2 h2 g2 _ => ?_
    have hi2 : Known i s2 := (hi.grows g1).grows g2
    refine .bind (Q1 := Known) ?_ fun r s3 h3 g3 q3 => ?_
    · cases hk with
      | swig => exact swig_fine hW h2
      | user j =>
        refine interp_fine hR _ _ s2 (hH.missing j i name) h2 fun x hx => ?_
        cases i with
        | none => simp at hx
        | some m => simp at hx; subst hx; exact hi2 m rfl
    · cases r with
      | some n => exact .pure h3 q3
      | none => exact hR.callMissing _ _ _ _ h3 (hi2.grows g3)

include hR in
theorem createMissing_fine {i name} {s : St W} (h : KeptIn s) (hi : Known i s) :
    Fine P InG s (createMissingBody rec i name s) := by
  unfold createMissingBody
  refine .bind (hR.callMissing _ _ _ _ h hi) fun r s1 h1 g1 q1 => ?_
  cases r with
  | some n => exact .pure h1 (q1 n rfl)
  | none => exact .addSched h1 fun s2 h2 g2 q2 => .pure h2 q2

include hR in
theorem implied_fine {i name} {s : St W} (h : KeptIn s) (hi : Known i s) :
    Fine P Known s (impliedBody rec i name s) := by
  unfold impliedBody
  refine .bind (Q1 := fun _ _ => True) (.findNode h fun _ _ => trivial) fun r s1 h1 g1 _ => ?_
  cases r with
  | some n => exact .pure h1 (known_none _)
  | none =>
    refine .bind (Q1 := fun _ _ => True) (.get h1 trivial) fun s0 s2 h2 g2 _ => ?_
    cases s0.lazy name with
    | none => exact .pure h2 (known_none _)
    | some v =>
      refine .bind (Q1 := fun _ _ => True) (.modify h2 rfl rfl rfl trivial) fun _ s3 h3 g3 _ => ?_
      have hi3 := ((hi.grows g1).grows g2).grows g3
      cases v with
      | excluded => exact .addSched h3 fun s4 h4 g4 q4 => .pure h4 (known_some q4)
      | alias t =>
        refine .addSched h3 fun s4 h4 g4 q4 => ?_
        refine .bind (hR.findOrLoad _ _ _ _ h4 (known_some q4)) fun o s5 h5 g5 q5 => ?_
        refine .bind (Q1 := fun _ s' => s'.has (aliasNode name t).ident = true) ?_
          fun _ s6 h6 g6 q6 => .pure h6 (known_some q6)
        exact (Fine.addEdge (Q := fun _ _ => True) h5 (g5 _ q4) q5 fun _ => trivial).weaken
          fun _ s' g _ => g _ (g5 _ q4)
      | virtual t =>
        refine .addSched h3 fun s4 h4 g4 q4 => ?_
        refine .bind (hR.findOrLoad _ _ _ _ h4 (known_some q4)) fun o s5 h5 g5 q5 => ?_
        refine .bind (Q1 := fun _ s' => s'.has (virtualNode name t).ident = true) ?_
          fun _ s6 h6 g6 q6 => .pure h6 (known_some q6)
        exact (Fine.addEdge (Q := fun _ _ => True) h5 (g5 _ q4) q5 fun _ => trivial).weaken
          fun _ s' g _ => g _ (g5 _ q4)
      | refs names =>
        refine .bind (hR.findOrLoad _ _ _ _ h3 hi3) fun n s4 h4 g4 q4 => ?_
        refine .bind (Q1 := fun _ s' => InG n s') ?_ fun _ s5 h5 g5 q5 => .pure h5 (known_some q5)
        refine (Fine.forEach (Q := fun _ _ => True) h4 (fun r _ s5 h5 g5 => ?_) fun _ => trivial).weaken
          fun _ s' g _ => g _ q4
        refine .bind (hR.findOrLoad _ _ _ _ h5 (known_some (g5 _ q4))) fun o s6 h6 g6 q6 => ?_
        exact .addEdge h6 (g6 _ (g5 _ q4)) q6 fun _ => trivial

include hW hR in
theorem loadFallback_fine {i name e} {s : St W} (h : KeptIn s) (hi : Known i s) :
    Fine P InG s (loadFallback env rec i name e s) := by
  unfold loadFallback
  split
  · simp only []
    refine .bind (Q1 := fun _ _ => True) (.get h trivial) fun s0 s1 h1 g1 _ => ?_
    split
    · exact .throw h1 not_assertion
    refine .bind (Q1 := fun _ _ => True) (.ext h1 (hW.findSpec _) fun _ _ => trivial) fun sp s2 h2 g2 _ => ?_
    cases sp with
    | none => exact .throw h2 not_assertion
    | some spec =>
      refine .bind (Q1 := fun _ _ => True) (.get h2 trivial) fun s0 s3 h3 g3 _ => ?_
      split
      · exact .throw h3 not_assertion
      refine .bind (Q1 := fun _ _ => True) (.ext h3 (hW.isPackage _) fun _ _ => trivial) fun b s4 h4 g4 _ => ?_
      have hi4 := (((hi.grows g1).grows g2).grows g3).grows g4
      split
      · cases spec.origin with
        | none => exact .throw h4 not_assertion
        | some path =>
          simp only []
          split
          · exact .throw h4 not_assertion
          · exact .bind (Q1 := fun _ _ => True) (.modify h4 rfl rfl rfl trivial)
              fun _ s5 h5 g5 _ => hR.loadModule _ _ _ h5 (hi4.grows g5)
      · exact hR.createMissing _ _ _ h4 hi4
  · exact hR.createMissing _ _ _ h hi

theorem splitPackage_lookup {x e} (h : splitPackage x = .error e) : Allowed P e := by
  unfold splitPackage at h
  split at h
  · cases h; simp [Allowed]
  · simp only [] at h
    split at h
    · cases h; simp [Allowed]
    · cases h

include hW hR in
theorem addLoaded_fine {name spec} {s : St W} (h : KeptIn s) : Fine P InG s (addLoaded env rec name spec s) := by
  unfold addLoaded
  refine .bind (Q1 := fun _ _ => True) (.ext h (hW.nodeForSpec _) fun _ _ => trivial) fun p s1 h1 g1 _ => ?_
  simp only []
  split
  · refine .addSched h1 fun s2 h2 g2 q2 => ?_
    refine .bind (Q1 := fun r s' => r.isSome = true → s'.has p.1.ident = true) ?_ fun r s3 h3 g3 q3 => ?_
    · refine ⟨h2, .refl s2, fun hr => ?_⟩
      obtain ⟨n, hn⟩ := Option.isSome_iff_exists.1 hr
      have := find_some hn
      exact has_of_Has ⟨n, this.1, this.2⟩
    refine .bind (Q1 := fun _ s' => s'.has p.1.ident = true) ?_ fun _ s4 h4 g4 q4 => ?_
    · cases r with
      | some n => exact .pure h3 (q3 rfl)
      | none =>
        refine .addSched h3 fun s4 h4 g4 q4 => ?_
        refine .bind (Q1 := fun _ s' => s'.has p.1.ident = true)
          (.ofExcept h4 (fun e => splitPackage_lookup) fun _ _ => q4) fun sp s5 h5 g5 q5 => ?_
        cases sp.1 with
        | none => exact .pure h5 q5
        | some pkg =>
          refine .bind (hR.findOrLoad _ _ _ _ h5 (known_none _)) fun par s6 h6 g6 q6 => ?_
          exact (Fine.addEdge (Q := fun _ _ => True) h6 (g6 _ q5) q6 fun _ => trivial).weaken
            fun _ s' g _ => g _ (g6 _ q5)
    · have ha := g4 _ (g3 _ q2)
      exact .bind (Q1 := fun _ s' => s'.has (aliasNode name p.1.ident).ident = true)
        ((Fine.addEdge (Q := fun _ _ => True) h4 ha q4 fun _ => trivial).weaken fun _ s' g _ => g _ ha)
        fun _ s5 h5 g5 q5 => .pure h5 q5
  · refine .bind (.addNode h1) fun _ s2 h2 g2 q2 => ?_
    refine .bind (Q1 := fun _ s' => InG p.1 s') ?_ fun _ s3 h3 g3 q3 => ?_
    · generalize p.1.kind = kd
      cases kd with
      | package fr init sp hd ns =>
        cases ns with
        | none => exact .pure h2 q2
        | some ns =>
          refine .bind (hR.findOrLoad _ _ _ _ h2 (known_none _)) fun nn s3 h3 g3 q3 => ?_
          exact (Fine.addEdge (Q := fun _ _ => True) h3 (g3 _ q2) q3 fun _ => trivial).weaken
            fun _ s' g _ => g _ (g3 _ q2)
      | _ => exact .pure h2 q2
    · exact .bind (Q1 := fun _ s' => InG p.1 s') (.schedule h3 q3 fun s' g => g _ q3)
        fun _ s4 h4 _ q4 => .pure h4 q4

theorem Fine.attemptAny {α : Type} {m : M W α} {Q : Except Exc α → St W → Prop} {s s1 : St W} {r}
    (hm : m s = (r, s1)) (h : KeptIn s1) (hg : GrowsTo s s1) (hq : Q r s1) : Fine P Q s (M.attempt m s) := by
  unfold M.attempt
  rw [hm]
  cases r with
  | ok a => exact ⟨h, hg, hq⟩
  | error e => cases e <;> first | exact ⟨h, hg, hq⟩ | exact ⟨h, hg, by simp [Allowed]⟩

theorem resolveSpec_raises (hW : WorldRaises P env) {name w e} (he : e.isException = false)
    (h : (resolveSpec env name w).1 = .error e) : P e := by
  revert h
  unfold resolveSpec
  have hf := hW.findSpec name w
  split
  · intro h; cases h
  · simp only []
    split
    · intro h; cases h; cases he
    · have hp := hW.popModule name
      split
      · rename_i hq; intro h; cases h
        exact hp _ _ (by rw [hq]) (by rw [← isException_iff]; simp [he])
      · split
        · intro h; cases h; cases he
        · intro h
          exact hW.findSpec name _ e h
  · split
    · intro h; cases h
    · intro h; cases h; cases he
  · rename_i hq
    intro h; cases h; exact hf e (by rw [hq])

theorem bind_ext_error {α γ : Type} {x : Ext W α} {f : α → M W γ} {s : St W} {e} (h : (x s.world).1 = .error e) :
    M.bind (M.ext x) f s = (.error e, { s with world := (x s.world).2 }) := by
  simp only [M.bind, M.ext, h]

include hW hR in
theorem loadModule_fine {i name} {s : St W} (h : KeptIn s) (hi : Known i s) :
    Fine P InG s (loadModuleBody env rec i name s) := by
  unfold loadModuleBody
  split
  · exact .throw h not_assertion
  refine .bind (Q1 := Known) (.findNode h fun r hr => hr) fun r s1 h1 g1 q1 => ?_
  cases r with
  | some n => exact .pure h1 (q1 n rfl)
  | none =>
    refine .bind (Q1 := fun r s' => (∀ n, r = .ok (.inl n) → InG n s') ∧
      ∀ e, r = .error e → e.isException = false → Allowed P e) ?_ fun r s2 h2 g2 q2 => ?_
    · cases hx : (resolveSpec env name s1.world).1 with
      | error e =>
        exact .attemptAny (bind_ext_error hx) (h1.same rfl rfl rfl) (.same rfl)
          ⟨by simp, by rintro _ ⟨⟩ he; exact .inl (resolveSpec_raises hW he hx)⟩
      | ok sp =>
        have hb : Fine P (fun r s' => ∀ n, r = .inl n → InG n s') s1
            (M.bind (M.ext (resolveSpec env name)) (fun sp => match sp with
            | none => M.bind (rec.createMissing i name) fun n => M.pure (Sum.inl n)
            | some spec => M.pure (Sum.inr spec)) s1) := by
          refine .bind (Q1 := fun _ _ => True) ⟨h1.same rfl rfl rfl, .same rfl, ?_⟩ fun sp s2 h2 g2 _ => ?_
          · simp only [M.ext, hx]
          · cases sp with
            | none =>
              exact .bind (hR.createMissing _ _ _ h2 ((hi.grows g1).grows g2)) fun n s3 h3 _ q3 =>
                .pure h3 (by rintro _ ⟨⟩; exact q3)
            | some spec => exact .pure h2 (by simp)
        exact .attempt hb (fun a s' hq => ⟨fun n hn => hq n (by cases hn; rfl), by simp⟩)
          (fun e s' he => ⟨by simp, by rintro _ ⟨⟩ _; exact he⟩)
    · cases r with
      | ok x =>
        cases x with
        | inl n => exact .pure h2 (q2.1 n rfl)
        | inr spec => exact addLoaded_fine hW hR h2
      | error e =>
        simp only []
        split
        · exact loadFallback_fine hW hR h2 ((hi.grows g1).grows g2)
        · rename_i he
          exact .throw h2 (q2.2 e rfl (by simpa using he))

include hR in
theorem findOrLoad_fine {i name b} {s : St W} (h : KeptIn s) (hi : Known i s) :
    Fine P InG s (findOrLoadBody rec i name b s) := by
  unfold findOrLoadBody
  refine .bind (Q1 := Known) (.findModule h fun r hr => hr) fun r s1 h1 g1 q1 => ?_
  cases r with
  | some n => exact .pure h1 (q1 n rfl)
  | none =>
    refine .bind (Q1 := fun _ _ => True) (.ofExcept h1 (fun e => splitPackage_lookup) fun _ _ => trivial)
      fun sp s2 h2 g2 _ => ?_
    have hi2 := (hi.grows g1).grows g2
    refine .bind (Q1 := fun pn s' => Known pn.1 s' ∧ Known pn.2 s') ?_ fun pn s3 h3 g3 q3 => ?_
    · cases sp.1 with
      | none => exact .pure h2 ⟨known_none _, known_none _⟩
      | some pkg =>
        refine .bind (hR.findOrLoad _ _ _ _ h2 hi2) fun par s3 h3 g3 q3 => ?_
        split
        · refine .bind (hR.createMissing _ _ _ h3 (hi2.grows g3)) fun n s4 h4 g4 q4 => ?_
          exact .pure h4 ⟨known_some (g4 _ q3), known_some q4⟩
        split
        · exact .addSched h3 fun s4 h4 g4 q4 => .pure h4 ⟨known_some (g4 _ q3), known_some q4⟩
        · exact .pure h3 ⟨known_some q3, known_none _⟩
    · refine .bind (Q1 := InG) ?_ fun node s4 h4 g4 q4 => ?_
      · cases hpn : pn.2 with
        | some n => exact .pure h3 (q3.2 n hpn)
        | none =>
          refine .bind (hR.implied _ _ _ h3 (hi2.grows g3)) fun r s4 h4 g4 q4 => ?_
          cases r with
          | some n => exact .pure h4 (q4 n rfl)
          | none => exact hR.loadModule _ _ _ h4 ((hi2.grows g3).grows g4)
      · cases hpn : pn.1 with
        | none => exact .pure h4 q4
        | some par =>
          simp only []
          split
          · exact .bind (Q1 := fun _ s' => InG node s')
              ((Fine.addEdge (Q := fun _ _ => True) h4 q4 (g4 _ (q3.1 par hpn)) fun _ => trivial).weaken
                fun _ s' g _ => g _ q4) fun _ s5 h5 _ q5 => .pure h5 q5
          · exact .pure h4 q4

theorem relativePackage_lookup {m l e} (h : relativePackage m l = .error e) : Allowed P e := by
  unfold relativePackage at h
  split at h
  · cases h; exact not_assertion
  · simp only [] at h
    generalize (if (m.isPackage || m.isNamespacePkg) = true then l - 1 else l) = lv at h
    split at h
    · cases h
    · rename_i hl
      split at h
      · rename_i he; rw [he] at hl; simp at hl
      · cases h

theorem absoluteName_lookup {m i e} (h : absoluteName m i = .error e) : Allowed P e := by
  unfold absoluteName at h
  split at h
  · cases h
  · split at h
    · rename_i hr; cases h; exact relativePackage_lookup hr
    · cases h
    · simp only [] at h
      split at h
      · split at h
        · cases h; exact not_assertion
        · cases h
      · split at h
        · cases h; exact not_assertion
        · cases h

include hR in
theorem processImport_fine {m i} {s : St W} (h : KeptIn s) (hm : InG m s) :
    Fine P (fun _ _ => True) s (processImport rec m i s) := by
  unfold processImport
  refine .bind (Q1 := fun _ _ => True) (.ofExcept h (fun e => absoluteName_lookup) fun _ _ => trivial)
    fun a s1 h1 g1 _ => ?_
  have hm1 := g1 _ hm
  cases a with
  | none =>
    refine .bind (Q1 := Known) (.findModule h1 fun r hr => hr) fun r s2 h2 g2 q2 => ?_
    refine .bind (Q1 := InG) ?_ fun n s3 h3 g3 q3 => ?_
    · cases r with
      | none => exact .addSched h2 fun s3 h3 _ q3 => .pure h3 q3
      | some n => exact .bind (Q1 := fun _ s' => InG n s') (.assert h2 (q2 n rfl)) fun _ s3 h3 _ q3 => .pure h3 q3
    · exact .bind (Q1 := fun _ _ => True) (.addEdge h3 (g3 _ (g2 _ hm1)) q3 fun _ => trivial)
        fun _ s4 h4 _ _ => .modify h4 rfl rfl rfl trivial
  | some name =>
    refine .bind (Q1 := fun _ _ => True) (.get h1 trivial) fun s0 s2 h2 g2 _ => ?_
    refine .bind (hR.findOrLoad _ _ _ _ h2 (known_some (g2 _ hm1))) fun n s3 h3 g3 q3 => ?_
    have hm3 := g3 _ (g2 _ hm1)
    refine .bind (Q1 := fun _ s' => InG m s' ∧ InG n s')
      ((Fine.addEdge (Q := fun _ _ => True) h3 hm3 q3 fun _ => trivial).weaken fun _ s' g _ => ⟨g _ hm3, g _ q3⟩)
      fun _ s4 h4 _ q4 => ?_
    refine ⟨⟨fun it hi => ?_, h4.edges⟩, .same rfl, trivial⟩
    simp only [M.modify, List.mem_append, List.mem_singleton] at hi
    have : it ∈ s4.stack ∨ it = .nl m n i := by
      rcases hi with (hi | hi) | hi
      · exact .inl (List.mem_of_mem_take hi)
      · exact .inr hi
      · exact .inl (List.mem_of_mem_drop hi)
    rcases this with hi | rfl
    · exact (h4.items it hi).grows (.same rfl)
    · exact q4

include hW in
theorem reexported_has {s : St W} (h : KeptIn s) {m : Node} {nm t} (ht : reexported env s m nm = some t) :
    s.has t = true := by
  unfold reexported at ht
  have := hW.order _ _ _ (List.mem_of_find?_eq_some ht)
  unfold St.succs at this
  rw [List.mem_eraseDups] at this
  simp only [List.mem_map, List.mem_filter] at this
  obtain ⟨e, ⟨he, _⟩, rfl⟩ := this
  exact h.edges e he

include hW hR in
theorem processName_fine {a b i nm} {s : St W} (h : KeptIn s) (ha : InG a s) (hb : InG b s) :
    Fine P (fun _ _ => True) s (processName env rec a b i nm s) := by
  unfold processName
  refine .bind (Q1 := fun s0 s' => s0 = s') (.get h rfl) fun s0 s1 h1 g1 q1 => ?_
  subst q1
  have ha1 := g1 _ ha
  have hb1 := g1 _ hb
  have hsub : Fine P (fun _ _ => True) s0
      (M.bind (rec.findOrLoad (some a) (b.ident ++ '.' :: nm.name) false) (fun sub =>
    M.bind M.get fun s =>
    let link : M W Unit :=
      M.bind (M.addEdge sub.ident b.ident defaultDep) fun _ =>
      M.addEdge a.ident sub.ident (fromImportInfo i true nm.asname)
    if sub.isMissing then
      match b.kind with
      | .package _ init _ _ _ =>
        if init.name = c!"@@SIX_MOVES@@" then
          match sixMove nm.name with
          | some target =>
            M.bind (rec.findOrLoad (some a) target true) fun depNode =>
            M.addEdge a.ident depNode.ident defaultDep
          | none => link
        else if (s.globalsWritten b).contains nm.name then M.pure ()
        else link
      | _ => link
    else link) s0) := by
    refine .bind (hR.findOrLoad _ _ _ _ h1 (known_some ha1)) fun sub s2 h2 g2 q2 => ?_
    refine .bind (Q1 := fun _ s' => InG a s' ∧ InG b s' ∧ InG sub s')
      (.get h2 ⟨g2 _ ha1, g2 _ hb1, q2⟩) fun s' s3 h3 g3 q3 => ?_
    obtain ⟨ha3, hb3, hs3⟩ := q3
    have hlink : Fine P (fun _ _ => True) s3 (M.bind (M.addEdge sub.ident b.ident defaultDep) (fun _ =>
      M.addEdge a.ident sub.ident (fromImportInfo i true nm.asname)) s3) := by
      refine .bind (Q1 := fun _ s' => InG a s' ∧ InG sub s')
        ((Fine.addEdge (Q := fun _ _ => True) h3 hs3 hb3 fun _ => trivial).weaken fun _ s' g _ => ⟨g _ ha3, g _ hs3⟩)
        fun _ s4 h4 _ q4 => .addEdge h4 q4.1 q4.2 fun _ => trivial
    refine .ite (fun _ => ?_) fun _ => hlink
    generalize b.kind = kd
    cases kd with
    | package fr init sp hd ns =>
      refine .ite (fun _ => ?_) fun _ => .ite (fun _ => .pure h3 trivial) fun _ => hlink
      cases sixMove nm.name with
      | some target =>
        refine .bind (hR.findOrLoad _ _ _ _ h3 (known_some ha3)) fun o s4 h4 g4 q4 => ?_
        exact .addEdge h4 (g4 _ ha3) q4 fun _ => trivial
      | none => exact hlink
    | _ => exact hlink
  refine .ite (fun _ => ?_) fun _ => .ite (fun _ => .pure h1 trivial) fun _ => hsub
  cases ht : reexported env s0 b nm.name with
  | some t => exact .addEdge h1 ha1 (reexported_has hW h1 ht) fun _ => trivial
  | none => exact .ite (fun _ => .pure h1 trivial) fun _ => hsub

include hW hR in
theorem processNames_fine {a b i} {s : St W} (h : KeptIn s) (ha : InG a s) (hb : InG b s) :
    Fine P (fun _ _ => True) s (processNames env rec a b i s) := by
  unfold processNames
  refine .bind (Q1 := fun _ s' => InG a s' ∧ InG b s') (.modify h rfl rfl rfl ⟨ha, hb⟩) fun _ s1 h1 g1 q1 => ?_
  exact .forEach h1 (fun nm _ s2 h2 g2 => processName_fine hW hR h2 (g2 _ q1.1) (g2 _ q1.2)) fun _ => trivial

include hW hR in
theorem processNamelist_fine {a b i} {s : St W} (h : KeptIn s) (ha : InG a s) (hb : InG b s) :
    Fine P (fun _ _ => True) s (processNamelist env rec a b i s) := by
  unfold processNamelist
  refine .bind (Q1 := fun _ s' => InG a s' ∧ InG b s') (.assert h ⟨ha, hb⟩) fun _ s1 h1 g1 q1 => ?_
  split
  · split
    · exact .modify h1 rfl rfl rfl trivial
    · exact .pure h1 trivial
  split
  · generalize b.kind = kd
    cases kd with
    | alias actual =>
      refine .bind (Q1 := fun _ s' => InG a s') (.modify h1 rfl rfl rfl q1.1) fun _ s2 h2 g2 q2 => ?_
      refine .bind (Q1 := fun r s' => Known r s' ∧ InG a s') (.findModule h2 fun r hr => ⟨hr, q2⟩)
        fun r s3 h3 g3 q3 => ?_
      cases r with
      | none => exact .throw h3 not_assertion
      | some n =>
        simp only []
        split
        · exact processNames_fine hW hR h3 q3.2 (q3.1 n rfl)
        · exact .pure h3 trivial
    | _ => exact processNames_fine hW hR h1 q1.1 q1.2
  · exact .pure h1 trivial

theorem KeptIn.push {s : St W} (h : KeptIn s) {it} (hi : ItemIn s it) :
    KeptIn { s with stack := s.stack ++ [it] } := by
  refine ⟨fun x hx => ?_, h.edges⟩
  simp only [List.mem_append, List.mem_singleton] at hx
  rcases hx with hx | rfl
  · exact (h.items x hx).grows (.same rfl)
  · exact hi.grows (.same rfl)

include hW hR in
theorem importPackage_fine {m name} {s : St W} (h : KeptIn s) (hm : InG m s) :
    Fine P InG s (importPackageBody env rec m name s) := by
  unfold importPackageBody
  refine .bind (Q1 := Known) (.findModule h fun r hr => hr) fun r s1 h1 g1 q1 => ?_
  refine .bind (Q1 := InG) (.savedStack h1 (fun s2 hn h2 => ?_) fun a t t' hn hq => ?_) fun n s2 h2 g2 q2 => ?_
  · refine .bind (Q1 := InG) ?_ fun n s3 h3 g3 q3 => ?_
    · cases r with
      | some n => exact .pure h2 (GrowsTo.same hn _ (q1 n rfl))
      | none => exact hR.findOrLoad _ _ _ _ h2 (known_none _)
    · exact .bind ((hR.runStack s3 h3).weaken (Q := fun _ s' => InG n s') fun _ s' g _ => g _ q3)
        fun _ s4 h4 _ q4 => .pure h4 q4
  · exact GrowsTo.same hn _ hq
  · have hm2 := g2 _ (g1 _ hm)
    refine .bind (Q1 := fun _ s' => InG n s')
      ((Fine.addEdge (Q := fun _ _ => True) h2 hm2 q2 fun _ => trivial).weaken fun _ s' g _ => g _ q2)
      fun _ s3 h3 g3 q3 => ?_
    split
    · exact .pure h3 q3
    refine .bind (Q1 := fun _ s' => InG n s') (.ext h3 (hW.findSpec _) fun _ _ => q3) fun sp s4 h4 g4 q4 => ?_
    cases sp with
    | none => exact .throw h4 not_assertion
    | some spec =>
      refine .bind (Q1 := fun _ s' => InG n s') ((Fine.forEach (Q := fun _ _ => True) h4
        (fun path _ s5 h5 g5 => ?_) fun _ => trivial).weaken fun _ s' g _ => g _ q4) fun _ s5 h5 _ q5 => .pure h5 q5
      have hn5 := g5 _ q4
      refine .bind (Q1 := fun _ s' => InG n s') (.ext h5 (hW.globPy _) fun _ _ => hn5) fun stems s6 h6 g6 q6 => ?_
      refine .bind (Q1 := fun _ s' => InG n s') ((Fine.forEach (Q := fun _ _ => True) h6
        (fun stem _ s7 h7 g7 => ?_) fun _ => trivial).weaken fun _ s' g _ => g _ q6) fun _ s7 h7 _ q7 => ?_
      · have hn7 := g7 _ q6
        split
        · exact .pure h7 trivial
        refine .bind (hR.findOrLoad _ _ _ _ h7 (known_some hn7)) fun o s8 h8 g8 q8 => ?_
        refine .bind (Q1 := fun _ s' => InG n s')
          ((Fine.addEdge (Q := fun _ _ => True) h8 (g8 _ hn7) q8 fun _ => trivial).weaken
            fun _ s' g _ => g _ (g8 _ hn7)) fun _ s9 h9 _ q9 => ?_
        exact ⟨h9.push q9, .same rfl, trivial⟩
      · refine .bind (Q1 := fun _ s' => InG n s') (.ext h7 (hW.subdirs _) fun _ _ => q7) fun dirs s8 h8 g8 q8 => ?_
        refine .forEach h8 (fun d _ s9 h9 g9 => ?_) fun _ => trivial
        split
        · exact .pure h9 trivial
        · exact ⟨h9.push (g9 _ q8 : ItemIn s9 (.pkg n _)), .same rfl, trivial⟩

include hW hR in
theorem runStack_fine {s : St W} (h : KeptIn s) : Fine P (fun _ _ => True) s (runStackBody env rec s) := by
  unfold runStackBody
  refine .bind (Q1 := fun r s' => ∀ it, r = some it → ItemIn s' it) ?_ fun r s1 h1 g1 q1 => ?_
  · unfold popItem
    cases hl : s.stack.getLast? with
    | none => exact ⟨h, .refl s, by simp⟩
    | some it =>
      have hi := h.items it (List.mem_of_getLast? hl)
      refine ⟨⟨fun x hx => (h.items x (List.dropLast_subset _ hx)).grows (.same rfl), h.edges⟩, .same rfl, ?_⟩
      rintro _ ⟨⟩
      exact hi.grows (.same rfl)
  · cases r with
    | none => exact .pure h1 trivial
    | some it =>
      refine .bind (Q1 := fun _ _ => True) ?_ fun _ s2 h2 _ _ => hR.runStack s2 h2
      have hi := q1 it rfl
      cases it with
      | pp n => exact hR.callPost _ _ _ h1 hi
      | imp n i => exact processImport_fine hR h1 hi
      | nl a b i => exact processNamelist_fine hW hR h1 hi.1 hi.2
      | pkg n name => exact .bind (hR.importPackage _ _ _ h1 hi) fun _ s2 h2 _ _ => .pure h2 trivial

include hR in
theorem addModule_fine {name} {s : St W} (h : KeptIn s) : Fine P InG s (addModule rec name s) := by
  unfold addModule
  refine .bind (Q1 := Known) (.findModule h fun r hr => hr) fun r s1 h1 g1 q1 => ?_
  refine .bind (Q1 := InG) ?_ fun n s2 h2 g2 q2 => ?_
  · cases r with
    | some n => exact .pure h1 (q1 n rfl)
    | none => exact hR.findOrLoad _ _ _ _ h1 (known_none _)
  · refine .bind (Q1 := fun _ s' => InG n s')
      ((Fine.addRoot (Q := fun _ _ => True) h2 q2 fun _ => trivial).weaken fun _ s' g _ => g _ q2)
      fun _ s3 h3 _ q3 => ?_
    exact .bind ((hR.runStack s3 h3).weaken (Q := fun _ s' => InG n s') fun _ s' g _ => g _ q3)
      fun _ s4 h4 _ q4 => .pure h4 q4

include hR in
theorem addDistribution_fine {d} {s : St W} (h : KeptIn s) : Fine P InG s (addDistribution rec d s) := by
  unfold addDistribution
  refine .bind (Q1 := Known) (.findNode h fun r hr => hr) fun r s1 h1 g1 q1 => ?_
  cases r with
  | some n => exact .bind (Q1 := fun _ s' => InG n s') (.assert h1 (q1 n rfl)) fun _ s2 h2 _ q2 => .pure h2 q2
  | none =>
    refine .bind (.addNode h1) fun _ s2 h2 g2 q2 => ?_
    have q2 : s2.has d.identifier = true := q2
    refine .bind (Q1 := fun _ s' => s'.has d.identifier = true)
      ((Fine.addRoot (Q := fun _ _ => True) h2 q2 fun _ => trivial).weaken fun _ s' g _ => g _ q2)
      fun _ s3 h3 _ q3 => ?_
    refine .bind (Q1 := fun _ s' => s'.has d.identifier = true) ((Fine.forEach (Q := fun _ _ => True) h3
      (fun x _ s4 h4 g4 => ?_) fun _ => trivial).weaken fun _ s' g _ => g _ q3) fun _ s4 h4 _ q4 => ?_
    · exact .bind (hR.findOrLoad _ _ _ _ h4 (known_none _)) fun o s5 h5 g5 q5 =>
        .addEdge h5 (g5 _ (g4 _ q3)) q5 fun _ => trivial
    · exact .bind ((hR.runStack s4 h4).weaken (Q := fun _ s' => s'.has d.identifier = true) fun _ s' g _ => g _ q4)
        fun _ s5 h5 _ q5 => .pure h5 q5

theorem foldl_kept {α : Type} {f : St W → α → St W} (hf : ∀ s a, (f s a).nodes = s.nodes ∧ (f s a).stack = s.stack ∧
    (f s a).edges = s.edges) (l : List α) (s : St W) : (l.foldl f s).nodes = s.nodes ∧
    (l.foldl f s).stack = s.stack ∧ (l.foldl f s).edges = s.edges := by
  induction l generalizing s with
  | nil => exact ⟨rfl, rfl, rfl⟩
  | cons a l ih =>
    have := ih (f s a)
    have h := hf s a
    exact ⟨this.1.trans h.1, this.2.1.trans h.2.1, this.2.2.trans h.2.2⟩

theorem addImply_kept (s : St W) (p) : (addImply s p).nodes = s.nodes ∧ (addImply s p).stack = s.stack ∧
    (addImply s p).edges = s.edges := by
  unfold addImply; split <;> exact ⟨rfl, rfl, rfl⟩

theorem modify_fine {f : St W → St W} {Q : Option Node → St W → Prop} {s : St W} (h : KeptIn s)
    (hn : (f s).nodes = s.nodes) (hs : (f s).stack = s.stack) (he : (f s).edges = s.edges)
    (hq : Q none (f s)) : Fine P Q s (M.bind (M.modify f) (fun _ => M.pure none) s) :=
  ⟨h.same hn hs he, .same hn, hq⟩

include hW hR in
theorem api_fine {o known} {s : St W} (h : KeptIn s) (hk : ∀ x ∈ known, s.has x = true) (hu : UsesKnown P known o) :
    Fine P (fun r s' => ∀ x ∈ learnt o (.ok r), s'.has x = true) s (apiBody env rec o s) := by
  cases o with
  | addScript p =>
    refine .bind (Q1 := InG) ?_ fun n s1 h1 _ q1 => .pure h1 (by simpa [learnt] using q1)
    unfold addScript
    refine .bind (Q1 := fun _ _ => True) (.findModule h fun _ _ => trivial) fun r s1 h1 _ _ => ?_
    cases r with
    | some n => exact .throw h1 (by simp [Allowed])
    | none =>
      refine .bind (Q1 := fun _ _ => True) (.ext h1 (hW.loadScript _) fun _ _ => trivial) fun q s2 h2 _ _ => ?_
      refine .addSched h2 fun s3 h3 g3 q3 => ?_
      refine .bind (Q1 := fun _ s' => s'.has p = true)
        ((Fine.addRoot (Q := fun _ _ => True) h3 q3 fun _ => trivial).weaken fun _ s' g _ => g _ q3)
        fun _ s4 h4 _ q4 => ?_
      exact .bind ((hR.runStack s4 h4).weaken (Q := fun _ s' => s'.has p = true) fun _ s' g _ => g _ q4)
        fun _ s5 h5 _ q5 => .pure h5 q5
  | addModule x => exact .bind (addModule_fine hR h) fun n s1 h1 _ q1 => .pure h1 (by simpa [learnt] using q1)
  | addDependenciesForSource src =>
    refine .bind (Q1 := fun _ _ => True) ?_ fun n s1 h1 _ q1 => .pure h1 (by simp [learnt])
    unfold addDependenciesForSource
    refine .bind (Q1 := fun _ _ => True) (.ext h (hW.parseSource _) fun _ _ => trivial) fun infos s1 h1 _ _ => ?_
    refine .forEach h1 (fun i _ s2 h2 _ => ?_) fun _ => trivial
    refine .bind (addModule_fine hR h2) fun _ s3 h3 _ _ => ?_
    refine .forEach h3 (fun nm _ s4 h4 _ => ?_) fun _ => trivial
    exact .bind (addModule_fine hR h4) fun _ s5 h5 _ _ => .pure h5 trivial
  | addDistribution d =>
    exact .bind (addDistribution_fine hR h) fun n s1 h1 _ q1 => .pure h1 (by simpa [learnt] using q1)
  | addDistributionNamed x =>
    refine .bind (Q1 := InG) ?_ fun n s1 h1 _ q1 => .pure h1 (by simpa [learnt] using q1)
    unfold addDistributionNamed
    refine .bind (Q1 := fun _ _ => True) (.ext h (hW.distributionNamed _) fun _ _ => trivial) fun r s1 h1 _ _ => ?_
    cases r with
    | none => exact .throw h1 (by simp [Allowed])
    | some d => exact addDistribution_fine hR h1
  | importModule m x =>
    have hm : InG m s := hk _ hu
    refine .bind (Q1 := InG) ?_ fun n s1 h1 _ q1 => .pure h1 (by simpa [learnt] using q1)
    unfold importModule
    refine .bind (Q1 := Known) (.findModule h fun r hr => hr) fun r s1 h1 g1 q1 => ?_
    refine .bind (Q1 := InG) ?_ fun n s2 h2 g2 q2 => ?_
    · cases r with
      | some n => exact .pure h1 (q1 n rfl)
      | none => exact hR.findOrLoad _ _ _ _ h1 (known_some (g1 _ hm))
    · exact .bind (Q1 := fun _ s' => InG n s')
        ((Fine.addEdge (Q := fun _ _ => True) h2 (g2 _ (g1 _ hm)) q2 fun _ => trivial).weaken fun _ s' g _ => g _ q2)
        fun _ s3 h3 _ q3 => .pure h3 q3
  | importPackage m x =>
    exact .bind (hR.importPackage _ _ _ h (hk _ hu)) fun n s1 h1 _ q1 => .pure h1 (by simpa [learnt] using q1)
  | runStack => exact .bind (hR.runStack s h) fun _ s1 h1 _ _ => .pure h1 (by simp [learnt])
  | addMissingHook x =>
    exact modify_fine (f := fun s => { s with missHooks := x :: s.missHooks }) h rfl rfl rfl (by simp [learnt])
  | addPostHook x =>
    exact modify_fine (f := fun s => { s with postHooks := x :: s.postHooks }) h rfl rfl rfl (by simp [learnt])
  | addExcludes l =>
    have := foldl_kept (f := addExclude) (fun (s : St W) a => ⟨rfl, rfl, rfl⟩) l s
    exact modify_fine (f := fun s => l.foldl addExclude s) h this.1 this.2.1 this.2.2 (by simp [learnt])
  | addExcludesStr x => exact .throw h (.inl hu)
  | addImplies l =>
    have := foldl_kept (addImply_kept (W := W)) l s
    exact modify_fine (f := fun s => l.foldl addImply s) h this.1 this.2.1 this.2.2 (by simp [learnt])
  | addNode n => exact .bind (.addNode h) fun _ s1 h1 _ q1 => .pure h1 (by simpa [learnt] using q1)
  | addEdge a b d =>
    exact .bind (Q1 := fun _ _ => True) (.addEdge h (hk _ hu.1) (hk _ hu.2) fun _ => trivial)
      fun _ s1 h1 _ _ => .pure h1 (by simp [learnt])
  | addRoot a =>
    exact .bind (Q1 := fun _ _ => True) (.addRoot h (hk _ hu) fun _ => trivial)
      fun _ s1 h1 _ _ => .pure h1 (by simp [learnt])
  | processImportList n l =>
    exact .bind (Q1 := fun _ _ => True) (.schedule h (hk _ hu) fun _ _ => trivial)
      fun _ s1 h1 _ _ => .pure h1 (by simp [learnt])

include hW hR in
theorem op_fine {o known} {s : St W} (h : KeptIn s) (hk : ∀ x ∈ known, s.has x = true) (hu : UsesKnown P known o) :
    Fine P (fun r s' => ∀ x ∈ learnt o (.ok r), s'.has x = true) s (opBody env rec o s) := by
  have := api_fine hW hR h hk hu
  unfold opBody
  cases hr : apiBody env rec o s with
  | mk r s1 =>
    rw [hr] at this
    cases r with
    | ok a => exact this
    | error e => exact ⟨this.1.same rfl rfl rfl, this.2.1.trans (.same rfl), this.2.2⟩

end

theorem calls_fine {env : Env W} (hW : WorldRaises P env) (hH : HooksCareful P env) (n : Nat) : RecFine P (calls env n) := by
  have hf : Allowed P .fuel := by simp [Allowed]
  induction n with
  | zero =>
    exact ⟨fun _ _ _ _ h _ => .throw h hf, fun _ _ _ h _ => .throw h hf, fun _ _ _ h _ => .throw h hf,
      fun _ _ _ h _ => .throw h hf, fun _ _ _ h _ => .throw h hf, fun _ h => .throw h hf,
      fun _ _ _ h _ => .throw h hf, fun _ _ _ _ h _ => .throw h hf, fun _ _ _ h _ _ => .throw h hf⟩
  | succ n ih =>
    exact ⟨fun _ _ _ _ h hi => findOrLoad_fine ih h hi, fun _ _ _ h hi => implied_fine ih h hi,
      fun _ _ _ h hi => loadModule_fine hW ih h hi, fun _ _ _ h hi => createMissing_fine ih h hi,
      fun _ _ _ h hi => importPackage_fine hW ih h hi, fun _ h => runStack_fine hW ih h,
      fun _ _ _ h hi => callPost_fine hW ih hH h hi, fun _ _ _ _ h hi => callMissing_fine hW ih hH h hi,
      fun _ _ _ h hk hu => op_fine hW ih h hk hu⟩

end Verif
