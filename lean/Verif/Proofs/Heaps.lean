import Verif.Proofs.Exact
import Verif.Proofs.Load
/-!
# Whose import statements loading puts on the queue

`_find_or_load_module` of `x` only puts import statements of modules on the queue that `x` brings with
it, and that were not in the graph before.
-/
namespace Verif
open M Spec
variable {W : Type} {α β : Type}

/-- The module whose import statement or name list the item is. -/
def Item.owner : Item → Option Str
  | .imp m _ => some m.ident
  | .nl a _ _ => some a.ident
  | _ => none

/-- What may still be looked up is configured like that. -/
def LazyOk (S : Setup) (s : St W) : Prop := ∀ x v, s.lazy x = some v → S.conf x = some v

/-- What was queued since `s0` belongs to new modules with `P`. -/
structure Heaps (P : Str → Prop) (s0 s : St W) : Prop where
  stack : ∃ rest, s.stack = s0.stack ++ rest ∧
    ∀ it ∈ rest, ∀ z, it.owner = some z → P z ∧ s0.has z = false
  has : ∀ y, s0.has y = true → s.has y = true
  lazy : ∀ y v, s.lazy y = some v → s0.lazy y = some v

section
variable {P P' : Str → Prop} {s0 s s' : St W}

theorem Heaps.refl (s : St W) : Heaps P s s :=
  ⟨⟨[], by simp, by simp⟩, fun _ h => h, fun _ _ h => h⟩

theorem Heaps.same (h : Heaps P s0 s) (hs : s'.stack = s.stack) (hh : ∀ y, s.has y = true → s'.has y = true)
    (hl : ∀ y v, s'.lazy y = some v → s.lazy y = some v) : Heaps P s0 s' :=
  ⟨by rw [hs]; exact h.stack, fun y hy => hh y (h.has y hy), fun y v hv => h.lazy y v (hl y v hv)⟩

theorem Heaps.trans (h : Heaps P s0 s) (h' : Heaps P' s s') (hp : ∀ z, P' z → P z) : Heaps P s0 s' := by
  obtain ⟨r, h1, h2⟩ := h.stack
  obtain ⟨r', h3, h4⟩ := h'.stack
  refine ⟨⟨r ++ r', by rw [h3, h1, List.append_assoc], ?_⟩, fun y hy => h'.has y (h.has y hy),
    fun y v hv => h.lazy y v (h'.lazy y v hv)⟩
  intro it hit z hz
  rcases List.mem_append.mp hit with hit | hit
  · exact h2 it hit z hz
  · obtain ⟨h5, h6⟩ := h4 it hit z hz
    refine ⟨hp z h5, ?_⟩
    cases h7 : s0.has z with
    | false => rfl
    | true => rw [h.has z h7] at h6; cases h6

theorem LazyOk.of {S : Setup} (h : LazyOk S s0) (hs : Heaps P s0 s) : LazyOk S s :=
  fun x v hv => h x v (hs.lazy x v hv)

end

/-- The names in `F` are new; `m` queues items of modules with `P` and gives a result with `Q`. -/
def HT (S : Setup) (F P : Str → Prop) (m : M W α) (Q : α → Prop) : Prop :=
  ∀ s0 s, LazyOk S s0 → (∀ y, F y → s0.has y = false) → Heaps P s0 s →
    Heaps P s0 (m s).2 ∧ ∀ a, (m s).1 = .ok a → Q a

section
variable {S : Setup} {F P : Str → Prop} {Q : α → Prop} {Q' : β → Prop}

theorem HT.bind {m : M W α} {f : α → M W β} (h : HT S F P m Q) (h' : ∀ a, Q a → HT S F P (f a) Q') :
    HT S F P (M.bind m f) Q' := by
  intro s0 s hl hF hs
  obtain ⟨h1, h2⟩ := h s0 s hl hF hs
  cases hm : m s with
  | mk r s1 =>
    rw [hm] at h1 h2
    cases r with
    | ok a => rw [M.bind_of_ok hm]; exact h' a (h2 a rfl) s0 s1 hl hF h1
    | error e =>
      rw [M.bind_of_error hm]
      exact ⟨h1, by simp⟩

theorem HT.pure {a : α} (h : Q a) : HT S F P (M.pure a : M W α) Q :=
  fun _ _ _ _ hs => ⟨hs, fun b hb => by cases hb; exact h⟩
theorem HT.throw {e} : HT S F P (M.throw e : M W α) Q :=
  fun _ _ _ _ hs => ⟨hs, fun b hb => by cases hb⟩
theorem HT.ext {x : Ext W α} (h : ∀ w a, (x w).1 = .ok a → Q a) : HT S F P (M.ext x) Q :=
  fun _ s _ _ hs => ⟨hs.same rfl (fun _ h => h) (fun _ _ h => h), fun a ha => h s.world a ha⟩
theorem HT.ext' {x : Ext W α} : HT S F P (M.ext x) (fun _ => True) := .ext fun _ _ _ => trivial
theorem HT.ofExcept {r : Except Exc α} : HT S F P (M.ofExcept r : M W α) (fun a => r = .ok a) :=
  fun _ _ _ _ hs => ⟨hs, fun _ ha => ha⟩
theorem HT.get : HT S F P (M.get : M W (St W)) (fun s => LazyOk S s) :=
  fun _ s hl _ hs => ⟨hs, fun _ ha => by cases ha; exact hl.of hs⟩
theorem HT.findNode {x} : HT S F P (M.findNode x : M W _) (fun _ => True) :=
  fun _ _ _ _ hs => ⟨hs, fun _ _ => trivial⟩
theorem HT.findModule {x} : HT S F P (M.findModule x : M W _) (fun _ => True) := by
  intro s0 s _ _ hs
  refine ⟨?_, fun _ _ => trivial⟩
  unfold M.findModule
  split
  · split <;> exact hs
  · exact hs
theorem HT.assert {b} : HT S F P (M.assert b : M W _) (fun _ => True) := by
  unfold M.assert
  split
  · exact .pure trivial
  · exact .throw
theorem HT.modify {f : St W → St W} (h1 : ∀ s, (f s).stack = s.stack) (h2 : ∀ s, (f s).nodes = s.nodes)
    (h3 : ∀ s y v, (f s).lazy y = some v → s.lazy y = some v) :
    HT S F P (M.modify f) (fun _ => True) :=
  fun _ s _ _ hs => ⟨hs.same (h1 s) (fun y h => by
    show (f s).has y = true; unfold St.has at *; rw [h2]; exact h) (h3 s), fun _ _ => trivial⟩

theorem HT.attempt {m : M W α} (h : HT S F P m Q) :
    HT S F P (M.attempt m) (fun r => ∀ a, r = .ok a → Q a) := by
  intro s0 s hl hF hs
  obtain ⟨h1, h2⟩ := h s0 s hl hF hs
  unfold M.attempt
  split
  · rename_i hm
    rw [hm] at h1
    exact ⟨h1, by simp⟩
  · rename_i r s1 _ hm
    rw [hm] at h1 h2
    refine ⟨h1, fun a ha b hb => ?_⟩
    cases ha
    exact h2 b hb

theorem HT.weaken {Q' : α → Prop} {m : M W α} (h : HT S F P m Q) (hq : ∀ a, Q a → Q' a) : HT S F P m Q' :=
  fun s0 s hl hF hs => ⟨(h s0 s hl hF hs).1, fun a ha => hq a ((h s0 s hl hF hs).2 a ha)⟩

theorem HT.addNode {n : Node} {f : Unit → M W β}
    (h : HT S (fun y => F y ∨ y = n.ident) P (f ()) Q') : HT S F P (M.bind (M.addNode n) f) Q' := by
  intro s0 s hl hF hs
  by_cases hh : s.has n.ident = true
  · rw [M.bind_of_error (m := M.addNode n) (s := s) (e := .valueError false) (s' := s)
      (by simp [M.addNode, hh])]
    exact ⟨hs, by simp⟩
  · rw [M.bind_of_ok (m := M.addNode n) (s := s) (a := ()) (s' := s.addNode n) (by simp [M.addNode, hh])]
    refine h s0 (s.addNode n) hl ?_ (hs.same rfl (fun y hy => by rw [has_addNode, hy]; rfl) (fun _ _ h => h))
    rintro y (hy | rfl)
    · exact hF y hy
    · cases h7 : s0.has n.ident with
      | false => rfl
      | true => exact absurd (hs.has _ h7) hh

theorem HT.schedule {n : Node} {i} (h : i = [] ∨ (P n.ident ∧ F n.ident)) :
    HT S F P (M.schedule n i : M W _) (fun _ => True) := by
  intro s0 s hl hF hs
  refine ⟨?_, fun _ _ => trivial⟩
  have h1 : (s.schedule n i).nodes = s.nodes := schedule_nodes ..
  have h2 : (s.schedule n i).lazy = s.lazy := by unfold St.schedule; simp only []; split <;> rfl
  obtain ⟨rest, h3, h4⟩ := hs.stack
  have key : ∃ new, (s.schedule n i).stack = s.stack ++ new ∧ ∀ it ∈ new, ∀ z, it.owner = some z →
      i ≠ [] ∧ z = n.ident := by
    have hi : ∀ it ∈ i.map (fun j => Item.imp n j), ∀ z, it.owner = some z → i ≠ [] ∧ z = n.ident := by
      intro it hit z hz
      obtain ⟨j, hj, rfl⟩ := List.mem_map.mp hit
      cases hz
      exact ⟨fun h => (by rw [h] at hj; cases hj), rfl⟩
    unfold St.schedule
    simp only []
    split
    · refine ⟨_, rfl, fun it hit => hi it ?_⟩
      simpa using hit
    · refine ⟨_, List.append_assoc .., fun it hit => ?_⟩
      rcases List.mem_append.mp hit with hit | hit
      · rw [List.mem_singleton.mp hit]
        intro z hz; cases hz
      · exact hi it (by simpa using hit)
  obtain ⟨new, h5, h6⟩ := key
  refine ⟨⟨rest ++ new, ?_, ?_⟩, fun y hy => ?_, fun y v hv => hs.lazy y v (h2 ▸ hv)⟩
  · show (s.schedule n i).stack = _
    rw [h5, h3, List.append_assoc]
  · intro it hit z hz
    rcases List.mem_append.mp hit with hit | hit
    · exact h4 it hit z hz
    · obtain ⟨h7, rfl⟩ := h6 it hit z hz
      rcases h with h | ⟨h8, h9⟩
      · exact absurd h h7
      · exact ⟨h8, hF _ h9⟩
  · have := hs.has y hy
    show (s.schedule n i).has y = true
    unfold St.has at *
    rw [h1]; exact this

theorem HT.addEdge {a b : Str} {d} : HT S F P (M.addEdge a b d : M W _) (fun _ => True) := by
  intro s0 s hl hF hs
  refine ⟨?_, fun _ _ => trivial⟩
  unfold M.addEdge
  split
  · refine hs.same (addEdge_stack ..) (fun y hy => ?_) (fun y v hv => ?_)
    · show (s.addEdge a b d).has y = true
      unfold St.has at *; rw [addEdge_nodes]; exact hy
    · have : (s.addEdge a b d).lazy = s.lazy := by unfold St.addEdge; split <;> rfl
      exact this ▸ hv
  · exact hs

theorem HT.forEach {l : List α} {f : α → M W Unit} (h : ∀ a ∈ l, HT S F P (f a) (fun _ => True)) :
    HT S F P (M.forEach l f) (fun _ => True) := by
  induction l with
  | nil => exact .pure trivial
  | cons a l ih =>
    exact .bind (h a (List.mem_cons_self ..)) fun _ _ => ih fun a ha => h a (List.mem_cons_of_mem _ ha)

theorem HT.passive {rec : Calls W} {h : Hook W} (hh : h.Passive) :
    HT S F P (interp rec h) (fun _ => True) := by
  intro s0 s hl hF hs
  refine ⟨?_, fun _ _ => trivial⟩
  induction hh generalizing s with
  | ret => exact hs
  | raise e => exact hs
  | look _ ih => exact ih s _ (hs.same rfl (fun _ h => h) (fun _ _ h => h))
  | setWorld _ ih => exact ih _ (hs.same rfl (fun _ h => h) (fun _ _ h => h))

/-- A call for another module. -/
theorem HT.other {P' : Str → Prop} {m : M W α} (h : HT S (fun _ => False) P' m Q) (hp : ∀ z, P' z → P z) :
    HT S F P m Q := by
  intro s0 s hl hF hs
  obtain ⟨h1, h2⟩ := h s s (hl.of hs) (by simp) (.refl s)
  exact ⟨hs.trans h1 hp, h2⟩

end

section
variable {S : Setup} {env : Env W} {F P : Str → Prop}

theorem HT.swig (imp : Option Node) (name : Str) : HT S F P (swigHook env imp name) (fun _ => True) := by
  unfold swigHook
  cases imp with
  | none => exact .pure trivial
  | some imp =>
    simp only []
    split
    · exact .pure trivial
    split
    · exact .pure trivial
    refine .bind .get fun s _ => ?_
    split
    · exact .pure trivial
    refine .bind (.attempt .ext') fun r _ => .bind (Q := fun _ => True) ?_ fun sp _ => ?_
    · cases r with
      | ok sp => exact .pure trivial
      | error e =>
        simp only []
        split
        · refine .bind .ext' fun sp _ => ?_
          cases sp with
          | none => exact .throw
          | some sp =>
            simp only []
            cases sp.origin with
            | none => exact .throw
            | some o =>
              exact .bind (.modify (fun _ => rfl) (fun _ => rfl) fun _ _ _ h => h) fun _ _ =>
                .bind .ext' fun _ _ => .bind .ext' fun _ _ => .pure trivial
        · exact .throw
    · cases sp with
      | none => exact .pure trivial
      | some sp =>
        refine .bind .ext' fun p _ => ?_
        split
        · exact .pure trivial
        · exact .bind .assert fun _ _ => .addNode (.pure trivial)

/-- Missing modules have no import statements. -/
theorem missing_heaps (hM : ∀ k i n, (env.userMissing k i n).Passive) (n : Nat) :
    (∀ F P i name, HT S F P ((calls env n).createMissing i name) (fun _ => True)) ∧
    (∀ F P k i name, HT S F P ((calls env n).callMissing k i name) (fun _ => True)) := by
  induction n with
  | zero => exact ⟨fun _ _ _ _ => .throw, fun _ _ _ _ _ => .throw⟩
  | succ n ih =>
    constructor
    · intro F P i name
      show HT S F P (createMissingBody (calls env n) i name) _
      refine .bind (ih.2 _ _ _ _ _) fun r _ => ?_
      cases r with
      | some m => exact .pure trivial
      | none => exact .addNode (.bind (.schedule (.inl rfl)) fun _ _ => .pure trivial)
    · intro F P k i name
      show HT S F P (callMissingBody env (calls env n) k i name) _
      unfold callMissingBody
      refine .bind .get fun s _ => ?_
      cases s.missHooks[k]? with
      | none => exact .pure trivial
      | some hk =>
        refine .bind (.modify (fun _ => rfl) (fun _ => rfl) fun _ _ _ h => h) fun _ _ => ?_
        refine .bind (Q := fun _ => True) ?_ fun r _ => ?_
        · cases hk with
          | swig => exact .swig _ _
          | user j => exact .passive (hM j i name)
        · cases r with
          | some m => exact .pure trivial
          | none => exact ih.2 _ _ _ _ _

theorem HT.fallback {rec : Calls W} {imp name e}
    (h1 : HT S F P (rec.loadModule imp name) (fun _ => True))
    (h2 : HT S F P (rec.createMissing imp name) (fun _ => True)) :
    HT S F P (loadFallback env rec imp name e) (fun _ => True) := by
  unfold loadFallback
  split
  · refine .bind .get fun s _ => ?_
    split
    · exact .throw
    refine .bind .ext' fun sp _ => ?_
    cases sp with
    | none => exact .throw
    | some sp =>
      refine .bind .get fun s _ => ?_
      split
      · exact .throw
      refine .bind .ext' fun b _ => ?_
      split
      · cases sp.origin with
        | none => exact .throw
        | some o =>
          simp only []
          split
          · exact .throw
          · exact .bind (.modify (fun _ => rfl) (fun _ => rfl) fun _ _ _ h => h) fun _ _ => h1
      · exact h2
  · exact h2

theorem HT.load {rec : Calls W} {imp name}
    (h1 : HT S F P (rec.loadModule imp name) (fun _ => True))
    (h2 : HT S F P (rec.createMissing imp name) (fun _ => True))
    (h3 : ∀ spec, (∃ w, (resolveSpec env name w).1 = .ok (some spec)) →
      HT S F P (addLoaded env rec name spec) (fun _ => True)) :
    HT S F P (loadModuleBody env rec imp name) (fun _ => True) := by
  unfold loadModuleBody
  split
  · exact .throw
  refine .bind .findNode fun r _ => ?_
  cases r with
  | some m => exact .pure trivial
  | none =>
    refine .bind (.attempt (Q := fun v => ∀ spec, v = .inr spec →
      ∃ w, (resolveSpec env name w).1 = .ok (some spec)) ?_) fun r hr => ?_
    · refine .bind (.ext (Q := fun sp => ∃ w, (resolveSpec env name w).1 = .ok sp) fun w _ h => ⟨w, h⟩)
        fun sp hsp => ?_
      cases sp with
      | none => exact .bind h2 fun _ _ => .pure (by simp)
      | some spec => exact .pure (by intro sp' h; cases h; exact hsp)
    · cases r with
      | ok v =>
        cases v with
        | inl m => exact .pure trivial
        | inr sp => exact h3 sp (hr _ rfl sp rfl)
      | error e =>
        simp only []
        split
        · exact .fallback h1 h2
        · exact .throw

/-- The module itself, if it is not linked. -/
theorem own_heaps (hD : S.Describes env) (hM : ∀ k i n, (env.userMissing k i n).Passive) {x : Str}
    (hx : ¬ S.Linked x) (n : Nat) (i : Option Node) :
    HT S F (fun z => z = x) ((calls env n).loadModule i x) (fun _ => True) := by
  induction n with
  | zero => exact .throw
  | succ n ih =>
    show HT S F _ (loadModuleBody env (calls env n) i x) _
    refine .load ih ((missing_heaps hM n).1 _ _ _ _) ?_
    rintro spec ⟨w, hw⟩
    unfold addLoaded
    refine .bind (.ext (Q := fun p => S.mods x = some p) fun w' p h => hD.found x spec w w' p (locates_iff.mpr hw) h)
      fun p hp => ?_
    simp only []
    have hid : p.1.ident = x := Classical.byContradiction fun h => hx (.inr ⟨_, _, hp, .inl h⟩)
    rw [if_neg (by simp [hid])]
    refine .addNode ?_
    refine .bind (Q := fun _ => True) ?_ fun _ _ =>
      .bind (.schedule (.inr ⟨hid, .inr rfl⟩)) fun _ _ => .pure trivial
    split
    · rename_i fr init sp hd ns hk
      exact absurd (.inr ⟨_, _, hp, .inr ⟨_, _, _, _, _, hk⟩⟩) hx
    · exact .pure trivial

theorem Spec.Setup.Draws.trans {x y z : Str} (h : S.Draws x y) (h' : S.Draws y z) : S.Draws x z := by
  induction h' with
  | self => exact h
  | package _ h2 ih => exact .package ih h2
  | alias _ h2 ih => exact .alias ih h2
  | implied _ h2 h3 ih => exact .implied ih h2 h3
  | foundAs _ h2 ih => exact .foundAs ih h2
  | explicitNamespace _ h2 h3 ih => exact .explicitNamespace ih h2 h3

/-- What loading brings. -/
theorem calls_heaps (hD : S.Describes env) (hM : ∀ k i n, (env.userMissing k i n).Passive) (n : Nat) :
    (∀ F x i lm, HT S F (S.Draws x) ((calls env n).findOrLoad i x lm) (fun _ => True)) ∧
    (∀ F x i, HT S F (S.Draws x) ((calls env n).implied i x) (fun _ => True)) ∧
    (∀ F x i, HT S F (S.Draws x) ((calls env n).loadModule i x) (fun _ => True)) := by
  induction n with
  | zero => exact ⟨fun _ _ _ _ => .throw, fun _ _ _ => .throw, fun _ _ _ => .throw⟩
  | succ n ih =>
    obtain ⟨ih1, ih2, ih3⟩ := ih
    have ihm := (missing_heaps (S := S) hM n).1
    refine ⟨?_, ?_, ?_⟩
    · intro F x i lm
      show HT S F _ (findOrLoadBody (calls env n) i x lm) _
      unfold findOrLoadBody
      refine .bind .findModule fun r _ => ?_
      cases r with
      | some y => exact .pure trivial
      | none =>
        refine .bind .ofExcept fun sp hsp => ?_
        refine .bind (Q := fun _ => True) ?_ fun pn _ => .bind (Q := fun _ => True) ?_ fun node _ => ?_
        · cases hp : sp.1 with
          | none => exact .pure trivial
          | some pkg =>
            have hpk : InPackage x pkg := inPackage_of_split (b := sp.2) (by rw [hsp, ← hp])
            refine .bind (.other (ih1 _ pkg _ _) fun z hz => (Setup.Draws.package .self hpk).trans hz)
              fun parent _ => ?_
            split
            · exact .bind (ihm _ _ _ _) fun _ _ => .pure trivial
            split
            · exact .addNode (.bind (.schedule (.inl rfl)) fun _ _ => .pure trivial)
            · exact .pure trivial
        · cases pn.2 with
          | some m => exact .pure trivial
          | none =>
            refine .bind (ih2 _ _ _) fun im _ => ?_
            cases im with
            | some m => exact .pure trivial
            | none => exact ih3 _ _ _
        · split
          · split
            · exact .bind .addEdge fun _ _ => .pure trivial
            · exact .pure trivial
          · exact .pure trivial
    · intro F x i
      show HT S F _ (impliedBody (calls env n) i x) _
      unfold impliedBody
      refine .bind .findNode fun r _ => ?_
      cases r with
      | some _ => exact .pure trivial
      | none =>
        refine .bind .get fun s hl => ?_
        cases hv : s.lazy x with
        | none => exact .pure trivial
        | some v =>
          have hc := hl x v hv
          refine .bind (.modify (fun _ => rfl) (fun _ => rfl) fun s y v h => ?_) fun _ _ => ?_
          · simp only at h
            split at h
            · cases h
            · exact h
          cases v with
          | excluded =>
            exact .addNode (.bind (.schedule (.inl rfl)) fun _ _ => .pure trivial)
          | alias t =>
            exact .addNode (.bind (.schedule (.inl rfl)) fun _ _ => .bind (.other (ih1 _ t _ _) fun z hz =>
              (Setup.Draws.alias .self (.inl hc)).trans hz) fun _ _ => .bind .addEdge fun _ _ => .pure trivial)
          | virtual t =>
            exact .addNode (.bind (.schedule (.inl rfl)) fun _ _ => .bind (.other (ih1 _ t _ _) fun z hz =>
              (Setup.Draws.alias .self (.inr hc)).trans hz) fun _ _ => .bind .addEdge fun _ _ => .pure trivial)
          | refs names =>
            exact .bind (ih1 _ _ _ _) fun node _ => .bind (.forEach fun r hr =>
              .bind (.other (ih1 _ r _ _) fun z hz => (Setup.Draws.implied .self hc hr).trans hz)
                fun _ _ => .addEdge) fun _ _ => .pure trivial
    · intro F x i
      show HT S F _ (loadModuleBody env (calls env n) i x) _
      refine .load (ih3 _ _ _) (ihm _ _ _ _) ?_
      rintro spec ⟨w, hw⟩
      unfold addLoaded
      refine .bind (.ext (Q := fun p => S.mods x = some p) fun w' p h => hD.found x spec w w' p (locates_iff.mpr hw) h)
        fun p hp => ?_
      simp only []
      have hfa : S.Draws x p.1.ident := .foundAs .self hp
      split
      · refine .addNode (.bind (.schedule (.inl rfl)) fun _ _ => .bind .findNode fun found _ =>
          .bind (Q := fun _ => True) ?_ fun _ _ => .bind .addEdge fun _ _ => .pure trivial)
        cases found with
        | some _ => exact .pure trivial
        | none =>
          refine .addNode (.bind (.schedule (.inr ⟨hfa, .inr rfl⟩)) fun _ _ =>
            .bind .ofExcept fun sp hsp => ?_)
          cases hsp1 : sp.1 with
          | none => exact .pure trivial
          | some pkg =>
            have hpk : InPackage p.1.ident pkg := inPackage_of_split (b := sp.2) (by rw [hsp, ← hsp1])
            exact .bind (.other (ih1 _ pkg _ _) fun z hz => (Setup.Draws.package hfa hpk).trans hz)
              fun _ _ => .addEdge
      · refine .addNode ?_
        refine .bind (Q := fun _ => True) ?_ fun _ _ =>
          .bind (.schedule (.inr ⟨hfa, .inr rfl⟩)) fun _ _ => .pure trivial
        split
        · rename_i fr init sp hd ns hk
          refine .bind (.other (ih1 _ (Setup.nsModule ns) _ _) fun z hz =>
            (Setup.Draws.explicitNamespace .self hp hk).trans hz) fun _ _ => .addEdge
        · exact .pure trivial

/-! ## The order on the queue -/

/-- What is above on the queue may be looked at while the other is waiting. -/
def OverItem (S : Setup) (Y Z : Item) : Prop := ∀ c z, Y.owner = some c → Z.owner = some z → S.Over c z

theorem HT.run {Q : α → Prop} {m : M W α} (h : HT S (fun _ => False) P m Q) {s s' : St W} {r}
    (hl : LazyOk S s) (hr : m s = (r, s')) : Heaps P s s' := by
  have := (h s s hl (by simp) (.refl s)).1
  rw [hr] at this
  exact this

/-- A module that is in the graph is not loaded again. -/
theorem findOrLoad_known (n : Nat) {x : Str} {i : Option Node} {lm : Bool} {s s' : St W} {r : Node}
    (hh : s.has x = true) (hr : (calls env n).findOrLoad i x lm s = (.ok r, s')) : s' = s := by
  cases n with
  | zero => cases hr
  | succ n =>
    change findOrLoadBody (calls env n) i x lm s = _ at hr
    unfold findOrLoadBody at hr
    obtain ⟨q, sa, ha, k1⟩ := M.bind_ok hr
    obtain ⟨rfl, hf, _⟩ := M.findModule_ok ha
    cases q with
    | some y => exact (M.pure_ok k1).2.symm
    | none => rw [find_none hf.symm] at hh; cases hh

/-- The import statements that loading `x` puts on the queue. -/
theorem load_over (hT : S.Tame) (hD : S.Describes env) (hM : ∀ k i n, (env.userMissing k i n).Passive)
    (n : Nat) {x : Str} {i : Option Node} {lm : Bool} {s s' : St W} {r : Node} (hx : S.NeedsModule x)
    (hl : LazyOk S s) (hr : (calls env n).findOrLoad i x lm s = (.ok r, s')) :
    ∃ rest, s'.stack = s.stack ++ rest ∧
      (∀ it ∈ rest, ∀ z, it.owner = some z → S.Draws x z ∧ s.has z = false) ∧
      rest.Pairwise (OverItem S) ∧
      ((∀ p, HasPackage x p → s.has p = true) → ∀ it ∈ rest, ∀ z, it.owner = some z → S.DrawsIn x z) := by
  induction n generalizing x i lm s s' r with
  | zero => cases hr
  | succ n ih =>
    obtain ⟨rest, h1, h2⟩ := (((calls_heaps hD hM (n + 1)).1 _ x i lm).run hl hr).stack
    refine ⟨rest, h1, h2, ?_⟩
    by_cases hlk : S.Linked x
    · refine ⟨List.Pairwise.imp_of_mem ?_ (List.pairwise_of_forall (R := fun _ _ => True) fun _ _ => trivial),
        fun _ it hit z hz => .inr ⟨hlk, (h2 it hit z hz).1⟩⟩
      intro Y Z hY hZ _ c z hc hz
      by_cases hcx : c = x
      · subst hcx
        exact .linked hlk (h2 Z hZ z hz).1
      · exact .together hx (Ne.symm hcx) (h2 Y hY c hc).1 (h2 Z hZ z hz).1
    · have hnone : ∀ v, S.conf x ≠ some v := fun v h => hlk (.inl (by simp [h]))
      have himp : ∀ F, HT S F (fun z => z = x) ((calls env n).implied i x) (fun _ => True) := by
        intro F
        cases n with
        | zero => exact .throw
        | succ n =>
          show HT S F _ (impliedBody (calls env n) i x) _
          unfold impliedBody
          refine .bind .findNode fun r _ => ?_
          cases r with
          | some _ => exact .pure trivial
          | none =>
            refine .bind .get fun s hl => ?_
            cases hv : s.lazy x with
            | none => exact .pure trivial
            | some v => exact absurd (hl x v hv) (hnone v)
      have hload : ∀ F, HT S F (fun z => z = x) ((calls env n).loadModule i x) (fun _ => True) :=
        fun F => own_heaps hD hM hlk n i
      have hmiss := (missing_heaps (S := S) hM n).1
      -- everything after the package is loaded
      have key : ∃ s1 r1, s1.stack = s.stack ++ r1 ∧ r1.Pairwise (OverItem S) ∧ Heaps (fun z => z = x) s1 s' ∧
          ((∀ p, HasPackage x p → s.has p = true) → r1 = []) := by
        change findOrLoadBody (calls env n) i x lm s = _ at hr
        unfold findOrLoadBody at hr
        obtain ⟨q, sa, ha, k1⟩ := M.bind_ok hr
        obtain ⟨rfl, _, _⟩ := M.findModule_ok ha
        cases q with
        | some y =>
          obtain ⟨rfl, rfl⟩ := M.pure_ok k1
          exact ⟨sa, [], by simp, .nil, .refl sa, fun _ => rfl⟩
        | none =>
          obtain ⟨sp, sb, hb, k2⟩ := M.bind_ok k1
          obtain ⟨hsp, rfl⟩ := M.ofExcept_ok hb
          have hfin : ∀ pn : Option Node × Option Node, HT S (fun _ => False) (fun z => z = x)
              (M.bind (match pn.2 with
                | some n => M.pure n
                | none =>
                  M.bind ((calls env n).implied i x) fun im =>
                  match im with
                  | some n => M.pure n
                  | none => (calls env n).loadModule i x) fun node =>
                match pn.1 with
                | some parent =>
                  if lm || !node.isMissing then
                    M.bind (M.addEdge node.ident parent.ident defaultDep) fun _ => M.pure node
                  else M.pure node
                | none => M.pure node) (fun _ => True) := by
            intro pn
            refine .bind (Q := fun _ => True) ?_ fun node _ => ?_
            · cases pn.2 with
              | some m => exact .pure trivial
              | none =>
                refine .bind (himp _) fun im _ => ?_
                cases im with
                | some m => exact .pure trivial
                | none => exact hload _
            · split
              · split
                · exact .bind .addEdge fun _ _ => .pure trivial
                · exact .pure trivial
              · exact .pure trivial
          obtain ⟨pn, sc, hc, k3⟩ := M.bind_ok k2
          cases hp : sp.1 with
          | none =>
            rw [hp] at hc
            obtain ⟨rfl, rfl⟩ := M.pure_ok hc
            exact ⟨_, [], by simp, .nil, (hfin (none, none)).run hl k3, fun _ => rfl⟩
          | some pkg =>
            rw [hp] at hc
            obtain ⟨parent, sd, hd, k4⟩ := M.bind_ok hc
            have hpk : HasPackage x pkg := hasPackage_of_split (hT.noDot x hx) (b := sp.2) (by rw [hsp, ← hp])
            obtain ⟨tr, hx'⟩ := hx
            obtain ⟨r1, e1, _, e3, _⟩ := ih ⟨_, .package hx' hpk⟩ hl hd
            have hlz := ((calls_heaps hD hM n).1 _ pkg i true).run hl hd
            have hcont : HT S (fun _ => False) (fun z => z = x)
                (if parent.isMissing then
                  M.bind ((calls env n).createMissing i x) fun n => M.pure (some parent, some n)
                else if parent.isExcluded then
                  M.bind (M.addNode (excludedNode x)) fun _ =>
                  M.bind (M.schedule (excludedNode x) []) fun _ => M.pure (some parent, some (excludedNode x))
                else M.pure (some parent, none) : M W _) (fun _ => True) := by
              split
              · exact .bind (hmiss _ _ _ _) fun _ _ => .pure trivial
              split
              · exact .addNode (.bind (.schedule (.inl rfl)) fun _ _ => .pure trivial)
              · exact .pure trivial
            have h3 := hcont.run (hl.of hlz) k4
            refine ⟨sd, r1, e1, e3, h3.trans ((hfin pn).run ((hl.of hlz).of h3) k3) fun _ h => h, fun hthere => ?_⟩
            rw [findOrLoad_known n (hthere pkg hpk) hd] at e1
            simpa using e1
      obtain ⟨s1, r1, e1, e2, e3, e6⟩ := key
      obtain ⟨r2, e4, e5⟩ := e3.stack
      have hrest : rest = r1 ++ r2 := by
        rw [e1, h1, List.append_assoc] at e4
        exact List.append_cancel_left e4
      subst hrest
      refine ⟨List.pairwise_append.mpr ⟨e2, ?_, ?_⟩, fun hthere it hit z hz => ?_⟩
      · refine List.Pairwise.imp_of_mem ?_ (List.pairwise_of_forall (R := fun _ _ => True) fun _ _ => trivial)
        intro Y Z hY hZ _ c z hc hz
        rw [(e5 Y hY c hc).1, (e5 Z hZ z hz).1]
        exact .self
      · intro Y hY Z hZ c z hc hz
        rw [(e5 Z hZ z hz).1]
        by_cases hcx : c = x
        · rw [hcx]; exact .self
        · exact .together hx (Ne.symm hcx) (h2 Y (List.mem_append_left _ hY) c hc).1 .self
      · rw [e6 hthere, List.nil_append] at hit
        exact .inl (e5 it hit z hz).1

end
end Verif
