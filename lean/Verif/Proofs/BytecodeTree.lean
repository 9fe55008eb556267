import Verif.Proofs.Bytecode
/-! # The walk over nested code objects -/
namespace Verif
open Verif.Spec

/-! ## Trees of code objects -/

theorem codesIn_eq (cs : Consts) : codesIn cs =
    (cs.toList.filterMap fun | .code d => some d | _ => none).flatMap codes := by
  match cs with
  | .nil => rfl
  | .cons c r =>
    rw [codesIn, codesIn_eq r]
    cases c <;> simp [codesOf, Consts.toList]

theorem codes_eq (c : Code) : codes c = c :: c.children.flatMap codes := by
  obtain ⟨a, n, i, cs⟩ := c
  rw [codes, codesIn_eq]
  rfl

mutual
theorem count_codes : (c : Code) → c.count = (codes c).length
  | .mk a n i cs => by
    rw [Code.count, codes, List.length_cons, count_codesIn cs]; omega
theorem count_codesIn : (cs : Consts) → cs.count = (codesIn cs).length
  | .nil => rfl
  | .cons c r => by rw [Consts.count, codesIn, List.length_append, count_codesIn r, count_codesOf c]
theorem count_codesOf : (c : Const) → c.count = (codesOf c).length
  | .code c => by rw [Const.count, codesOf, count_codes c]
  | .none => rfl
  | .int _ => rfl
  | .tuple _ => rfl
  | .other _ => rfl
end

theorem self_mem_codes (c : Code) : c ∈ codes c := by rw [codes_eq]; simp

theorem length_le_flatMap {α β : Type} {f : α → List β} {l : List α} {x : α} (h : x ∈ l) :
    (f x).length ≤ (l.flatMap f).length := by
  induction l with
  | nil => simp at h
  | cons a l ih =>
    rw [List.flatMap_cons, List.length_append]
    rcases List.mem_cons.mp h with rfl | h
    · omega
    · have := ih h; omega

theorem child_lt {c d : Code} (h : d ∈ c.children) : d.count < c.count := by
  rw [count_codes, count_codes, codes_eq c, List.length_cons]
  have := length_le_flatMap (f := codes) h
  omega

theorem codes_induct {P : Code → Prop} (h : ∀ c, (∀ d ∈ c.children, P d) → P c) (c : Code) : P c := by
  have : ∀ n (c : Code), c.count ≤ n → P c := by
    intro n
    induction n with
    | zero =>
      intro c hc
      rw [count_codes, codes_eq] at hc
      simp at hc
    | succ n ih =>
      intro c hc
      exact h c fun d hd => ih d (by have := child_lt hd; omega)
  exact this _ c (Nat.le_refl _)

theorem count_le {c d : Code} (h : d ∈ codes c) : d.count ≤ c.count := by
  induction c using codes_induct with
  | h c ih =>
    rw [codes_eq] at h
    rcases List.mem_cons.mp h with rfl | h
    · exact Nat.le_refl _
    · obtain ⟨e, he, h⟩ := List.mem_flatMap.mp h
      have := ih e he h
      have := child_lt he
      omega

theorem codes_trans {a b c : Code} (h1 : b ∈ codes a) (h2 : c ∈ codes b) : c ∈ codes a := by
  induction a using codes_induct with
  | h a ih =>
    rw [codes_eq] at h1 ⊢
    rcases List.mem_cons.mp h1 with rfl | h1
    · rw [← codes_eq]; exact h2
    · obtain ⟨e, he, h⟩ := List.mem_flatMap.mp h1
      exact List.mem_cons_of_mem _ (List.mem_flatMap.mpr ⟨e, he, ih e he h⟩)

theorem child_mem {a b c : Code} (h1 : b ∈ codes a) (h2 : c ∈ b.children) : c ∈ codes a := by
  refine codes_trans h1 ?_
  rw [codes_eq]
  exact List.mem_cons_of_mem _ (List.mem_flatMap.mpr ⟨c, h2, self_mem_codes c⟩)

theorem mem_codes_cases {a c : Code} (h : c ∈ codes a) :
    c = a ∨ ∃ p ∈ codes a, c ∈ p.children := by
  induction a using codes_induct with
  | h a ih =>
    rw [codes_eq] at h
    rcases List.mem_cons.mp h with rfl | h
    · exact .inl rfl
    · obtain ⟨e, he, h⟩ := List.mem_flatMap.mp h
      rcases ih e he h with rfl | ⟨p, hp, hc⟩
      · exact .inr ⟨a, self_mem_codes a, he⟩
      · exact .inr ⟨p, codes_trans (child_mem (self_mem_codes a) he) hp, hc⟩

theorem nodup_flatMap_mem {α β : Type} {f : α → List β} {l : List α} (h : (l.flatMap f).Nodup) :
    (∀ x ∈ l, (f x).Nodup) ∧ ∀ x ∈ l, ∀ y ∈ l, ∀ z, z ∈ f x → z ∈ f y → x = y := by
  induction l with
  | nil => simp
  | cons a l ih =>
    rw [List.flatMap_cons, List.nodup_append] at h
    obtain ⟨h1, h2, h3⟩ := h
    obtain ⟨i1, i2⟩ := ih h2
    refine ⟨fun x hx => ?_, fun x hx y hy z hzx hzy => ?_⟩
    · rcases List.mem_cons.mp hx with rfl | hx
      · exact h1
      · exact i1 x hx
    · rcases List.mem_cons.mp hx with rfl | hx
      · rcases List.mem_cons.mp hy with rfl | hy
        · rfl
        · exact absurd rfl (h3 z hzx z (List.mem_flatMap.mpr ⟨y, hy, hzy⟩))
      · rcases List.mem_cons.mp hy with rfl | hy
        · exact absurd rfl (h3 z hzy z (List.mem_flatMap.mpr ⟨x, by assumption, hzx⟩))
        · exact i2 x hx y hy z hzx hzy

/-- Code objects that occur once are nested in one place. -/
theorem parent_unique {root p q d : Code} (hn : (codes root).Nodup) (hp : p ∈ codes root)
    (hq : q ∈ codes root) (h1 : d ∈ p.children) (h2 : d ∈ q.children) : p = q := by
  induction root using codes_induct with
  | h r ih =>
    rw [codes_eq, List.nodup_cons] at hn
    obtain ⟨_, hn⟩ := hn
    obtain ⟨hn1, hn2⟩ := nodup_flatMap_mem hn
    have below : ∀ {s e}, e ∈ r.children → s ∈ codes e → d ∈ s.children → d ∈ r.children → False := by
      intro s e he hs hd hr
      have hde : d ∈ codes e := child_mem hs hd
      have := hn2 d hr e he d (self_mem_codes d) hde
      subst this
      have h3 := count_le hs
      have h4 := child_lt hd
      omega
    rw [codes_eq] at hp hq
    rcases List.mem_cons.mp hp with rfl | hp
    · rcases List.mem_cons.mp hq with rfl | hq
      · rfl
      · obtain ⟨e, he, hq⟩ := List.mem_flatMap.mp hq
        exact (below he hq h2 h1).elim
    · obtain ⟨e, he, hpe⟩ := List.mem_flatMap.mp hp
      rcases List.mem_cons.mp hq with rfl | hq
      · exact (below he hpe h1 h2).elim
      · obtain ⟨e', he', hq⟩ := List.mem_flatMap.mp hq
        have := hn2 e he e' he' d (child_mem hpe h1) (child_mem hq h2)
        subst this
        exact ih e he (hn1 e he) hpe hq

theorem Spec.MakesAt.child {new c i pre d} (h : MakesAt new c i pre d) : d ∈ c.children := by
  obtain ⟨k, _, _, _, _, _, hk, _⟩ := h
  exact List.mem_filterMap.mpr ⟨.code d, List.mem_of_getElem? hk, rfl⟩

/-! ## The walk -/

/-- The accumulators after the code objects of `done` were scanned, with `q` still to do. -/
structure WalkInv (new : Bool) (root : Code) (done q : List Code) (parents : Code → List Code)
    (acc : Found) : Prop where
  perm : (done ++ q.flatMap codes).Perm (codes root)
  chain : ∀ c ∈ q, ∀ p ∈ codes root, ∀ f ∈ p.children, f ∈ parents c ↔ c ∈ codes f
  anc : ∀ c ∈ q, ∀ p ∈ codes root, ∀ f ∈ p.children, c ∈ codes f → p ∈ done
  funcs : ∀ d, .code d ∈ acc.funcs ↔ ∃ p ∈ done, ∃ i pre, MakesAt new p i pre d ∧ ¬ ForClass new pre
  classes : ∀ d, .code d ∈ acc.classes ↔ ∃ p ∈ done, ∃ i pre, MakesAt new p i pre d ∧ ForClass new pre

theorem WalkInv.mem {new root done q parents acc} (h : WalkInv new root done q parents acc) {c}
    (hc : c ∈ done ∨ ∃ d ∈ q, c ∈ codes d) : c ∈ codes root := by
  refine h.perm.mem_iff.mp ?_
  rw [List.mem_append, List.mem_flatMap]
  exact hc

theorem foldl_update (c : Code) (ds : List Code) (hc : c ∉ ds) (ps : Code → List Code) (k : Code) :
    (ds.foldl (fun ps d => fun k => if k = d then ps c ++ [d] else ps k) ps) k =
      if k ∈ ds then ps c ++ [k] else ps k := by
  induction ds generalizing ps with
  | nil => simp
  | cons d ds ih =>
    simp only [List.mem_cons, not_or] at hc
    rw [List.foldl_cons, ih hc.2]
    by_cases h1 : k ∈ ds
    · simp [h1, hc.1]
    · by_cases h2 : k = d
      · subst h2; simp [h1]
      · simp [h1, h2]

/-- Whether the code at the head of the queue is taken to be in a function, or a class body. -/
theorem WalkInv.flags {new root done c q parents acc}
    (h : WalkInv new root done (c :: q) parents acc) :
    (isCodeForFunction c (parents c) acc.funcs = true ↔ InFunction new root c) ∧
    (decide (Const.code c ∈ acc.classes) = true ↔ ClassCode new root c) := by
  constructor
  · unfold isCodeForFunction
    rw [Bool.or_eq_true, decide_eq_true_eq, List.any_eq_true]
    constructor
    · have mk : ∀ f, .code f ∈ acc.funcs → FunctionCode new root f := by
        intro f hf
        obtain ⟨p, hp, hm⟩ := (h.funcs f).mp hf
        exact ⟨p, h.mem (.inl hp), hm⟩
      rintro (hf | ⟨f, hf, hfu⟩)
      · exact ⟨c, mk c hf, self_mem_codes c⟩
      · rw [decide_eq_true_eq] at hfu
        obtain ⟨p, hp, i, pre, hm, _⟩ := (h.funcs f).mp hfu
        exact ⟨f, mk f hfu, (h.chain c (by simp) p (h.mem (.inl hp)) f hm.child).mp hf⟩
    · rintro ⟨f, ⟨p, hp, i, pre, hm, hcls⟩, hc⟩
      have hd := h.anc c (by simp) p hp f hm.child hc
      have hfu := (h.funcs f).mpr ⟨p, hd, i, pre, hm, hcls⟩
      exact .inr ⟨f, (h.chain c (by simp) p hp f hm.child).mpr hc, by simpa using hfu⟩
  · rw [decide_eq_true_eq]
    constructor
    · intro hc
      obtain ⟨p, hp, hm⟩ := (h.classes c).mp hc
      exact ⟨p, h.mem (.inl hp), hm⟩
    · rintro ⟨p, hp, i, pre, hm, hcls⟩
      exact (h.classes c).mpr ⟨p, h.anc c (by simp) p hp c hm.child (self_mem_codes c), i, pre, hm, hcls⟩

theorem WalkInv.step {new root done c q parents acc f fn cl} (hn : (codes root).Nodup)
    (h : WalkInv new root done (c :: q) parents acc) (hs : Scanned new c fn cl f) :
    WalkInv new root (done ++ [c]) (q ++ c.children)
      (c.children.foldl (fun ps d => fun k => if k = d then ps c ++ [d] else ps k) parents)
      (acc.add f) := by
  have hc : c ∈ codes root := h.mem (.inr ⟨c, by simp, self_mem_codes c⟩)
  have hself : c ∉ c.children := fun hx => by have := child_lt hx; omega
  have hnod := h.perm.nodup_iff.mpr hn
  have hrest : ∀ x ∈ q, x ∉ c.children := by
    intro x hx hxc
    rw [List.nodup_append] at hnod
    have h2 := hnod.2.1
    rw [List.flatMap_cons, List.nodup_append] at h2
    exact h2.2.2 x (child_mem (self_mem_codes c) hxc) x
      (List.mem_flatMap.mpr ⟨x, hx, self_mem_codes x⟩) rfl
  -- what it means that a child of `c` is nested in `f`
  have hnest : ∀ d ∈ c.children, ∀ p ∈ codes root, ∀ g ∈ p.children,
      (d ∈ codes g ↔ (d = g ∨ c ∈ codes g)) := by
    intro d hd p hp g hg
    constructor
    · intro hx
      rcases mem_codes_cases hx with rfl | ⟨p', hp', hd'⟩
      · exact .inl rfl
      · have : p' = c := parent_unique hn (codes_trans (child_mem hp hg) hp') hc hd' hd
        subst this
        exact .inr hp'
    · rintro (rfl | hx)
      · exact self_mem_codes d
      · exact child_mem hx hd
  constructor
  · refine List.Perm.trans ?_ h.perm
    rw [List.flatMap_append, List.flatMap_cons, codes_eq c]
    simp only [List.append_assoc, List.cons_append, List.nil_append]
    refine List.Perm.append_left _ (List.Perm.cons _ ?_)
    exact List.perm_append_comm
  · intro x hx p hp g hg
    rw [foldl_update c _ hself]
    rcases List.mem_append.mp hx with hx | hx
    · rw [if_neg (hrest x hx)]
      exact h.chain x (by simp [hx]) p hp g hg
    · rw [if_pos hx, List.mem_append, List.mem_singleton, h.chain c (by simp) p hp g hg,
        hnest x hx p hp g hg]
      constructor
      · rintro (h | rfl)
        · exact .inr h
        · exact .inl rfl
      · rintro (rfl | h)
        · exact .inr rfl
        · exact .inl h
  · intro x hx p hp g hg hxg
    rw [List.mem_append, List.mem_singleton]
    rcases List.mem_append.mp hx with hx | hx
    · exact .inl (h.anc x (by simp [hx]) p hp g hg hxg)
    · rcases (hnest x hx p hp g hg).mp hxg with rfl | hcg
      · exact .inr (parent_unique hn hp hc hg hx)
      · exact .inl (h.anc c (by simp) p hp g hg hcg)
  · intro d
    show .code d ∈ acc.funcs ++ f.funcs ↔ _
    rw [List.mem_append, h.funcs, hs.funcs]
    constructor
    · rintro (⟨p, hp, hm⟩ | hm)
      · exact ⟨p, by simp [hp], hm⟩
      · exact ⟨c, by simp, hm⟩
    · rintro ⟨p, hp, hm⟩
      rw [List.mem_append, List.mem_singleton] at hp
      rcases hp with hp | rfl
      · exact .inl ⟨p, hp, hm⟩
      · exact .inr hm
  · intro d
    show .code d ∈ acc.classes ++ f.classes ↔ _
    rw [List.mem_append, h.classes, hs.classes]
    constructor
    · rintro (⟨p, hp, hm⟩ | hm)
      · exact ⟨p, by simp [hp], hm⟩
      · exact ⟨c, by simp, hm⟩
    · rintro ⟨p, hp, hm⟩
      rw [List.mem_append, List.mem_singleton] at hp
      rcases hp with hp | rfl
      · exact .inl ⟨p, hp, hm⟩
      · exact .inr hm

/-- One code object with what was found in it, the flags being right. -/
def PartOk (new : Bool) (root : Code) (x : Code × Found) : Prop :=
  ∃ fn cl, (fn = true ↔ InFunction new root x.1) ∧ (cl = true ↔ ClassCode new root x.1) ∧
    Scanned new x.1 fn cl x.2

theorem scanQueue_ok {new : Bool} {root : Code} (hn : (codes root).Nodup)
    (hc : ∀ c ∈ codes root, Compiled new c) (n : Nat) (done q : List Code)
    (parents : Code → List Code) (acc : Found) (hfuel : (q.flatMap codes).length ≤ n)
    (h : WalkInv new root done q parents acc) :
    ∃ (f : Found) (parts : List (Code × Found)), scanQueue new n q parents acc = .ok f ∧
      (parts.map (·.1)).Perm (q.flatMap codes) ∧ (∀ x ∈ parts, PartOk new root x) ∧
      f.imports = acc.imports ++ parts.flatMap (·.2.imports) ∧
      f.written = acc.written ++ parts.flatMap (·.2.written) ∧
      f.read = acc.read ++ parts.flatMap (·.2.read) := by
  induction n generalizing done q parents acc with
  | zero =>
    cases q with
    | nil => exact ⟨acc, [], by rw [scanQueue], .refl _, by simp, by simp, by simp, by simp⟩
    | cons c q =>
      rw [List.flatMap_cons, codes_eq] at hfuel
      simp at hfuel
  | succ n ih =>
    cases q with
    | nil => exact ⟨acc, [], by rw [scanQueue], .refl _, by simp, by simp, by simp, by simp⟩
    | cons c q =>
      have hcr : c ∈ codes root := h.mem (.inr ⟨c, by simp, self_mem_codes c⟩)
      obtain ⟨g, hg, hs⟩ := extractSingle_ok (hc c hcr)
        (isCodeForFunction c (parents c) acc.funcs) (decide (Const.code c ∈ acc.classes))
      obtain ⟨f, parts, h1, h2, h3, h4, h5, h6⟩ := ih (done ++ [c]) (q ++ c.children) _ _ (by
        rw [List.flatMap_cons, codes_eq] at hfuel
        simp only [List.cons_append, List.length_cons, List.length_append, List.flatMap_append] at hfuel ⊢
        omega) (h.step hn hs)
      refine ⟨f, (c, g) :: parts, ?_, ?_, ?_, ?_, ?_, ?_⟩
      · rw [scanQueue]
        simp only [bind, Except.bind, hg]
        exact h1
      · rw [List.map_cons, List.flatMap_cons, codes_eq c, List.cons_append]
        refine List.Perm.cons _ (h2.trans ?_)
        rw [List.flatMap_append]
        exact List.perm_append_comm
      · intro x hx
        rcases List.mem_cons.mp hx with rfl | hx
        · exact ⟨_, _, h.flags.1, h.flags.2, hs⟩
        · exact h3 x hx
      · rw [h4]; simp [Found.add]
      · rw [h5]; simp [Found.add]
      · rw [h6]; simp [Found.add]

/-- The whole scan. -/
theorem extractBytecodeInfo_ok {new : Bool} {root : Code} (hn : (codes root).Nodup)
    (hc : ∀ c ∈ codes root, Compiled new c) :
    ∃ (parts : List (Code × Found)), (parts.map (·.1)).Perm (codes root) ∧
      (∀ x ∈ parts, PartOk new root x) ∧
      extractBytecodeInfo new root = .ok (parts.flatMap (·.2.imports), parts.flatMap (·.2.written),
        parts.flatMap (·.2.read)) := by
  have hno : ∀ p ∈ codes root, ∀ f ∈ p.children, root ∉ codes f := by
    intro p hp f hf hr
    have h1 := count_le hr
    have h2 := child_lt hf
    have h3 := count_le hp
    omega
  obtain ⟨f, parts, h1, h2, h3, h4, h5, h6⟩ := scanQueue_ok hn hc root.count [] [root] (fun _ => []) {}
    (by rw [count_codes]; simp) (by
      constructor
      · simp
      · intro c hc' p hp f hf
        rw [List.mem_singleton] at hc'
        subst hc'
        simp [hno p hp f hf]
      · intro c hc' p hp f hf hx
        rw [List.mem_singleton] at hc'
        subst hc'
        exact absurd hx (hno p hp f hf)
      · simp
      · simp)
  refine ⟨parts, by simpa using h2, h3, ?_⟩
  unfold extractBytecodeInfo
  simp only [bind, Except.bind, h1, pure, Except.pure, h4, h5, h6, List.nil_append]

end Verif
