import Verif.Spec.BytecodeSpec
import Verif.Proofs.Ast
/-! # Facts about the bytecode scanner -/
namespace Verif
open Verif.Spec

/-! ## One code object -/

theorem pyGet_some {α : Type} {l : List α} {k : Nat} {x : α} (h : l[k]? = some x) :
    pyGet l k = .ok x := by unfold pyGet; rw [h]

theorem pyBack_at (pre suf : List Instr) (x : Instr) (k : Nat) :
    pyBack (pre ++ x :: suf) (pre.length + k) k = .ok x := by
  unfold pyBack
  rw [if_pos (by omega)]
  exact pyGet_some (by simp)

theorem pyBack_at' {l pre suf : List Instr} {x : Instr} {o k : Nat} (hl : l = pre ++ x :: suf)
    (ho : o = pre.length + k) : pyBack l o k = .ok x := by
  subst hl ho
  exact pyBack_at ..

theorem scanImport_ok {c : Code} {fn cl : Bool} {i : Nat} {m l names} {a}
    (h : ImportAt 1 c i m l names) (ha : c.instrs[i]? = some ⟨.importName, a⟩) :
    scanImport c fn cl i ⟨.importName, a⟩ = .ok
      { imports := [createImportInfo (m, none) (names.map fun t => t.map fun nm => (nm, none)) l fn
          false false]
        written := if fn || cl then [] else (names.getD []).filter fun nm => nm != c!"*" } := by
  obtain ⟨pre, li, e, f, e', k, post, hi, rfl, he, he', hel, hel', hl, hf, hk⟩ := h
  have hak : a = some k := by
    rw [hi] at ha
    have : pre ++ (li :: (e ++ f :: (e' ++ ⟨.importName, some k⟩ :: post))) =
        (pre ++ li :: (e ++ f :: e')) ++ ⟨.importName, some k⟩ :: post := by simp
    rw [this, List.getElem?_append_right (by simp; omega)] at ha
    have h0 : pre.length + 1 + e.length + 1 + e'.length - (pre ++ li :: (e ++ f :: e')).length = 0 := by
      simp; omega
    rw [h0] at ha
    simpa using ha.symm
  subst hak
  obtain ⟨kf, rfl, hkf⟩ := hf
  have hb1 : ∃ b, pyBack c.instrs (pre.length + 1 + e.length + 1 + e'.length) 1 = .ok b ∧
      (if b.op = .extendedArg then 2 else 1) = e'.length + 1 := by
    cases e' with
    | nil =>
      refine ⟨_, pyBack_at' (pre := pre ++ li :: e) (suf := ⟨.importName, some k⟩ :: post)
        (x := ⟨.loadConst, some kf⟩) (by rw [hi]; simp) (by simp; omega), by simp⟩
    | cons x e' =>
      have : e' = [] := by cases e' <;> simp_all
      subst this
      refine ⟨x, pyBack_at' (pre := pre ++ li :: (e ++ [⟨.loadConst, some kf⟩]))
        (suf := ⟨.importName, some k⟩ :: post) (by rw [hi]; simp) (by simp; omega), ?_⟩
      rw [he' x (by simp)]
      rfl
  obtain ⟨b, hb, hbo⟩ := hb1
  have hf1 : pyBack c.instrs (pre.length + 1 + e.length + 1 + e'.length) (e'.length + 1) =
      .ok ⟨.loadConst, some kf⟩ :=
    pyBack_at' (pre := pre ++ li :: e) (suf := e' ++ ⟨.importName, some k⟩ :: post)
      (by rw [hi]; simp) (by simp; omega)
  have hl1 : pyBack c.instrs (pre.length + 1 + e.length + 1 + e'.length) (e'.length + 2 + e.length) =
      .ok li :=
    pyBack_at' (pre := pre) (suf := e ++ ⟨.loadConst, some kf⟩ :: (e' ++ ⟨.importName, some k⟩ :: post))
      (by rw [hi]) (by omega)
  have hlop : li.op ≠ .extendedArg ∧ (li.op = .loadConst ∨ li.op = .loadSmallInt) := by
    rcases hl with rfl | ⟨_, rfl, _⟩ <;> simp
  have hb2 : ∃ b, pyBack c.instrs (pre.length + 1 + e.length + 1 + e'.length) (e'.length + 1 + 1) = .ok b ∧
      (if b.op = .extendedArg then e'.length + 1 + 2 else e'.length + 1 + 1) = e'.length + 2 + e.length := by
    cases e with
    | nil => exact ⟨li, hl1, by simp [hlop.1]⟩
    | cons x e =>
      have : e = [] := by cases e <;> simp_all
      subst this
      refine ⟨x, pyBack_at' (pre := pre ++ [li])
        (suf := ⟨.loadConst, some kf⟩ :: (e' ++ ⟨.importName, some k⟩ :: post)) (by rw [hi]; simp)
        (by simp; omega), ?_⟩
      rw [he x (by simp)]
      simp
  obtain ⟨b', hb', hbo'⟩ := hb2
  unfold scanImport
  simp only [bind, Except.bind, hb, hbo, hb', hbo', hf1, hl1, argOf, pyGet_some hkf, pyGet_some hk,
    pure, Except.pure, throw, throwThe, MonadExceptOf.throw]
  rcases hl with rfl | ⟨kl, rfl, hkl⟩
  · cases names <;> simp
  · simp only [pyGet_some hkl]
    cases names <;> simp

/-- `cls` of the model says that the function object is for a class. -/
theorem scanMake_ok {new : Bool} {c : Code} {i : Nat} {pre d} (h : MakesAt new c i pre d)
    (hc : Compiled new c) :
    (ForClass new pre ∧ scanMake new c i = .ok { classes := [.code d] }) ∨
    (¬ ForClass new pre ∧ scanMake new c i = .ok { funcs := [.code d] }) := by
  have hshort := hc.short i pre d
  have hq := hc.shortQual i pre d h
  have h0 := h
  obtain ⟨k, q, a, post, hi, rfl, hk, hn⟩ := h
  have hql : q.length = if new then 0 else 1 := by
    cases new with
    | true => simp at hn; simp [hn]
    | false =>
      simp only [Bool.false_eq_true, if_false] at hn ⊢
      obtain ⟨e, b, rfl, _⟩ := hn
      simp only [List.length_append, List.length_cons, List.length_nil] at hq ⊢
      omega
  have hx : pyBack c.instrs (pre.length + 1 + q.length) (if new then 1 else 2) =
      .ok ⟨.loadConst, some k⟩ := by
    refine pyBack_at' hi ?_
    rw [hql]; cases new <;> simp
  -- instructions in front
  have hback : ∀ p x s, pre = p ++ x :: s →
      pyBack c.instrs (pre.length + 1 + q.length) (s.length + (if new then 2 else 3)) = .ok x := by
    rintro p x s rfl
    refine pyBack_at' (pre := p) (suf := s ++ (⟨.loadConst, some k⟩ :: (q ++ ⟨.makeFunction, a⟩ :: post)))
      (by rw [hi]; simp) ?_
    rw [hql]; cases new <;> simp <;> omega
  have hscan : scanMake new c (pre.length + 1 + q.length) =
      .ok (if makesClass new c (pre.length + 1 + q.length) then { classes := [.code d] }
        else { funcs := [.code d] }) := by
    unfold scanMake
    simp only [bind, Except.bind, hx, argOf, pyGet_some hk, pure, Except.pure]
    split <;> rfl
  have hat : ∀ p x s, pre = p ++ x :: s → ∀ op,
      opAt c (pre.length + 1 + q.length) (s.length + (if new then 2 else 3)) op = decide (x.op = op) := by
    intro p x s h op
    unfold opAt
    rw [hback p x s h]
  have hiff : makesClass new c (pre.length + 1 + q.length) = true ↔ ForClass new pre := by
    unfold makesClass
    rcases List.eq_nil_or_concat pre with hp | ⟨p, x, hp⟩
    · subst hp
      have hno : ¬ ForClass new [] := by rintro ⟨p, a, n, cl, h, _⟩; simp at h
      simp only [hno, iff_false]
      cases new <;> simp [hql]
    · rw [List.concat_eq_append] at hp
      have hb1 := hat p x [] hp
      simp only [List.length_nil, Nat.zero_add] at hb1
      have hlen : pre.length = p.length + 1 := by rw [hp]; simp
      cases new with
      | false =>
        simp only [Bool.false_eq_true, if_false] at hb1 hql ⊢
        rw [hb1]
        simp only [Bool.and_eq_true, decide_eq_true_eq]
        constructor
        · rintro ⟨_, ho⟩
          obtain ⟨xo, xa⟩ := x
          subst ho
          exact ⟨p, xa, [], [], hp, fun _ h => (by simp at h), .inl rfl⟩
        · intro hcl
          obtain ⟨p', a', n, hp', hn'⟩ := hshort h0 hcl
          rcases hn' with rfl | ⟨h, _⟩
          · rw [hp] at hp'
            have := (List.append_inj' hp' (by simp)).2
            simp only [List.cons.injEq, and_true] at this
            exact ⟨by omega, by rw [this]⟩
          · cases h
      | true =>
        simp only [if_true] at hb1 hql ⊢
        rw [hb1, hb1]
        simp only [Bool.or_eq_true, Bool.and_eq_true, decide_eq_true_eq]
        constructor
        · rintro (⟨_, ho⟩ | ⟨⟨hlen', ho⟩, h3⟩)
          · obtain ⟨xo, xa⟩ := x
            subst ho
            exact ⟨p, xa, [], [], hp, fun _ h => (by simp at h), .inl rfl⟩
          · rcases List.eq_nil_or_concat p with hpn | ⟨p', y, hp'⟩
            · subst hpn
              simp only [List.length_nil] at hlen
              omega
            · rw [List.concat_eq_append] at hp'
              have hb2 := hat p' y [x] (by rw [hp, hp']; simp) .loadBuildClass
              simp only [List.length_cons, List.length_nil, Nat.zero_add, if_true] at hb2
              have hb2 : opAt c (pre.length + 1 + q.length) 3 .loadBuildClass = decide (y.op = .loadBuildClass) := hb2
              rw [hb2] at h3
              simp only [decide_eq_true_eq] at h3
              obtain ⟨xo, xa⟩ := x
              subst ho
              obtain ⟨yo, ya⟩ := y
              subst h3
              exact ⟨p', ya, [⟨.pushNull, xa⟩], [], by rw [hp, hp']; simp, fun _ h => (by simp at h),
                .inr ⟨rfl, xa, rfl⟩⟩
        · intro hcl
          obtain ⟨p', a', n, hp', hn'⟩ := hshort h0 hcl
          rcases hn' with rfl | ⟨_, b, rfl⟩
          · rw [hp] at hp'
            have := (List.append_inj' hp' (by simp)).2
            simp only [List.cons.injEq, and_true] at this
            exact .inl ⟨by omega, by rw [this]⟩
          · have hx' : x = ⟨.pushNull, b⟩ := by
              rw [hp] at hp'
              have h2 : p' ++ (⟨.loadBuildClass, a'⟩ :: [⟨.pushNull, b⟩]) =
                (p' ++ [⟨.loadBuildClass, a'⟩]) ++ [⟨.pushNull, b⟩] := by simp
              rw [h2] at hp'
              have := (List.append_inj' hp' (by simp)).2
              simp only [List.cons.injEq, and_true] at this
              exact this
            have hb2 := hat p' _ _ hp' .loadBuildClass
            simp only [List.length_cons, List.length_nil, Nat.zero_add, if_true] at hb2
            have hb2 : opAt c (pre.length + 1 + q.length) 3 .loadBuildClass = decide (Op.loadBuildClass = .loadBuildClass) := hb2
            have hl2 : pre.length = p'.length + 2 := by rw [hp']; simp
            refine .inr ⟨⟨by omega, by rw [hx']⟩, ?_⟩
            rw [hb2]
            rfl
  by_cases hf : ForClass new pre
  · rw [hiff.mpr hf] at hscan; exact .inl ⟨hf, hscan⟩
  · have : makesClass new c (pre.length + 1 + q.length) = false := by
      rw [← Bool.not_eq_true]; exact fun h => hf (hiff.mp h)
    rw [this] at hscan; exact .inr ⟨hf, hscan⟩

theorem scanFrom_ok (new : Bool) (c : Code) (fn cl : Bool) (P : Nat → ImportInfo → Prop)
    (rest : List Instr) (offset : Nat)
    (h : ∀ i x, rest[i]? = some x → ∃ g, scanInst new c fn cl (offset + i) x = .ok g ∧
      if x.op = .importName then ∃ r, g.imports = [r] ∧ P (offset + i) r else g.imports = []) :
    ∃ f, scanFrom new c fn cl offset rest = .ok f ∧
      Forall2 P (((rest.zipIdx offset).filter fun x => x.1.op == .importName).map (·.2)) f.imports ∧
      (∀ n, n ∈ f.written ↔ ∃ i x g, rest[i]? = some x ∧ scanInst new c fn cl (offset + i) x = .ok g ∧
        n ∈ g.written) ∧
      (∀ n, n ∈ f.read ↔ ∃ i x g, rest[i]? = some x ∧ scanInst new c fn cl (offset + i) x = .ok g ∧
        n ∈ g.read) ∧
      (∀ n, n ∈ f.funcs ↔ ∃ i x g, rest[i]? = some x ∧ scanInst new c fn cl (offset + i) x = .ok g ∧
        n ∈ g.funcs) ∧
      (∀ n, n ∈ f.classes ↔ ∃ i x g, rest[i]? = some x ∧ scanInst new c fn cl (offset + i) x = .ok g ∧
        n ∈ g.classes) := by
  induction rest generalizing offset with
  | nil => exact ⟨{}, rfl, .nil, by simp, by simp, by simp, by simp⟩
  | cons x rest ih =>
    obtain ⟨g, hg, hP⟩ := h 0 x rfl
    obtain ⟨f, hf, hi, hw, hr, hfu, hc⟩ := ih (offset + 1) (fun i y hy => by
      have := h (i + 1) y hy
      rw [show offset + (i + 1) = offset + 1 + i by omega] at this
      exact this)
    simp only [Nat.add_zero] at hg hP
    have key : ∀ {α : Type} (sel : Found → List α) (n : α),
        (n ∈ sel f ↔ ∃ i y g, rest[i]? = some y ∧ scanInst new c fn cl (offset + 1 + i) y = .ok g ∧ n ∈ sel g) →
        (n ∈ sel g ++ sel f ↔ ∃ i y g, (x :: rest)[i]? = some y ∧
          scanInst new c fn cl (offset + i) y = .ok g ∧ n ∈ sel g) := by
      intro α sel n he
      rw [List.mem_append, he]
      constructor
      · rintro (h1 | ⟨i, y, g', h1, h2, h3⟩)
        · exact ⟨0, x, g, rfl, by simpa using hg, h1⟩
        · exact ⟨i + 1, y, g', h1, by rw [show offset + (i + 1) = offset + 1 + i by omega]; exact h2, h3⟩
      · rintro ⟨i, y, g', h1, h2, h3⟩
        cases i with
        | zero =>
          simp only [List.getElem?_cons_zero, Option.some.injEq] at h1
          subst h1
          simp only [Nat.add_zero] at h2
          rw [hg] at h2
          simp only [Except.ok.injEq] at h2
          subst h2
          exact .inl h3
        | succ i =>
          rw [show offset + (i + 1) = offset + 1 + i by omega] at h2
          exact .inr ⟨i, y, g', h1, h2, h3⟩
    refine ⟨g.add f, ?_, ?_, fun n => key Found.written n (hw n), fun n => key Found.read n (hr n),
      fun n => key Found.funcs n (hfu n), fun n => key Found.classes n (hc n)⟩
    · simp only [scanFrom, bind, Except.bind, hg, hf, pure, Except.pure]
    · rw [List.zipIdx_cons]
      show Forall2 P _ (g.imports ++ f.imports)
      by_cases ho : x.op = .importName
      · rw [if_pos ho] at hP
        obtain ⟨r, hr1, hr2⟩ := hP
        simp only [List.filter_cons, ho, beq_self_eq_true, if_true, List.map_cons]
        rw [hr1]
        exact .cons hr2 hi
      · rw [if_neg ho] at hP
        rw [hP]
        simp only [List.filter_cons, List.nil_append]
        rw [if_neg (by simpa using ho)]
        exact hi

theorem describes_bytecode (fn : Bool) (m : Str) (l : Nat) (names : Option (List Str)) :
    Describes (createImportInfo (m, none) (names.map fun t => t.map fun nm => (nm, none)) l fn false false)
      (bEntry fn m l names) :=
  by
  have := recordOf_describes (ord := id) (fun _ _ => Iff.rfl) (bEntry fn m l names)
  cases names <;> exact this

/-- What the scanner finds in one code object. -/
structure Scanned (new : Bool) (c : Code) (fn cl : Bool) (f : Found) : Prop where
  imports : Forall2 (fun i r => ∃ m l n, ImportAt 1 c i m l n ∧ Describes r (bEntry fn m l n))
    (importInstrs c) f.imports
  written : ∀ n, n ∈ f.written ↔ cl = false ∧ (Uses new c .storeGlobal n ∨
    (fn = false ∧ (Uses new c .storeName n ∨ FromImports c n)))
  read : ∀ n, n ∈ f.read ↔ Uses new c .loadGlobal n ∨ (cl = false ∧ Uses new c .loadName n)
  funcs : ∀ d, .code d ∈ f.funcs ↔ ∃ i pre, MakesAt new c i pre d ∧ ¬ ForClass new pre
  classes : ∀ d, .code d ∈ f.classes ↔ ∃ i pre, MakesAt new c i pre d ∧ ForClass new pre

theorem Spec.MakesAt.instr {new c i pre d} (h : MakesAt new c i pre d) :
    ∃ a, c.instrs[i]? = some ⟨.makeFunction, a⟩ := by
  obtain ⟨k, q, a, post, hi, rfl, _⟩ := h
  refine ⟨a, ?_⟩
  rw [hi, List.getElem?_append_right (by omega),
    show pre.length + 1 + q.length - pre.length = q.length + 1 by omega, List.getElem?_cons_succ,
    List.getElem?_append_right (by omega)]
  simp

theorem Spec.ImportAt.instr {e c i m l n} (h : ImportAt e c i m l n) :
    ∃ a, c.instrs[i]? = some ⟨.importName, a⟩ := by
  obtain ⟨pre, li, e, f, e', k, post, hi, rfl, _⟩ := h
  refine ⟨some k, ?_⟩
  have : pre ++ (li :: (e ++ f :: (e' ++ ⟨.importName, some k⟩ :: post))) =
      (pre ++ li :: (e ++ f :: e')) ++ ⟨.importName, some k⟩ :: post := by simp
  rw [hi, this, List.getElem?_append_right (by simp; omega)]
  have h0 : pre.length + 1 + e.length + 1 + e'.length - (pre ++ li :: (e ++ f :: e')).length = 0 := by
    simp; omega
  rw [h0]
  rfl

/-- The result for one instruction. -/
inductive StepOf (new : Bool) (c : Code) (fn cl : Bool) (i : Nat) (x : Instr) : Found → Prop where
  | imp {m l n} : x.op = .importName → ImportAt 1 c i m l n → StepOf new c fn cl i x
      { imports := [createImportInfo (m, none) (n.map fun t => t.map fun nm => (nm, none)) l fn false false]
        written := if fn || cl then [] else (n.getD []).filter fun nm => nm != c!"*" }
  | store {n} : (x.op = .storeGlobal ∧ cl = false ∨ x.op = .storeName ∧ cl = false ∧ fn = false) →
      (∃ k, nameArg new x = some k ∧ c.names[k]? = some n) → StepOf new c fn cl i x { written := [n] }
  | load {n} : (x.op = .loadGlobal ∨ x.op = .loadName ∧ cl = false) →
      (∃ k, nameArg new x = some k ∧ c.names[k]? = some n) → StepOf new c fn cl i x { read := [n] }
  | func {pre d} : MakesAt new c i pre d → ¬ ForClass new pre →
      StepOf new c fn cl i x { funcs := [.code d] }
  | cls {pre d} : MakesAt new c i pre d → ForClass new pre →
      StepOf new c fn cl i x { classes := [.code d] }
  | none : x.op ≠ .importName → x.op ≠ .makeFunction → x.op ≠ .loadGlobal →
      ¬ (x.op = .storeGlobal ∧ cl = false ∨ x.op = .storeName ∧ cl = false ∧ fn = false) →
      ¬ (x.op = .loadName ∧ cl = false) → StepOf new c fn cl i x {}

theorem scanInst_ok {new : Bool} {c : Code} (hc : Compiled new c) (fn cl : Bool) {i : Nat} {x : Instr}
    (hx : c.instrs[i]? = some x) :
    ∃ g, scanInst new c fn cl i x = .ok g ∧ StepOf new c fn cl i x g := by
  obtain ⟨op, arg⟩ := x
  have hmem := List.mem_of_getElem? hx
  unfold scanInst
  cases op <;> simp only []
  case importName =>
    obtain ⟨m, l, n, hi⟩ := hc.imports i arg hx
    exact ⟨_, scanImport_ok hi hx, .imp rfl hi⟩
  case storeName =>
    by_cases h : (cl || fn) = true
    · rw [if_pos h]
      exact ⟨_, rfl, .none (by simp) (by simp) (by simp) (by simp; simp at h; grind) (by simp)⟩
    · rw [if_neg h]
      obtain ⟨k, n, hk, hn⟩ := hc.names _ hmem (by simp)
      have hk' := hk
      simp [nameArg] at hk'
      subst hk'
      simp only [Bool.or_eq_true, not_or, Bool.not_eq_true] at h
      simp only [bind, Except.bind, argOf, pyGet_some hn, pure, Except.pure]
      exact ⟨_, rfl, .store (.inr ⟨rfl, h⟩) ⟨k, hk, hn⟩⟩
  case storeGlobal =>
    by_cases h : cl = true
    · rw [if_pos h]
      exact ⟨_, rfl, .none (by simp) (by simp) (by simp) (by simp [h]) (by simp)⟩
    · rw [if_neg h]
      obtain ⟨k, n, hk, hn⟩ := hc.names _ hmem (by simp)
      have hk' := hk
      simp [nameArg] at hk'
      subst hk'
      simp only [Bool.not_eq_true] at h
      simp only [bind, Except.bind, argOf, pyGet_some hn, pure, Except.pure]
      exact ⟨_, rfl, .store (.inl ⟨rfl, h⟩) ⟨k, hk, hn⟩⟩
  case loadName =>
    by_cases h : cl = true
    · rw [if_pos h]
      exact ⟨_, rfl, .none (by simp) (by simp) (by simp) (by simp) (by simp [h])⟩
    · rw [if_neg h]
      obtain ⟨k, n, hk, hn⟩ := hc.names _ hmem (by simp)
      have hk' := hk
      simp [nameArg] at hk'
      subst hk'
      simp only [Bool.not_eq_true] at h
      simp only [bind, Except.bind, argOf, pyGet_some hn, pure, Except.pure]
      exact ⟨_, rfl, .load (.inr ⟨rfl, h⟩) ⟨k, hk, hn⟩⟩
  case loadGlobal =>
    obtain ⟨k, n, hk, hn⟩ := hc.names _ hmem (by simp)
    have hk' := hk
    cases arg with
    | none => simp [nameArg] at hk'
    | some a =>
      have hka : (if new = true then a / 2 else a) = k := by
        cases new <;> simpa [nameArg] using hk'
      simp only [bind, Except.bind, argOf, hka, pyGet_some hn, pure, Except.pure]
      exact ⟨_, rfl, .load (.inl rfl) ⟨k, hk, hn⟩⟩
  case makeFunction =>
    obtain ⟨pre, d, hm⟩ := hc.makes i arg hx
    rcases scanMake_ok hm hc with ⟨h1, h2⟩ | ⟨h1, h2⟩
    · exact ⟨_, h2, .cls hm h1⟩
    · exact ⟨_, h2, .func hm h1⟩
  all_goals exact ⟨_, rfl, .none (by simp) (by simp) (by simp) (by simp) (by simp)⟩

theorem Spec.MakesAt.unique {new c i pre pre' d d'} (hc : Compiled new c) (h : MakesAt new c i pre d)
    (h' : MakesAt new c i pre' d') : pre = pre' ∧ d = d' := by
  have hq := hc.shortQual i pre d h
  have hq' := hc.shortQual i pre' d' h'
  obtain ⟨k, q, a, post, hi, rfl, hk, hn⟩ := h
  obtain ⟨k', q', a', post', hi', hl, hk', hn'⟩ := h'
  have hql : q.length = q'.length := by
    cases new with
    | true => simp at hn hn'; simp [hn, hn']
    | false =>
      simp only [Bool.false_eq_true, if_false] at hn hn'
      obtain ⟨e, b, rfl, _⟩ := hn
      obtain ⟨e', b', rfl, _⟩ := hn'
      simp only [List.length_append, List.length_cons, List.length_nil] at hl hq hq' ⊢
      omega
  rw [hi] at hi'
  obtain ⟨h1, h2⟩ := List.append_inj hi' (by omega)
  refine ⟨h1, ?_⟩
  simp only [List.cons.injEq, Instr.mk.injEq, true_and, Option.some.injEq] at h2
  rw [← h2.1, hk] at hk'
  simpa using hk'

theorem extractSingle_ok {new : Bool} {c : Code} (hc : Compiled new c) (fn cl : Bool) :
    ∃ f, extractSingle new c fn cl = .ok f ∧ Scanned new c fn cl f := by
  have hstep := fun i x hx => scanInst_ok hc fn cl (i := i) (x := x) hx
  obtain ⟨f, hf, hi, hw, hr, hfu, hcl⟩ := scanFrom_ok new c fn cl
    (fun i r => ∃ m l n, ImportAt 1 c i m l n ∧ Describes r (bEntry fn m l n)) c.instrs 0 (by
      intro i x hx
      obtain ⟨g, hg, hs⟩ := hstep i x hx
      refine ⟨g, by simpa using hg, ?_⟩
      simp only [Nat.zero_add]
      cases hs with
      | imp ho hi => rw [if_pos ho]; exact ⟨_, rfl, _, _, _, hi, describes_bytecode ..⟩
      | store ho _ => rw [if_neg (by rcases ho with ⟨h, _⟩ | ⟨h, _⟩ <;> rw [h] <;> decide)]
      | load ho _ => rw [if_neg (by rcases ho with h | ⟨h, _⟩ <;> rw [h] <;> decide)]
      | func hm _ =>
        obtain ⟨a, ha⟩ := hm.instr
        rw [hx] at ha
        simp only [Option.some.injEq] at ha
        rw [if_neg (by rw [ha]; simp)]
      | cls hm _ =>
        obtain ⟨a, ha⟩ := hm.instr
        rw [hx] at ha
        simp only [Option.some.injEq] at ha
        rw [if_neg (by rw [ha]; simp)]
      | none h => rw [if_neg h])
  simp only [Nat.zero_add] at hw hr hfu hcl
  have huse : ∀ {op n}, Uses new c op n → ∃ (i : Nat) (x : Instr), c.instrs[i]? = some x ∧ x.op = op ∧
      ∃ k, nameArg new x = some k ∧ c.names[k]? = some n := by
    rintro op n ⟨x, hx, ho, hk⟩
    obtain ⟨i, hi⟩ := List.getElem?_of_mem hx
    exact ⟨i, x, hi, ho, hk⟩
  refine ⟨f, hf, hi, fun n => ?_, fun n => ?_, fun d => ?_, fun d => ?_⟩
  · rw [hw]
    constructor
    · rintro ⟨i, x, g, hx, hg, hn⟩
      obtain ⟨g', hg', hs⟩ := hstep i x hx
      rw [hg] at hg'
      simp only [Except.ok.injEq] at hg'
      subst hg'
      cases hs with
      | imp ho hi =>
        simp only [] at hn
        split at hn
        · simp at hn
        · rename_i hfc
          simp only [Bool.or_eq_true, not_or, Bool.not_eq_true] at hfc
          rename_i n'
          cases n' with
          | none => simp at hn
          | some t =>
            rw [List.mem_filter] at hn
            exact ⟨hfc.2, .inr ⟨hfc.1, .inr ⟨by simpa using hn.2, _, _, _, t, hi, hn.1⟩⟩⟩
      | store ho hk =>
        simp only [List.mem_singleton] at hn
        subst hn
        rcases ho with ⟨h1, h2⟩ | ⟨h1, h2, h3⟩
        · exact ⟨h2, .inl ⟨x, List.mem_of_getElem? hx, h1, hk⟩⟩
        · exact ⟨h2, .inr ⟨h3, .inl ⟨x, List.mem_of_getElem? hx, h1, hk⟩⟩⟩
      | load _ _ => simp at hn
      | func _ _ => simp at hn
      | cls _ _ => simp at hn
      | none => simp at hn
    · rintro ⟨hcl, h⟩
      rcases h with h | ⟨hfn, h | ⟨hst, i, m, l, t, h, hmem⟩⟩
      · obtain ⟨i, x, hx, ho, k, hk, hkn⟩ := huse h
        obtain ⟨g, hg, hs⟩ := hstep i x hx
        refine ⟨i, x, g, hx, hg, ?_⟩
        cases hs with
        | imp ho' hi => rw [ho] at ho'; cases ho'
        | store _ hk' =>
          obtain ⟨k', h1, h2⟩ := hk'
          rw [hk] at h1
          simp only [Option.some.injEq] at h1
          subst h1
          rw [hkn] at h2
          simp only [Option.some.injEq] at h2
          subst h2
          simp
        | load ho' _ => rcases ho' with h | ⟨h, _⟩ <;> (rw [ho] at h; cases h)
        | func hm _ =>
          obtain ⟨a, ha⟩ := hm.instr
          rw [hx] at ha; simp only [Option.some.injEq] at ha; rw [ha] at ho; cases ho
        | cls hm _ =>
          obtain ⟨a, ha⟩ := hm.instr
          rw [hx] at ha; simp only [Option.some.injEq] at ha; rw [ha] at ho; cases ho
        | none _ _ _ h _ => exact absurd (.inl ⟨ho, hcl⟩) h
      · obtain ⟨i, x, hx, ho, k, hk, hkn⟩ := huse h
        obtain ⟨g, hg, hs⟩ := hstep i x hx
        refine ⟨i, x, g, hx, hg, ?_⟩
        cases hs with
        | imp ho' hi => rw [ho] at ho'; cases ho'
        | store _ hk' =>
          obtain ⟨k', h1, h2⟩ := hk'
          rw [hk] at h1
          simp only [Option.some.injEq] at h1
          subst h1
          rw [hkn] at h2
          simp only [Option.some.injEq] at h2
          subst h2
          simp
        | load ho' _ => rcases ho' with h | ⟨h, _⟩ <;> (rw [ho] at h; cases h)
        | func hm _ =>
          obtain ⟨a, ha⟩ := hm.instr
          rw [hx] at ha; simp only [Option.some.injEq] at ha; rw [ha] at ho; cases ho
        | cls hm _ =>
          obtain ⟨a, ha⟩ := hm.instr
          rw [hx] at ha; simp only [Option.some.injEq] at ha; rw [ha] at ho; cases ho
        | none _ _ _ h _ => exact absurd (.inr ⟨ho, hcl, hfn⟩) h
      · obtain ⟨a, ha⟩ := h.instr
        refine ⟨i, _, _, ha, scanImport_ok h ha, ?_⟩
        simp only [hfn, hcl, Bool.or_self, Bool.false_eq_true, if_false]
        rw [List.mem_filter]
        exact ⟨hmem, by simpa using hst⟩
  · rw [hr]
    constructor
    · rintro ⟨i, x, g, hx, hg, hn⟩
      obtain ⟨g', hg', hs⟩ := hstep i x hx
      rw [hg] at hg'
      simp only [Except.ok.injEq] at hg'
      subst hg'
      cases hs with
      | load ho hk =>
        simp only [List.mem_singleton] at hn
        subst hn
        rcases ho with h1 | ⟨h1, h2⟩
        · exact .inl ⟨x, List.mem_of_getElem? hx, h1, hk⟩
        · exact .inr ⟨h2, ⟨x, List.mem_of_getElem? hx, h1, hk⟩⟩
      | imp _ _ => simp at hn
      | store _ _ => simp at hn
      | func _ _ => simp at hn
      | cls _ _ => simp at hn
      | none => simp at hn
    · intro h
      have h' : ∃ (i : Nat) (x : Instr), c.instrs[i]? = some x ∧ (x.op = .loadGlobal ∨ x.op = .loadName ∧ cl = false) ∧
          ∃ k, nameArg new x = some k ∧ c.names[k]? = some n := by
        rcases h with h | ⟨hcl, h⟩
        · obtain ⟨i, x, hx, ho, hk⟩ := huse h; exact ⟨i, x, hx, .inl ho, hk⟩
        · obtain ⟨i, x, hx, ho, hk⟩ := huse h; exact ⟨i, x, hx, .inr ⟨ho, hcl⟩, hk⟩
      obtain ⟨i, x, hx, ho, k, hk, hkn⟩ := h'
      obtain ⟨g, hg, hs⟩ := hstep i x hx
      refine ⟨i, x, g, hx, hg, ?_⟩
      cases hs with
      | imp ho' hi => rw [ho'] at ho; simp at ho
      | load _ hk' =>
        obtain ⟨k', h1, h2⟩ := hk'
        rw [hk] at h1
        simp only [Option.some.injEq] at h1
        subst h1
        rw [hkn] at h2
        simp only [Option.some.injEq] at h2
        subst h2
        simp
      | store ho' _ => rcases ho' with ⟨h, _⟩ | ⟨h, _⟩ <;> (rw [h] at ho; simp at ho)
      | func hm _ =>
        obtain ⟨a, ha⟩ := hm.instr
        rw [hx] at ha; simp only [Option.some.injEq] at ha; rw [ha] at ho; simp at ho
      | cls hm _ =>
        obtain ⟨a, ha⟩ := hm.instr
        rw [hx] at ha; simp only [Option.some.injEq] at ha; rw [ha] at ho; simp at ho
      | none _ _ h1 _ h2 =>
        rcases ho with ho | ho
        · exact absurd ho h1
        · exact absurd ho h2
  · rw [hfu]
    constructor
    · rintro ⟨i, x, g, hx, hg, hn⟩
      obtain ⟨g', hg', hs⟩ := hstep i x hx
      rw [hg] at hg'
      simp only [Except.ok.injEq] at hg'
      subst hg'
      cases hs with
      | func hm hc' =>
        simp only [List.mem_singleton, Const.code.injEq] at hn
        subst hn
        exact ⟨i, _, hm, hc'⟩
      | imp _ _ => simp at hn
      | store _ _ => simp at hn
      | load _ _ => simp at hn
      | cls _ _ => simp at hn
      | none => simp at hn
    · rintro ⟨i, pre, hm, hc'⟩
      obtain ⟨a, ha⟩ := hm.instr
      rcases scanMake_ok hm hc with ⟨h1, _⟩ | ⟨_, h2⟩
      · exact absurd h1 hc'
      · exact ⟨i, _, _, ha, h2, by simp⟩
  · rw [hcl]
    constructor
    · rintro ⟨i, x, g, hx, hg, hn⟩
      obtain ⟨g', hg', hs⟩ := hstep i x hx
      rw [hg] at hg'
      simp only [Except.ok.injEq] at hg'
      subst hg'
      cases hs with
      | cls hm hc' =>
        simp only [List.mem_singleton, Const.code.injEq] at hn
        subst hn
        exact ⟨i, _, hm, hc'⟩
      | imp _ _ => simp at hn
      | store _ _ => simp at hn
      | load _ _ => simp at hn
      | func _ _ => simp at hn
      | none => simp at hn
    · rintro ⟨i, pre, hm, hc'⟩
      obtain ⟨a, ha⟩ := hm.instr
      rcases scanMake_ok hm hc with ⟨_, h2⟩ | ⟨h1, _⟩
      · exact ⟨i, _, _, ha, h2, by simp⟩
      · exact absurd hc' h1

end Verif
