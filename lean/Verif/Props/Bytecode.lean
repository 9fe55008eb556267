import Verif.Proofs.BytecodeErr
/-! # C37, C38: the bytecode scan -/
namespace Verif.Props
open Verif Verif.Spec

/-! ## Termination -/

/-- C37: the scan of every code object ends, with a result or one of three exceptions (never with
the model's `fuel`). -/
theorem C37_terminates (new : Bool) (root : Code) :
    (∃ r, extractBytecodeInfo new root = .ok r) ∨ extractBytecodeInfo new root = .error .assertion ∨
      extractBytecodeInfo new root = .error .indexError ∨
      extractBytecodeInfo new root = .error .typeError := by
  cases h : extractBytecodeInfo new root with
  | ok r => exact .inl ⟨r, rfl⟩
  | error e =>
    rcases extractBytecodeInfo_err new root e h with rfl | rfl | rfl <;> simp

/-- The scan looks back with Python's indices: before the first instruction it continues at the last. -/
theorem C37_looks_back (l : List Instr) (o k : Nat) : IndexGives l ((o : Int) - k) (pyBack l o k) := by
  have hsplit : ∀ i (h : i < l.length), ∃ pre suf, l = pre ++ l[i] :: suf ∧ pre.length = i ∧
      suf.length + 1 = l.length - i := by
    intro i h
    refine ⟨l.take i, l.drop (i + 1), ?_, by simp; omega, by simp; omega⟩
    rw [← List.drop_eq_getElem_cons h, List.take_append_drop]
  unfold pyBack
  split
  · rename_i hk
    unfold pyGet
    by_cases hi : o - k < l.length
    · obtain ⟨pre, suf, h, hp, -⟩ := hsplit _ hi
      rw [List.getElem?_eq_getElem hi]
      have := IndexGives.front (l := l) h
      rwa [show (pre.length : Int) = o - k by omega] at this
    · rw [List.getElem?_eq_none (by omega)]
      exact .after (by omega)
  · split
    · unfold pyGet
      have hi : l.length + o - k < l.length := by omega
      obtain ⟨pre, suf, h, hp, hs⟩ := hsplit _ hi
      rw [List.getElem?_eq_getElem hi]
      have := IndexGives.back (l := l) h
      rwa [show (-(suf.length + 1 : Nat) : Int) = o - k by omega] at this
    · exact .before (by omega)

example : pyBack [⟨.loadConst, some 0⟩, ⟨.importName, some 1⟩] 0 1 = .ok ⟨.importName, some 1⟩ ∧
    pyBack [⟨.loadConst, some 0⟩, ⟨.importName, some 1⟩] 0 3 = .error .indexError := ⟨rfl, rfl⟩

/-- There is one value for each index. -/
theorem C37_index_unique {α : Type} {l : List α} {i : Int} {a b : Except Exc α} (ha : IndexGives l i a)
    (hb : IndexGives l i b) : a = b := by
  have key : ∀ {pre suf pre' suf' : List α} {x y : α}, pre ++ x :: suf = pre' ++ y :: suf' →
      pre.length = pre'.length → x = y := fun h e => by
    have := List.append_inj h e
    simp_all
  generalize hj : i = j at hb
  cases ha <;> cases hb <;> first
    | rfl
    | (rename_i h1 _ _ _ h2
       subst h1
       have hl := congrArg List.length h2
       simp at hl
       rw [key h2 (by omega)])
    | (rename_i h1 _ h2; subst h1; simp at h2 hj; omega)
    | (rename_i h1 _ _ _ h2; subst h2; simp at h1 hj; omega)
    | grind

/-! ## C37: the imports -/

/-- C37 for code objects that are all different and have short arguments where classes are made: the scan succeeds, and reports for each code object of the tree one record for each of its
import instructions, with module, level and names, marked as in a function iff the code is that of a
function or nested in one.  Missing: code with longer arguments (`C37_class_marked_as_function`,
`C37_function_missed`, `C37_long_name_fails`) and trees in which equal code objects occur
(`C37_equal_code_objects`). -/
theorem C37_records_partial (new : Bool) (root : Code) (hn : (codes root).Nodup)
    (hc : ∀ c ∈ codes root, Compiled new c) :
    ∃ (imports : List ImportInfo) (w r : List Str) (parts : List (Code × List ImportInfo)),
      extractBytecodeInfo new root = .ok (imports, w, r) ∧
      (parts.map (·.1)).Perm (codes root) ∧ imports = parts.flatMap (·.2) ∧
      ∀ x ∈ parts, Forall2 (fun i r => ∃ m l names, ImportAt 1 x.1 i m l names ∧
        ∃ fn, (fn = true ↔ InFunction new root x.1) ∧ Describes r (bEntry fn m l names))
        (importInstrs x.1) x.2 := by
  obtain ⟨parts, hp, hok, he⟩ := extractBytecodeInfo_ok hn hc
  refine ⟨_, _, _, parts.map fun x => (x.1, x.2.imports), he, ?_, ?_, ?_⟩
  · simpa [List.map_map, Function.comp_def] using hp
  · rw [List.flatMap_map]
  · intro x hx
    obtain ⟨y, hy, rfl⟩ := List.mem_map.mp hx
    obtain ⟨fn, cl, hfn, _, hs⟩ := hok y hy
    have := hs.imports
    have conv : ∀ {P Q : Nat → ImportInfo → Prop} {a b}, (∀ i r, P i r → Q i r) → Forall2 P a b → Forall2 Q a b := by
      intro P Q a b hPQ h
      induction h with
      | nil => exact .nil
      | cons h _ ih => exact .cons (hPQ _ _ h) ih
    refine conv ?_ this
    rintro i r ⟨m, l, n, h1, h2⟩
    exact ⟨m, l, n, h1, fn, hfn, h2⟩

/-! ## C38: the globals -/

theorem root_not_made {new : Bool} {root : Code} :
    ¬ InFunction new root root ∧ ¬ ClassCode new root root := by
  constructor
  · rintro ⟨f, ⟨p, hp, i, pre, hm, _⟩, hr⟩
    have h1 := count_le hr
    have h2 := child_lt hm.child
    have h3 := count_le hp
    omega
  · rintro ⟨p, hp, i, pre, hm, _⟩
    have h2 := child_lt hm.child
    have h3 := count_le hp
    omega

/-- C38 under the conditions of `C37_records_partial`, for trees in which all nested code objects are
made into functions or class bodies: `globals_written` has exactly the names stored at module level,
those stored as globals in functions, and those imported with `from` at module level. -/
theorem C38_written_partial (new : Bool) (root : Code) (hn : (codes root).Nodup)
    (hc : ∀ c ∈ codes root, Compiled new c)
    (hm : ∀ c ∈ codes root, c = root ∨ FunctionCode new root c ∨ ClassCode new root c) :
    ∃ imports w r, extractBytecodeInfo new root = .ok (imports, w, r) ∧ ∀ n, n ∈ w ↔
      Uses new root .storeName n ∨ Uses new root .storeGlobal n ∨ FromImports root n ∨
      ∃ c ∈ codes root, InFunction new root c ∧ ¬ ClassCode new root c ∧ Uses new c .storeGlobal n := by
  obtain ⟨parts, hp, hok, he⟩ := extractBytecodeInfo_ok hn hc
  refine ⟨_, _, _, he, fun n => ?_⟩
  rw [List.mem_flatMap]
  have hroot := root_not_made (new := new) (root := root)
  constructor
  · rintro ⟨x, hx, hw⟩
    obtain ⟨fn, cl, hfn, hcl, hs⟩ := hok x hx
    have hxr : x.1 ∈ codes root := hp.mem_iff.mp (List.mem_map_of_mem hx)
    obtain ⟨hcl0, h⟩ := (hs.written n).mp hw
    have hncl : ¬ ClassCode new root x.1 := fun h' => by rw [hcl.mpr h'] at hcl0; cases hcl0
    rcases hm _ hxr with hr | hf | hcl'
    · rw [hr] at h
      rcases h with h | ⟨_, h | h⟩
      · exact .inr (.inl h)
      · exact .inl h
      · exact .inr (.inr (.inl h))
    · have hin : InFunction new root x.1 := ⟨x.1, hf, self_mem_codes _⟩
      rcases h with h | ⟨hfn0, _⟩
      · exact .inr (.inr (.inr ⟨x.1, hxr, hin, hncl, h⟩))
      · rw [hfn.mpr hin] at hfn0; cases hfn0
    · exact absurd hcl' hncl
  · intro h
    have find : ∀ c ∈ codes root, ∃ x ∈ parts, x.1 = c := by
      intro c hc'
      obtain ⟨x, hx, rfl⟩ := List.mem_map.mp (hp.mem_iff.mpr hc')
      exact ⟨x, hx, rfl⟩
    have fromRoot : (Uses new root .storeGlobal n ∨ Uses new root .storeName n ∨ FromImports root n) →
        ∃ x ∈ parts, n ∈ x.2.written := by
      intro h
      obtain ⟨x, hx, hxr⟩ := find root (self_mem_codes _)
      obtain ⟨fn, cl, hfn, hcl, hs⟩ := hok x hx
      rw [hxr] at hfn hcl
      have h1 : cl = false := by rw [← Bool.not_eq_true, hcl]; exact hroot.2
      have h2 : fn = false := by rw [← Bool.not_eq_true, hfn]; exact hroot.1
      rw [hxr] at hs
      refine ⟨x, hx, (hs.written n).mpr ⟨h1, ?_⟩⟩
      rcases h with h | h
      · exact .inl h
      · exact .inr ⟨h2, h⟩
    rcases h with h | h | h | ⟨c, hc', _, hcl', hu⟩
    · exact fromRoot (.inr (.inl h))
    · exact fromRoot (.inl h)
    · exact fromRoot (.inr (.inr h))
    · obtain ⟨x, hx, rfl⟩ := find c hc'
      obtain ⟨fn, cl, _, hcl, hs⟩ := hok x hx
      have h1 : cl = false := by rw [← Bool.not_eq_true, hcl]; exact hcl'
      exact ⟨x, hx, (hs.written n).mpr ⟨h1, .inl hu⟩⟩

/-- C38 under the same conditions, when `LOAD_NAME` is used at module level and in class bodies only:
`globals_read` has exactly the names loaded at module level, or anywhere as globals. -/
theorem C38_read_partial (new : Bool) (root : Code) (hn : (codes root).Nodup)
    (hc : ∀ c ∈ codes root, Compiled new c)
    (hm : ∀ c ∈ codes root, c = root ∨ ClassCode new root c ∨ ∀ n, ¬ Uses new c .loadName n) :
    ∃ imports w r, extractBytecodeInfo new root = .ok (imports, w, r) ∧ ∀ n, n ∈ r ↔
      Uses new root .loadName n ∨ ∃ c ∈ codes root, Uses new c .loadGlobal n := by
  obtain ⟨parts, hp, hok, he⟩ := extractBytecodeInfo_ok hn hc
  refine ⟨_, _, _, he, fun n => ?_⟩
  rw [List.mem_flatMap]
  have hroot := root_not_made (new := new) (root := root)
  constructor
  · rintro ⟨x, hx, hw⟩
    obtain ⟨fn, cl, hfn, hcl, hs⟩ := hok x hx
    have hxr : x.1 ∈ codes root := hp.mem_iff.mp (List.mem_map_of_mem hx)
    rcases (hs.read n).mp hw with h | ⟨hcl0, h⟩
    · exact .inr ⟨x.1, hxr, h⟩
    · rcases hm _ hxr with hr | hcl' | hno
      · rw [hr] at h; exact .inl h
      · rw [hcl.mpr hcl'] at hcl0; cases hcl0
      · exact absurd h (hno n)
  · intro h
    have find : ∀ c ∈ codes root, ∃ x ∈ parts, x.1 = c := by
      intro c hc'
      obtain ⟨x, hx, rfl⟩ := List.mem_map.mp (hp.mem_iff.mpr hc')
      exact ⟨x, hx, rfl⟩
    rcases h with h | ⟨c, hc', hu⟩
    · obtain ⟨x, hx, hxr⟩ := find root (self_mem_codes _)
      obtain ⟨fn, cl, _, hcl, hs⟩ := hok x hx
      rw [hxr] at hcl hs
      have h1 : cl = false := by rw [← Bool.not_eq_true, hcl]; exact hroot.2
      exact ⟨x, hx, (hs.read n).mpr (.inr ⟨h1, h⟩)⟩
    · obtain ⟨x, hx, rfl⟩ := find c hc'
      obtain ⟨fn, cl, _, hcl, hs⟩ := hok x hx
      exact ⟨x, hx, (hs.read n).mpr (.inl hu)⟩

/-! A module with a function and a class to which the theorems apply. -/
namespace SampleCode

/-- `def f(): from b import c; global g; g = ...` -/
def f : Code := .mk 1 [c!"b", c!"g"] [⟨.loadSmallInt, some 0⟩, ⟨.loadConst, some 0⟩, ⟨.importName, some 0⟩,
  ⟨.storeGlobal, some 1⟩] (.cons (.tuple [c!"c"]) .nil)

/-- `class K: x = x` -/
def k : Code := .mk 2 [c!"x"] [⟨.loadName, some 0⟩, ⟨.storeName, some 0⟩] .nil

/-- `import a`, then these. -/
def root : Code := .mk 0 [c!"a", c!"f", c!"K"] [⟨.loadConst, some 0⟩, ⟨.loadConst, some 1⟩,
  ⟨.importName, some 0⟩, ⟨.storeName, some 0⟩, ⟨.loadConst, some 2⟩, ⟨.makeFunction, none⟩,
  ⟨.storeName, some 1⟩, ⟨.loadBuildClass, none⟩, ⟨.pushNull, none⟩, ⟨.loadConst, some 3⟩,
  ⟨.makeFunction, none⟩, ⟨.storeName, some 2⟩]
  (.cons (.int 0) (.cons .none (.cons (.code f) (.cons (.code k) .nil))))

theorem codes_root : codes root = [root, f, k] := by decide

theorem nodup : (codes root).Nodup := by rw [codes_root]; decide

theorem makes_pre {c : Code} {i pre d} (h : MakesAt true c i pre d) : i = pre.length + 1 ∧
    pre = c.instrs.take pre.length ∧ ∃ a, c.instrs[pre.length + 1]? = some ⟨.makeFunction, a⟩ := by
  have h' := h.instr
  obtain ⟨k, q, a, post, hi, hat, hk, hq⟩ := h
  simp only [if_true] at hq
  subst hq
  simp only [List.length_nil, Nat.add_zero] at hat
  subst hat
  exact ⟨rfl, by rw [hi]; simp, h'⟩

theorem compiled_k : Compiled true k := by
  have no : ∀ (i : Nat) (a : Option Nat) (op : Op), op ≠ .loadName → op ≠ .storeName →
      k.instrs[i]? ≠ some ⟨op, a⟩ := by
    intro i a op h1 h2 h
    have := List.mem_of_getElem? h
    simp [k, Code.instrs] at this
    grind
  have nom : ∀ i pre d, ¬ MakesAt true k i pre d := fun i pre d h => by
    obtain ⟨a, ha⟩ := h.instr
    exact no _ _ _ (by simp) (by simp) ha
  exact ⟨fun i a h => absurd h (no _ _ _ (by simp) (by simp)),
    fun i a h => absurd h (no _ _ _ (by simp) (by simp)),
    fun i pre d h _ => absurd h (nom _ _ _), fun i pre d h => absurd h (nom _ _ _), by
      intro i hi _
      simp [k, Code.instrs] at hi
      rcases hi with rfl | rfl <;> exact ⟨0, c!"x", rfl, rfl⟩⟩

theorem compiled_f : Compiled true f := by
  have nom : ∀ (i : Nat) (a : Option Nat), f.instrs[i]? ≠ some ⟨.makeFunction, a⟩ := fun i a h => by
    have := List.mem_of_getElem? h
    simp [f, Code.instrs] at this
  have nom' : ∀ i pre d, ¬ MakesAt true f i pre d := fun i pre d h => by
    obtain ⟨a, ha⟩ := h.instr
    exact nom _ _ ha
  refine ⟨fun i a h => ?_, fun i a h => absurd h (nom _ _), fun i pre d h _ => absurd h (nom' _ _ _),
    fun i pre d h => absurd h (nom' _ _ _), ?_⟩
  · match i, h with
    | 0, h | 1, h | 3, h => simp [f, Code.instrs] at h
    | 2, h =>
      exact ⟨c!"b", 0, some [c!"c"], [], _, [], _, [], 0, _, rfl, rfl, by simp [ExtArgs], by simp [ExtArgs],
        by simp, by simp, .inl rfl, ⟨0, rfl, rfl⟩, rfl⟩
    | i + 4, h => simp [f, Code.instrs] at h
  · intro i hi ho
    simp [f, Code.instrs] at hi
    rcases hi with rfl | rfl | rfl | rfl
    · simp at ho
    · simp at ho
    · simp at ho
    · exact ⟨1, c!"g", rfl, rfl⟩

theorem makes_root {i pre d} (h : MakesAt true root i pre d) :
    (pre = root.instrs.take 4 ∧ d = f) ∨ (pre = root.instrs.take 9 ∧ d = k) := by
  obtain ⟨hi, hp, a, ha⟩ := makes_pre h
  have hd : ∃ k, root.instrs[pre.length]? = some ⟨.loadConst, some k⟩ ∧ root.consts[k]? = some (.code d) := by
    obtain ⟨k, q, a, post, hi, hat, hk, hq⟩ := h
    refine ⟨k, ?_, hk⟩
    rw [hi, List.getElem?_append_right (by omega)]
    simp
  generalize pre.length = n at *
  obtain ⟨kk, h1, h2⟩ := hd
  match n, ha, h1, hp with
  | 0, ha, _, _ | 1, ha, _, _ | 2, ha, _, _ | 3, ha, _, _ | 5, ha, _, _ | 6, ha, _, _ | 7, ha, _, _
  | 8, ha, _, _ | 10, ha, _, _ => simp [root, Code.instrs] at ha
  | 4, _, h1, hp =>
    simp [root, Code.instrs] at h1
    subst h1
    simp [root, Code.consts, Consts.toList] at h2
    exact .inl ⟨hp, h2.symm⟩
  | 9, _, h1, hp =>
    simp [root, Code.instrs] at h1
    subst h1
    simp [root, Code.consts, Consts.toList] at h2
    exact .inr ⟨hp, h2.symm⟩
  | n + 11, ha, _, _ => simp [root, Code.instrs] at ha

theorem compiled_root : Compiled true root := by
  refine ⟨fun i a h => ?_, fun i a h => ?_, fun i pre d h hx => ?_, fun i pre d h => ?_, ?_⟩
  · match i, h with
    | 0, h | 1, h | 3, h | 4, h | 5, h | 6, h | 7, h | 8, h | 9, h | 10, h | 11, h =>
      simp [root, Code.instrs] at h
    | 2, h =>
      exact ⟨c!"a", 0, none, [], _, [], _, [], 0, _, rfl, rfl, by simp [ExtArgs], by simp [ExtArgs],
        by simp, by simp, .inr ⟨0, rfl, rfl⟩, ⟨1, rfl, rfl⟩, rfl⟩
    | i + 12, h => simp [root, Code.instrs] at h
  · match i, h with
    | 0, h | 1, h | 2, h | 3, h | 4, h | 6, h | 7, h | 8, h | 9, h | 11, h =>
      simp [root, Code.instrs] at h
    | 5, h => exact ⟨root.instrs.take 4, f, 2, [], none, _, rfl, rfl, rfl, rfl⟩
    | 10, h => exact ⟨root.instrs.take 9, k, 3, [], none, _, rfl, rfl, rfl, rfl⟩
    | i + 12, h => simp [root, Code.instrs] at h
  · rcases makes_root h with ⟨rfl, _⟩ | ⟨rfl, _⟩
    · obtain ⟨p, a, n, cl, h, _⟩ := hx
      have : (⟨.loadBuildClass, a⟩ : Instr) ∈ root.instrs.take 4 := by rw [h]; simp
      simp [root, Code.instrs] at this
    · exact ⟨root.instrs.take 7, none, [⟨.pushNull, none⟩], rfl, .inr ⟨rfl, none, rfl⟩⟩
  · have := (makes_pre h).1
    omega
  · intro i hi ho
    simp [root, Code.instrs] at hi
    rcases hi with rfl | rfl | rfl | rfl | rfl | rfl | rfl | rfl | rfl | rfl | rfl | rfl <;>
      first | exact ⟨0, c!"a", rfl, rfl⟩ | exact ⟨1, c!"f", rfl, rfl⟩ | exact ⟨2, c!"K", rfl, rfl⟩ |
        simp at ho

theorem compiled : ∀ c ∈ codes root, Compiled true c := by
  rw [codes_root]
  intro c hc
  simp only [List.mem_cons, List.not_mem_nil, or_false] at hc
  rcases hc with rfl | rfl | rfl
  · exact compiled_root
  · exact compiled_f
  · exact compiled_k

theorem f_function : FunctionCode true root f := by
  refine ⟨root, self_mem_codes _, 5, root.instrs.take 4, ⟨2, [], none, _, rfl, rfl, rfl, rfl⟩, ?_⟩
  rintro ⟨p, a, n, e, h, _, _⟩
  have : (⟨.loadBuildClass, a⟩ : Instr) ∈ root.instrs.take 4 := by rw [h]; simp
  simp [root, Code.instrs] at this

theorem k_class : ClassCode true root k :=
  ⟨root, self_mem_codes _, 10, root.instrs.take 9, ⟨3, [], none, _, rfl, rfl, rfl, rfl⟩,
    root.instrs.take 7, none, [⟨.pushNull, none⟩], [], rfl, by simp [Closure], .inr ⟨rfl, none, rfl⟩⟩

/-- All conditions of `C37_records_partial`, `C38_written_partial` and `C38_read_partial`. -/
example : (codes root).Nodup ∧ (∀ c ∈ codes root, Compiled true c) ∧
    (∀ c ∈ codes root, c = root ∨ FunctionCode true root c ∨ ClassCode true root c) ∧
    (∀ c ∈ codes root, c = root ∨ ClassCode true root c ∨ ∀ n, ¬ Uses true c .loadName n) := by
  refine ⟨nodup, compiled, ?_, ?_⟩ <;> rw [codes_root] <;> intro c hc <;>
    simp only [List.mem_cons, List.not_mem_nil, or_false] at hc <;> rcases hc with rfl | rfl | rfl
  · exact .inl rfl
  · exact .inr (.inl f_function)
  · exact .inr (.inr k_class)
  · exact .inl rfl
  · refine .inr (.inr ?_)
    rintro n ⟨i, hi, ho, _⟩
    simp [f, Code.instrs] at hi
    rcases hi with rfl | rfl | rfl | rfl <;> simp at ho
  · exact .inr (.inl k_class)

/-- What the scan reports for it. -/
example : (match extractBytecodeInfo true root with
    | .ok (l, w, r) => some (l.map fun i => (i.importModule.name, i.inFunction), w, r)
    | _ => none) =
    some ([(c!"a", false), (c!"b", true)], [c!"a", c!"f", c!"K", c!"g"], []) := by decide +kernel

end SampleCode

/-! ## Where the scan goes wrong -/

/-- `import mod`, as last instructions. -/
def importCode (attrs : Nat) : Code :=
  .mk attrs [c!"mod"] [⟨.loadConst, some 0⟩, ⟨.loadConst, some 1⟩, ⟨.importName, some 0⟩]
    (.cons (.int 0) (.cons .none .nil))

/-- 256 constants before the given ones. -/
def manyConsts (r : Consts) : Consts := (List.range 256).foldr (fun i r => .cons (.other i) r) r

/-- A module with more than 256 constants and then `class C: import mod`. -/
def bigModule : Code :=
  .mk 0 [] [⟨.loadBuildClass, none⟩, ⟨.pushNull, none⟩, ⟨.extendedArg, some 1⟩,
      ⟨.loadConst, some 256⟩, ⟨.makeFunction, none⟩]
    (manyConsts (.cons (.code (importCode 1)) .nil))

theorem bigModule_const (k : Nat) (d : Code) (h : bigModule.consts[k]? = some (.code d)) :
    d = importCode 1 := by
  have hall : ∀ c ∈ bigModule.consts, c = .code (importCode 1) ∨ ∃ n, c = .other n := by
    have : ∀ l : List Nat, ∀ c ∈ (l.foldr (fun i r => Consts.cons (.other i) r)
        (.cons (.code (importCode 1)) .nil)).toList, c = .code (importCode 1) ∨ ∃ n, c = .other n := by
      intro l
      induction l with
      | nil => intro c hc; simp [Consts.toList] at hc; exact .inl hc
      | cons a l ih =>
        intro c hc
        rw [List.foldr_cons, Consts.toList] at hc
        rcases List.mem_cons.mp hc with rfl | hc
        · exact .inr ⟨a, rfl⟩
        · exact ih c hc
    exact this _
  rcases hall _ (List.mem_of_getElem? h) with h | ⟨n, h⟩
  · simpa using h
  · cases h

/-- C37 is false for classes in modules with more than 256 constants: the import in the class body
is reported as import in a function, although no function is ever made. -/
theorem C37_class_marked_as_function :
    (∃ i w r, extractBytecodeInfo true bigModule = .ok ([i], w, r) ∧ i.inFunction = true) ∧
    ¬ ∃ c, InFunction true bigModule c := by
  constructor
  · have : (match extractBytecodeInfo true bigModule with
        | .ok ([i], _, _) => i.inFunction | _ => false) = true := by decide +kernel
    revert this
    cases extractBytecodeInfo true bigModule with
    | error e => simp
    | ok x =>
      obtain ⟨l, w, r⟩ := x
      cases l with
      | nil => simp
      | cons i l =>
        cases l with
        | cons j l => simp
        | nil => intro h; exact ⟨i, w, r, rfl, h⟩
  · rintro ⟨c, f, ⟨p, hp, i, pre, hm, hcls⟩, _⟩
    have hchild := hm.child
    have hmem : p = bigModule ∨ p = importCode 1 := by
      rw [codes_eq] at hp
      rcases List.mem_cons.mp hp with h | h
      · exact .inl h
      · obtain ⟨e, he, h⟩ := List.mem_flatMap.mp h
        obtain ⟨x, hx, hxe⟩ := List.mem_filterMap.mp he
        obtain ⟨k, hk⟩ := List.getElem?_of_mem hx
        cases x with
        | code d =>
          simp only [Option.some.injEq] at hxe
          subst hxe
          have := bigModule_const k d hk
          subst this
          have h2 : codes (importCode 1) = [importCode 1] := by decide
          rw [h2] at h
          exact .inr (by simpa using h)
        | _ => simp at hxe
    rcases hmem with rfl | rfl
    · apply hcls
      obtain ⟨k, q, a, post, hi, hat, hk, hq⟩ := hm
      simp only [if_true] at hq
      subst hq
      have hlen := congrArg List.length hi
      have hm' : bigModule.instrs[pre.length + 1]? = some ⟨.makeFunction, a⟩ := by
        rw [hi, List.getElem?_append_right (by omega)]
        simp
      have h5 : bigModule.instrs.length = 5 := rfl
      have h3 : pre.length = 3 := by
        have hlt : pre.length + 1 < 5 := by
          rw [← h5]; exact (List.getElem?_eq_some_iff.mp hm').1
        have : pre.length = 0 ∨ pre.length = 1 ∨ pre.length = 2 ∨ pre.length = 3 := by omega
        rcases this with h | h | h | h
        · rw [h] at hm'; simp [bigModule, Code.instrs] at hm'
        · rw [h] at hm'; simp [bigModule, Code.instrs] at hm'
        · rw [h] at hm'; simp [bigModule, Code.instrs] at hm'
        · exact h
      have hpre : pre = bigModule.instrs.take 3 := by rw [hi, ← h3]; simp
      refine ⟨[], none, [⟨.pushNull, none⟩], [⟨.extendedArg, some 1⟩], by rw [hpre]; rfl, ?_,
        .inr ⟨rfl, none, rfl⟩⟩
      intro x hx
      rw [List.mem_singleton] at hx
      rw [hx]
      exact .inl rfl
    · have : (importCode 1).children = [] := by decide
      rw [this] at hchild
      simp at hchild

/-- For such a module C38 is false, too: what the class body loads is taken to be a global.
(`Compiled` excludes these modules.) -/
theorem C38_class_names_read :
    let body := Code.mk 1 [c!"x"] [⟨.loadName, some 0⟩] .nil
    let module := Code.mk 0 [] [⟨.loadBuildClass, none⟩, ⟨.pushNull, none⟩, ⟨.extendedArg, some 1⟩,
      ⟨.loadConst, some 256⟩, ⟨.makeFunction, none⟩] (manyConsts (.cons (.code body) .nil))
    (match extractBytecodeInfo true module with | .ok (_, _, r) => r | _ => []) = [c!"x"] := by
  decide +kernel

/-- Classes in functions that use variables of the function are taken for functions; therefore C38 is
false for them as well. -/
theorem C38_closure_names_read :
    let body := Code.mk 1 [c!"x"] [⟨.storeName, some 0⟩, ⟨.loadName, some 0⟩] .nil
    let func := Code.mk 2 [] [⟨.loadBuildClass, none⟩, ⟨.pushNull, none⟩, ⟨.other 0, some 0⟩, ⟨.other 1, some 1⟩,
      ⟨.loadConst, some 0⟩, ⟨.makeFunction, some 8⟩] (.cons (.code body) .nil)
    let module := Code.mk 0 [] [⟨.loadConst, some 0⟩, ⟨.makeFunction, none⟩] (.cons (.code func) .nil)
    ClassCode true module body ∧
    (match extractBytecodeInfo true module with | .ok (_, _, r) => r | _ => []) = [c!"x"] := by
  intro body func module
  refine ⟨⟨func, ?_, 5, _, ⟨0, [], _, [], rfl, rfl, rfl, rfl⟩, [], none, [⟨.pushNull, none⟩],
    [⟨.other 0, some 0⟩, ⟨.other 1, some 1⟩], rfl, ?_, .inr ⟨rfl, none, rfl⟩⟩, by decide +kernel⟩
  · simp only [module, codes, codesIn, codesOf]
    exact List.mem_cons_of_mem _ (List.mem_append_left _ (List.mem_cons_self ..))
  · intro x hx
    simp only [List.mem_cons, List.not_mem_nil, or_false] at hx
    rcases hx with rfl | rfl
    · exact .inr ⟨0, rfl⟩
    · exact .inr ⟨1, rfl⟩

/-- Python 3.10 only: when the constant with the qualified name of a function has a number above 255, the
function is not recognised, and its imports are not reported as imports in a function. -/
theorem C37_function_missed :
    let func := importCode 1
    let module := Code.mk 0 [] [⟨.loadConst, some 255⟩, ⟨.extendedArg, some 1⟩, ⟨.loadConst, some 256⟩,
      ⟨.makeFunction, some 0⟩]
      ((List.range 255).foldr (fun i r => .cons (.other i) r) (.cons (.code func) (.cons (.other 0) .nil)))
    FunctionCode false module func ∧
    (match extractBytecodeInfo false module with
      | .ok (l, _, _) => l.map ImportInfo.inFunction | _ => []) = [false] := by
  refine ⟨⟨_, self_mem_codes _, 3, [], ⟨255, [⟨.extendedArg, some 1⟩, ⟨.loadConst, some 256⟩], _, [], rfl, rfl,
    by decide +kernel, [⟨.extendedArg, some 1⟩], _, rfl, by simp [ExtArgs]⟩, ?_⟩, by decide +kernel⟩
  rintro ⟨p, a, n, cl, h, _⟩
  simp at h

/-! ## C64: every global variable -/

/-- C64 under the conditions of C37: a name that is stored as a global variable anywhere but in the body
of a class is in `globals_written`.  Missing: bodies of classes, see `C64_class_global`. -/
theorem C64_stored_partial (new : Bool) (root : Code) (hn : (codes root).Nodup)
    (hc : ∀ c ∈ codes root, Compiled new c) :
    ∃ imports w r, extractBytecodeInfo new root = .ok (imports, w, r) ∧
      ∀ c ∈ codes root, ¬ ClassCode new root c → ∀ n,
        Uses new c .storeGlobal n ∨ c = root ∧ Uses new c .storeName n → n ∈ w := by
  obtain ⟨parts, hp, hok, he⟩ := extractBytecodeInfo_ok hn hc
  refine ⟨_, _, _, he, fun c hcr hcl n hu => ?_⟩
  rw [List.mem_flatMap]
  obtain ⟨x, hx, rfl⟩ := List.mem_map.mp (hp.mem_iff.mpr hcr)
  obtain ⟨fn, cl, hfn, hcl', hs⟩ := hok x hx
  have h1 : cl = false := by rw [← Bool.not_eq_true, hcl']; exact hcl
  refine ⟨x, hx, (hs.written n).mpr ⟨h1, ?_⟩⟩
  rcases hu with hu | ⟨hr, hu⟩
  · exact .inl hu
  · refine .inr ⟨?_, .inl hu⟩
    rw [← Bool.not_eq_true, hfn, hr]
    exact root_not_made.1

example : (codes SampleCode.root).Nodup ∧ (∀ c ∈ codes SampleCode.root, Compiled true c) ∧
    Uses true SampleCode.f .storeGlobal c!"g" :=
  ⟨SampleCode.nodup, SampleCode.compiled, ⟨.storeGlobal, some 1⟩, by decide, rfl, 1, rfl, rfl⟩

/-- A surprise: `class C: global x; x = 1` makes `x` a global variable of the module, but it is not
recorded. -/
theorem C64_class_global :
    let body := Code.mk 1 [c!"x"] [⟨.storeGlobal, some 0⟩] .nil
    let module := Code.mk 0 [] [⟨.loadBuildClass, none⟩, ⟨.pushNull, none⟩, ⟨.loadConst, some 0⟩,
      ⟨.makeFunction, none⟩] (.cons (.code body) .nil)
    Uses true body .storeGlobal c!"x" ∧ body ∈ codes module ∧
    (match extractBytecodeInfo true module with | .ok (_, w, _) => some w | _ => none) = some [] := by
  refine ⟨⟨⟨.storeGlobal, some 0⟩, List.mem_cons_self .., rfl, 0, rfl, rfl⟩, ?_, by decide +kernel⟩
  simp only [codes, codesIn, codesOf]
  exact List.mem_cons_of_mem _ (List.mem_append_left _ (List.mem_cons_self ..))

/-- Importing a name with a number above 65535 makes the scan fail. -/
theorem C37_long_name_fails (attrs : Nat) (names : List Str) (consts : Consts) (m : Str)
    (hm : names[65536]? = some m) (h0 : consts.toList[0]? = some (.int 0))
    (h1 : consts.toList[1]? = some .none) :
    let c := Code.mk attrs names [⟨.loadConst, some 0⟩, ⟨.loadConst, some 1⟩, ⟨.extendedArg, some 1⟩,
      ⟨.extendedArg, some 256⟩, ⟨.importName, some 65536⟩] consts
    ImportAt 2 c 4 m 0 none ∧ extractBytecodeInfo true c = .error .assertion := by
  refine ⟨⟨[], _, [], _, [_, _], 65536, [], rfl, rfl, by simp [ExtArgs], by simp [ExtArgs], by simp, by simp,
    .inr ⟨0, rfl, h0⟩, ⟨1, rfl, h1⟩, hm⟩, ?_⟩
  unfold extractBytecodeInfo
  rw [show (Code.mk attrs names [⟨.loadConst, some 0⟩, ⟨.loadConst, some 1⟩, ⟨.extendedArg, some 1⟩,
      ⟨.extendedArg, some 256⟩, ⟨.importName, some 65536⟩] consts).count = consts.count + 1 by
    rw [Code.count]; omega]
  rfl

/-- When equal code objects occur in different places the marks can be wrong: here the same class
body with an import is nested in a function and in another class. -/
theorem C37_equal_code_objects :
    let d := importCode 1
    let mkClass : List Instr := [⟨.loadBuildClass, none⟩, ⟨.pushNull, none⟩, ⟨.loadConst, some 0⟩,
      ⟨.makeFunction, none⟩]
    let f := Code.mk 2 [] mkClass (.cons (.code d) .nil)
    let k := Code.mk 3 [] mkClass (.cons (.code d) .nil)
    let root := Code.mk 0 [] ([⟨.loadConst, some 1⟩, ⟨.makeFunction, none⟩] ++ mkClass)
      (.cons (.code k) (.cons (.code f) .nil))
    let root' := Code.mk 0 [] ([⟨.loadConst, some 0⟩, ⟨.makeFunction, none⟩, ⟨.loadBuildClass, none⟩,
      ⟨.pushNull, none⟩, ⟨.loadConst, some 1⟩, ⟨.makeFunction, none⟩])
      (.cons (.code f) (.cons (.code k) .nil))
    (match extractBytecodeInfo true root with
      | .ok (l, _, _) => l.map ImportInfo.inFunction | _ => []) = [true, true] ∧
    (match extractBytecodeInfo true root' with
      | .ok (l, _, _) => l.map ImportInfo.inFunction | _ => []) = [false, false] := by
  decide +kernel

end Verif.Props
