import Verif.Props.Attributes
import Verif.Props.Bytecode
/-! # C78: modules that use `__import__` or `__file__` -/
namespace Verif.Props
open Verif Verif.Spec
variable {W : Type} {L : Loaders W}

/-- Some part of the code, be it in a function or in a class, reads the variable `x`, and that is not a variable of a
function. -/
def Reads (new : Bool) (root : Code) (x : Str) : Prop :=
  ∃ c ∈ codes root, Uses new c .loadName x ∨ Uses new c .loadGlobal x

/-- As before, but not only in the body of a class. -/
def ReadsOutside (new : Bool) (root : Code) (x : Str) : Prop :=
  ∃ c ∈ codes root, (c = root ∧ Uses new c .loadName x) ∨ Uses new c .loadGlobal x

/-- The code is what the compiler makes: C38. -/
structure Ordinary (new : Bool) (root : Code) : Prop where
  nodup : (codes root).Nodup
  compiled : ∀ c ∈ codes root, Compiled new c
  functions : ∀ c ∈ codes root, c = root ∨ ClassCode new root c ∨ ∀ n, ¬ Uses new c .loadName n

theorem reads_iff {new : Bool} {root : Code} (ho : Ordinary new root) {i w r}
    (he : extractBytecodeInfo new root = .ok (i, w, r)) (x : Str) : x ∈ r ↔ ReadsOutside new root x := by
  obtain ⟨i', w', r', he', hr⟩ := C38_read_partial new root ho.nodup ho.compiled ho.functions
  rw [he] at he'
  simp only [Except.ok.injEq, Prod.mk.injEq] at he'
  obtain ⟨-, -, rfl⟩ := he'
  rw [hr]
  constructor
  · rintro (h | ⟨c, hc, h⟩)
    · exact ⟨root, self_mem_codes _, .inl ⟨rfl, h⟩⟩
    · exact ⟨c, hc, .inr h⟩
  · rintro ⟨c, hc, ⟨rfl, h⟩ | h⟩
    · exact .inl h
    · exact .inr ⟨c, hc, h⟩

/-- C78: in every run of every client, also when calls failed, the node of a module with code says
`uses_dunder_import` (`uses_dunder_file`) iff the code reads `__import__` (`__file__`) outside of the bodies of classes.
Missing: reads in the body of a class, see `C78_class_body`. -/
theorem C78_uses_partial (hS : L.Stable) (env : Env W) (k : Nat)
    (hP : ∀ k n, (env.userPost k n).Only ApiOp.NoAddNode)
    (hM : ∀ k i n, (env.userMissing k i n).Passive) (n : Nat) (p : Hook W) (hp : p.Only ApiOp.NoAddNode)
    (w : W) (stdlib : List (Str × Implies)) (builtin : Bool) (m : Node)
    (hm : m ∈ (runClient (env.withLoaders L k) n p (initState w stdlib builtin)).2.nodes)
    (hk : m.isModule = true) (hs : ¬ SwigNode m) :
    ∃ spec, SpecFound env L spec ∧ spec.name = m.ident ∧
      ∀ root, spec.loader = .inspect ∨ spec.loader = .frozen → (L.getSource spec w).1 ≠ .error .syntaxError →
        (L.getCode spec w).1 = .ok (some root) → Ordinary L.new root →
        (m.usesDunderImport = true ↔ ReadsOutside L.new root c!"__import__") ∧
        (m.usesDunderFile = true ↔ ReadsOutside L.new root c!"__file__") := by
  rcases node_spec hS env k hP hM n p hp w stdlib builtin m hm (.inl hk) with
    h | ⟨_, _, _, _, _, h, -⟩ | ⟨spec, k', w', imports, h1, h2, h3, h4⟩
  · exact absurd h hs
  · unfold Node.isModule at hk; rw [h] at hk; cases hk
  · refine ⟨spec, h2, h3, fun root hl hsrc hc ho => ?_⟩
    rw [hS.source spec w w'] at hsrc
    rw [hS.code spec w w'] at hc
    obtain ⟨i, hi⟩ := C36_globals hS k' spec w' m imports hl h4 hsrc root hc
    unfold Node.usesDunderImport Node.usesDunderFile
    simp only [List.contains_iff_mem]
    exact ⟨reads_iff ho hi _, reads_iff ho hi _⟩

/-- C78: a module that says so reads the variable. -/
theorem C78_sound (hS : L.Stable) (env : Env W) (k : Nat)
    (hP : ∀ k n, (env.userPost k n).Only ApiOp.NoAddNode)
    (hM : ∀ k i n, (env.userMissing k i n).Passive) (n : Nat) (p : Hook W) (hp : p.Only ApiOp.NoAddNode)
    (w : W) (stdlib : List (Str × Implies)) (builtin : Bool) (m : Node)
    (hm : m ∈ (runClient (env.withLoaders L k) n p (initState w stdlib builtin)).2.nodes)
    (hk : m.isModule = true) (hs : ¬ SwigNode m) :
    ∃ spec, SpecFound env L spec ∧ spec.name = m.ident ∧
      ∀ root, spec.loader = .inspect ∨ spec.loader = .frozen → (L.getSource spec w).1 ≠ .error .syntaxError →
        (L.getCode spec w).1 = .ok (some root) → Ordinary L.new root →
        (m.usesDunderImport = true → Reads L.new root c!"__import__") ∧
        (m.usesDunderFile = true → Reads L.new root c!"__file__") := by
  obtain ⟨spec, h1, h2, h3⟩ := C78_uses_partial hS env k hP hM n p hp w stdlib builtin m hm hk hs
  refine ⟨spec, h1, h2, fun root hl hsrc hc ho => ?_⟩
  obtain ⟨h4, h5⟩ := h3 root hl hsrc hc ho
  have weak : ∀ x, ReadsOutside L.new root x → Reads L.new root x := by
    rintro x ⟨c, hc, ⟨-, h⟩ | h⟩
    · exact ⟨c, hc, .inl h⟩
    · exact ⟨c, hc, .inr h⟩
  exact ⟨fun h => weak _ (h4.mp h), fun h => weak _ (h5.mp h)⟩

/-- C78: modules without Python code use neither. -/
theorem C78_no_code (n : Nat) (spec : Verif.Spec) (w : W) (node : Node) (imports : List ImportInfo)
    (hl : spec.loader = .builtin ∨ spec.loader = .extension)
    (h : (nodeForSpec L (n + 1) spec w).1 = .ok (node, imports)) :
    node.usesDunderImport = false ∧ node.usesDunderFile = false := by
  have wrap : ∀ (m : Node) (k : ModKind) (w' : W), m.kind = .module k → m.globalsRead = [] →
      (wrapPackage L spec m k none [] w').1 = .ok (node, imports) → node.globalsRead = [] := by
    intro m k w' hm hg h
    cases hk : node.kind with
    | package fr init sp hd ns => rw [(wrapPackage_attrs h hm hk).2.2.2.1, hg]
    | _ =>
      unfold wrapPackage at h
      obtain ⟨p, w1, -, h⟩ := Ext.bind_ok h
      cases p with
      | false =>
        simp only [Bool.false_eq_true, if_false, Ext.pure, Except.ok.injEq, Prod.mk.injEq] at h
        rw [← h.1, hg]
      | true =>
        exfalso
        simp only [if_true] at h
        obtain ⟨nl, w2, -, h⟩ := Ext.bind_ok h
        cases hl : nl.2 with
        | none => rw [hl] at h; simp [Ext.throw] at h
        | some locs =>
          rw [hl] at h
          obtain ⟨d, w3, -, h⟩ := Ext.bind_ok h
          simp only [Ext.pure, Except.ok.injEq, Prod.mk.injEq] at h
          rw [← h.1] at hk
          cases hk
  have : node.globalsRead = [] := by
    rw [nodeForSpec] at h
    rcases hl with hl | hl <;> simp only [hl] at h
    · exact wrap _ _ _ rfl rfl h
    · obtain ⟨d, w', -, h⟩ := Ext.bind_ok h
      exact wrap _ _ _ rfl rfl h
  unfold Node.usesDunderImport Node.usesDunderFile
  rw [this]
  exact ⟨rfl, rfl⟩

/-! ## Examples -/

namespace Dunder

/-- The body of a class that reads `__file__`. -/
def body : Code := .mk 1 [c!"__file__"] [⟨.loadName, some 0⟩] .nil
/-- A function that reads `__import__`. -/
def func : Code := .mk 2 [c!"__import__"] [⟨.loadGlobal, some 0⟩] .nil
/-- A module with this class and this function. -/
def root : Code :=
  .mk 0 [c!"x"] [⟨.loadBuildClass, none⟩, ⟨.pushNull, none⟩, ⟨.loadConst, some 0⟩, ⟨.makeFunction, none⟩,
    ⟨.loadConst, some 1⟩, ⟨.makeFunction, none⟩, ⟨.storeName, some 0⟩]
    (.cons (.code body) (.cons (.code func) .nil))

theorem codes_root : codes root = [root, body, func] := by
  simp [root, body, func, codes, codesIn, codesOf]

theorem flat {c : Code} (hi : ∀ i ∈ c.instrs, i.op ≠ .importName ∧ i.op ≠ .makeFunction)
    (hn : ∀ i ∈ c.instrs, ∃ k n, nameArg true i = some k ∧ c.names[k]? = some n) : Compiled true c where
  imports i a h := absurd rfl (hi _ (List.mem_of_getElem? h)).1
  makes i a h := absurd rfl (hi _ (List.mem_of_getElem? h)).2
  short i pre d h := by obtain ⟨a, ha⟩ := h.instr; exact absurd rfl (hi _ (List.mem_of_getElem? ha)).2
  shortQual i pre d h := by obtain ⟨a, ha⟩ := h.instr; exact absurd rfl (hi _ (List.mem_of_getElem? ha)).2
  names i hi _ := hn i hi

theorem makes_root {i pre d} (h : MakesAt true root i pre d) :
    (pre = root.instrs.take 2 ∧ d = body) ∨ (pre = root.instrs.take 4 ∧ d = func) := by
  obtain ⟨hi, hp, a, ha⟩ := SampleCode.makes_pre h
  have hd : ∃ k, root.instrs[pre.length]? = some ⟨.loadConst, some k⟩ ∧ root.consts[k]? = some (.code d) := by
    obtain ⟨k, q, a, post, hi, hat, hk, hq⟩ := h
    refine ⟨k, ?_, hk⟩
    rw [hi, List.getElem?_append_right (by omega)]
    simp
  generalize pre.length = n at *
  obtain ⟨kk, h1, h2⟩ := hd
  match n, ha, h1, hp with
  | 0, ha, _, _ | 1, ha, _, _ | 3, ha, _, _ | 5, ha, _, _ => simp [root, Code.instrs] at ha
  | 2, _, h1, hp =>
    simp [root, Code.instrs] at h1
    subst h1
    simp [root, Code.consts, Consts.toList] at h2
    exact .inl ⟨hp, h2.symm⟩
  | 4, _, h1, hp =>
    simp [root, Code.instrs] at h1
    subst h1
    simp [root, Code.consts, Consts.toList] at h2
    exact .inr ⟨hp, h2.symm⟩
  | n + 6, ha, _, _ => simp [root, Code.instrs] at ha

theorem compiled_root : Compiled true root := by
  refine ⟨fun i a h => ?_, fun i a h => ?_, fun i pre d h hx => ?_, fun i pre d h => ?_, ?_⟩
  · have := List.mem_of_getElem? h
    simp [root, Code.instrs] at this
  · match i, h with
    | 0, h | 1, h | 2, h | 4, h | 6, h => simp [root, Code.instrs] at h
    | 3, h => exact ⟨root.instrs.take 2, body, 0, [], none, _, rfl, rfl, rfl, rfl⟩
    | 5, h => exact ⟨root.instrs.take 4, func, 1, [], none, _, rfl, rfl, rfl, rfl⟩
    | i + 7, h => simp [root, Code.instrs] at h
  · rcases makes_root h with ⟨rfl, _⟩ | ⟨rfl, _⟩
    · exact ⟨[], none, [⟨.pushNull, none⟩], rfl, .inr ⟨rfl, none, rfl⟩⟩
    · exfalso
      obtain ⟨p, a, n, cl, h, hcl, hn⟩ := hx
      have hlast : root.instrs.take 4 = root.instrs.take 3 ++ [⟨.makeFunction, none⟩] := rfl
      have hm : (⟨.makeFunction, none⟩ : Instr) ∈ ⟨.loadBuildClass, a⟩ :: (n ++ cl) := by
        have h2 : some (⟨.makeFunction, none⟩ : Instr) = (p ++ ⟨.loadBuildClass, a⟩ :: (n ++ cl)).getLast? := by
          rw [← h, hlast]; simp
        have h3 : (p ++ (⟨.loadBuildClass, a⟩ : Instr) :: (n ++ cl)).getLast? =
            ((⟨.loadBuildClass, a⟩ : Instr) :: (n ++ cl)).getLast? := by
          rw [List.getLast?_append, List.getLast?_cons]; rfl
        exact List.mem_of_getLast? (h2.trans h3).symm
      rcases List.mem_cons.mp hm with hm | hm
      · cases hm
      · rcases List.mem_append.mp hm with hm | hm
        · rcases hn with rfl | ⟨-, b, rfl⟩
          · cases hm
          · simp at hm
        · rcases hcl _ hm with h | ⟨_, h⟩ <;> cases h
  · have := (SampleCode.makes_pre h).1
    omega
  · intro i hi ho
    simp [root, Code.instrs] at hi
    rcases hi with rfl | rfl | rfl | rfl | rfl | rfl | rfl <;>
      first | exact ⟨0, c!"x", rfl, rfl⟩ | simp at ho

theorem body_class : ClassCode true root body :=
  ⟨root, self_mem_codes _, 3, root.instrs.take 2, ⟨0, [], none, _, rfl, rfl, rfl, rfl⟩,
    [], none, [⟨.pushNull, none⟩], [], rfl, by simp [Closure], .inr ⟨rfl, none, rfl⟩⟩

theorem ordinary : Ordinary true root where
  nodup := by rw [codes_root]; decide +kernel
  compiled := by
    rw [codes_root]
    intro c hc
    simp only [List.mem_cons, List.not_mem_nil, or_false] at hc
    rcases hc with rfl | rfl | rfl
    · exact compiled_root
    · exact flat (by simp [body, Code.instrs]) (by simp [body, Code.instrs, nameArg, Code.names])
    · exact flat (by simp [func, Code.instrs]) (by simp [func, Code.instrs, nameArg, Code.names])
  functions := by
    rw [codes_root]
    intro c hc
    simp only [List.mem_cons, List.not_mem_nil, or_false] at hc
    rcases hc with rfl | rfl | rfl
    · exact .inl rfl
    · exact .inr (.inl body_class)
    · refine .inr (.inr ?_)
      rintro n ⟨i, hi, ho, -⟩
      simp [func, Code.instrs] at hi
      subst hi
      cases ho

/-- Every module has this code. -/
def loaders : Loaders Unit := { demoLoaders with
  getSource := fun _ w => (.ok none, w)
  getCode := fun _ w => (.ok (some root), w)
  isPackage := fun _ w => (.ok false, w) }

theorem stable : loaders.Stable := ⟨fun _ _ _ => rfl, fun _ _ _ _ => rfl, fun _ _ _ => rfl, fun _ _ _ => rfl⟩

/-- The only module is `m`. -/
def env : Env Unit := { Demo.env {} with
  findSpec := fun n w => (.ok (if n = c!"m" then some { name := n, loader := .inspect } else none), w) }

end Dunder

/-- All conditions of `C78_uses_partial`. -/
example :
    let s := (runClient (Dunder.env.withLoaders Dunder.loaders 2) 30 (Demo.client [.addModule c!"m"])
      (initState () [] false)).2
    s.nodes.map (fun m => (m.ident, m.isModule, m.isExtension, m.usesDunderImport, m.usesDunderFile)) =
      [(c!"m", true, false, true, false)] ∧
    ReadsOutside true Dunder.root c!"__import__" := by
  refine ⟨by decide +kernel, Dunder.func, by rw [Dunder.codes_root]; simp, .inr ?_⟩
  exact ⟨_, List.mem_cons_self .., rfl, 0, rfl, rfl⟩

/-- C78 is false for classes: a module whose class reads `__file__` in its body does not say so. -/
theorem C78_class_body :
    Dunder.loaders.Stable ∧ Ordinary Dunder.loaders.new Dunder.root ∧ Reads Dunder.loaders.new Dunder.root c!"__file__" ∧
    (match (nodeForSpec Dunder.loaders 2 { name := c!"m", loader := .inspect } ()).1 with
      | .ok (m, _) => some (m.isModule, m.usesDunderFile, m.usesDunderImport)
      | _ => none) = some (true, false, true) := by
  refine ⟨Dunder.stable, Dunder.ordinary, ⟨Dunder.body, by rw [Dunder.codes_root]; simp, .inl ?_⟩, by decide +kernel⟩
  exact ⟨_, List.mem_cons_self .., rfl, 0, rfl, rfl⟩

end Verif.Props
