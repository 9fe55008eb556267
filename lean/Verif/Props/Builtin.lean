import Verif.Spec.BuiltinSpec
import Verif.Proofs.Load
import Verif.Props.Nodes
/-!
# C45, C46: the built-in hooks
-/
namespace Verif.Props
open Verif Spec

variable {W : Type}

theorem upToSlash_iff {dir file : Str} : UpToSlash dir file ↔ (rpartition '/' file).1 = dir := by
  unfold UpToSlash rpartition
  cases h : rfindSplit '/' file with
  | none =>
    have hn := rfindSplit_none.mp h
    constructor
    · rintro (⟨name, -, rfl⟩ | ⟨-, rfl⟩)
      · exact absurd hn (by simp)
      · rfl
    · rintro rfl; exact .inr ⟨hn, rfl⟩
  | some p =>
    obtain ⟨a, b⟩ := p
    obtain ⟨he, hb⟩ := rfindSplit_some.mp h
    constructor
    · rintro (⟨name, hn, he'⟩ | ⟨hn, -⟩)
      · have := rfindSplit_some.mpr ⟨he', hn⟩
        rw [h] at this; simp at this; exact this.1
      · exact absurd hn (by rw [he]; simp)
    · rintro rfl; exact .inl ⟨b, hb, he⟩

theorem Located.det {env : Env W} {missing pkg w a b w1 w2} (h : Located env missing pkg w a w1)
    (h' : Located env missing pkg w b w2) : a = b ∧ w1 = w2 := by
  cases h with
  | direct h =>
    cases h' with
    | direct h' => rw [h] at h'; simp at h'; exact h'
    | retry h' => rw [h] at h'; simp at h'
  | retry h he h2 ho hu h3 h4 =>
    cases h' with
    | direct h' => rw [h] at h'; simp at h'
    | retry h' he' h2' ho' hu' h3' h4' =>
      rw [h] at h'; simp at h'; obtain ⟨rfl, rfl⟩ := h'
      rw [h2] at h2'; simp at h2'; obtain ⟨rfl, rfl⟩ := h2'
      rw [ho] at ho'; simp at ho'; subst ho'
      have hd := (upToSlash_iff.mp hu).symm.trans (upToSlash_iff.mp hu'); subst hd
      rw [h3] at h3'; simp at h3'; obtain ⟨rfl, rfl⟩ := h3'
      rw [h4] at h4'; simp at h4'; exact ⟨rfl, h4'⟩

/-- The part of the hook that looks for the spec. -/
theorem locate_iff (env : Env W) (missing pkg : Str) (s s' : St W) (spec : Option Spec) :
    (M.bind (M.attempt (M.ext (env.findSpecRel missing pkg))) fun r =>
      (match r with
      | .ok spec => M.pure spec
      | .error e =>
        if e.isImportError then
          M.bind (M.ext (env.findSpec pkg)) fun sp =>
          match sp with
          | none => M.throw .assertion
          | some sp =>
            match sp.origin with
            | none => M.throw .assertion
            | some origin =>
              M.bind (M.modify fun s =>
                { s with world := env.setFake pkg (rpartition '/' origin).1 s.world }) fun _ =>
              M.bind (M.ext (env.findSpecRel missing pkg)) fun spec =>
              M.bind (M.ext (env.delModule pkg)) fun _ => M.pure spec
        else M.throw e : M W (Option Spec))) s = (.ok spec, s') ↔
      ∃ w', Located env missing pkg s.world spec w' ∧ s' = { s with world := w' } := by
  constructor
  · intro h
    obtain ⟨r, s1, h1, h⟩ := M.bind_ok h
    cases hf : env.findSpecRel missing pkg s.world with
    | mk q w1 =>
      have hx : M.ext (env.findSpecRel missing pkg) s = (q, { s with world := w1 }) := by
        unfold M.ext; rw [hf]
      rcases M.attempt_cases hx with ⟨_, ha⟩ | ha
      · rw [ha] at h1; simp at h1
      · rw [ha] at h1
        simp at h1
        obtain ⟨rfl, rfl⟩ := h1
        cases q with
        | ok sp =>
          obtain ⟨rfl, rfl⟩ := M.pure_ok h
          exact ⟨w1, .direct hf, rfl⟩
        | error e =>
          simp only [] at h
          split at h
          · rename_i he
            obtain ⟨sp, s2, h2, h⟩ := M.bind_ok h
            obtain ⟨h2a, rfl⟩ := M.ext_ok h2
            cases sp with
            | none => simp [M.throw] at h
            | some sp =>
              simp only [] at h
              cases ho : sp.origin with
              | none => rw [ho] at h; simp [M.throw] at h
              | some o =>
                rw [ho] at h
                simp only [] at h
                rw [M.bind_modify] at h
                obtain ⟨sp2, s3, h3, h⟩ := M.bind_ok h
                obtain ⟨h3a, rfl⟩ := M.ext_ok h3
                obtain ⟨u, s4, h4, h⟩ := M.bind_ok h
                obtain ⟨h4a, rfl⟩ := M.ext_ok h4
                obtain ⟨rfl, rfl⟩ := M.pure_ok h
                exact ⟨_, .retry hf ((importFails_iff _).mp he) (Prod.ext h2a rfl) ho (upToSlash_iff.mpr rfl) (Prod.ext h3a rfl) (Prod.ext h4a rfl), rfl⟩
          · simp [M.throw] at h
  · rintro ⟨w', hL, rfl⟩
    cases hL with
    | direct h =>
      rw [M.bind_of_ok (a := .ok spec) (s' := { s with world := w' })]
      · rfl
      · unfold M.attempt M.ext; rw [h]
    | retry h he h2 ho hu h3 h4 =>
      rename_i e w1 sp w2 origin dir w3
      have he := (importFails_iff _).mpr he
      have hu := upToSlash_iff.mp hu
      subst hu
      rw [M.bind_of_ok (a := .error e) (s' := { s with world := w1 })]
      · simp only [he, if_true]
        rw [M.bind_ext (a := some sp) (w := w2) _ h2]
        simp only [ho]
        rw [M.bind_modify, M.bind_ext (a := spec) (w := w3) _ h3, M.bind_ext (a := ()) (w := w') _ h4]
        rfl
      · unfold M.attempt M.ext
        rw [h]
        cases e <;> first | rfl | simp [Exc.isImportError] at he

theorem rpartition_last {comps : List Str} {last : Str} (h : ∀ c ∈ comps ++ [last], Comp c) :
    (rpartition '.' (dotted (comps ++ [last]))).2.2 = last ∧
      (rpartition '.' (dotted (comps ++ [last]))).1 = dotted comps := by
  have hl : '.' ∉ last := h last (by simp)
  by_cases hc : comps = []
  · subst hc
    have : rfindSplit '.' (dotted ([] ++ [last])) = none := rfindSplit_none.mpr hl
    unfold rpartition
    rw [this]
    exact ⟨rfl, rfl⟩
  · have : rfindSplit '.' (dotted (comps ++ [last])) = some (dotted comps, last) := by
      rw [dotted_snoc last hc]
      exact rfindSplit_some.mpr ⟨rfl, hl⟩
    unfold rpartition
    rw [this]
    exact ⟨rfl, rfl⟩

/-- The conditions of the hook on the importing module. -/
theorem swigPair_iff {s : St W} {imp : Node} {missing pkg : Str} :
    SwigPair s imp missing pkg ↔ (imp.isModule || imp.isPackage) = true ∧
      missing = '_' :: (rpartition '.' imp.ident).2.2 ∧
      (s.globalsWritten imp).contains c!"swig_import_helper" = true ∧
      pkg = (if imp.isPackage then imp.ident else (rpartition '.' imp.ident).1) := by
  have hg : (imp.isModule || imp.isPackage) = true → s.globalsWritten imp = s.gw imp.ident := by
    intro h
    unfold St.globalsWritten
    rw [if_neg]
    unfold Node.isModule Node.isPackage at h; unfold Node.isNamespacePkg
    cases hk : imp.kind <;> simp_all
  constructor
  · rintro ⟨hk, hh, comps, last, hi, hc, rfl, rfl⟩
    have hk' : (imp.isModule || imp.isPackage) = true := by rcases hk with h | h <;> simp [h]
    refine ⟨hk', ?_, ?_, ?_⟩
    · rw [hi, (rpartition_last hc).1]
    · rw [hg hk']; simpa using hh
    · rw [hi, (rpartition_last hc).2]
  · rintro ⟨hk, rfl, hh, rfl⟩
    refine ⟨by simpa using hk, ?_, ?_⟩
    · rw [hg hk] at hh; simpa using hh
    · obtain ⟨cs, hne, hcs, he⟩ := exists_comps imp.ident
      have hcc : cs = cs.dropLast ++ [cs.getLast hne] := (List.dropLast_concat_getLast hne).symm
      rw [hcc] at he hcs
      refine ⟨_, _, he, hcs, ?_, ?_⟩
      · rw [he, (rpartition_last hcs).1]
      · rw [he, (rpartition_last hcs).2]

/-- The part of the hook after the spec was found. -/
def swigFinish (env : Env W) (missing : Str) (spec : Option Spec) : M W (Option Node) :=
  match spec with
  | none => M.pure none
  | some spec =>
    M.bind (M.ext (env.nodeForSpec spec)) fun p =>
    if !p.1.isExtension then M.pure none
    else
      M.bind (M.assert p.2.isEmpty) fun _ =>
      let node := { p.1 with ident := missing }
      M.bind (M.addNode node) fun _ => M.pure (some node)

theorem swigFinish_iff (env : Env W) (missing : Str) (spec : Option Spec) (s s' : St W) (node) :
    swigFinish env missing spec s = (.ok (some node), s') ↔
      ∃ sp ext w2, spec = some sp ∧ env.nodeForSpec sp s.world = (.ok (ext, []), w2) ∧
        ext.isExtension = true ∧ (∀ x ∈ s.nodes, x.ident ≠ missing) ∧
        node = { ext with ident := missing } ∧
        s' = ({ s with world := w2 } : St W).addNode node := by
  constructor
  · intro h
    unfold swigFinish at h
    cases spec with
    | none => simp [M.pure] at h
    | some sp =>
      obtain ⟨p, s1, h1, h⟩ := M.bind_ok h
      obtain ⟨h1a, rfl⟩ := M.ext_ok h1
      split at h
      · simp [M.pure] at h
      · rename_i hx
        obtain ⟨_, s2, h2, h⟩ := M.bind_ok h
        obtain ⟨hb, rfl⟩ := M.assert_ok h2
        obtain ⟨_, s3, h3, h⟩ := M.bind_ok h
        obtain ⟨hn, rfl⟩ := M.addNode_ok h3
        obtain ⟨he, rfl⟩ := M.pure_ok h
        simp at he
        obtain ⟨ext, im⟩ := p
        have him : im = [] := by simpa using hb
        subst him
        refine ⟨sp, ext, _, rfl, Prod.ext h1a rfl, by simpa using hx, ?_, he.symm, by rw [← he]⟩
        intro x hxm hxi
        have : s.has missing = true := has_of_Has ⟨x, hxm, hxi⟩
        have hn : s.has missing = false := hn
        rw [this] at hn; cases hn
  · rintro ⟨sp, ext, w2, rfl, h1, h2, h3, rfl, rfl⟩
    unfold swigFinish
    simp only []
    rw [M.bind_ext _ h1]
    simp only [h2, Bool.not_true, Bool.false_eq_true, if_false, List.isEmpty_nil]
    rw [M.bind_assert _ rfl, M.bind_addNode]
    · rfl
    · show s.has missing = false
      cases hh : s.has missing with
      | false => rfl
      | true => obtain ⟨x, hx, hi⟩ := Has_of_has hh; exact absurd hi (h3 x hx)

/-- C45: without such a pair the hook does nothing. -/
theorem C45_declines (env : Env W) (importing : Option Node) (missing : Str) (s : St W)
    (h : ∀ imp pkg, importing = some imp → ¬ SwigPair s imp missing pkg) :
    swigHook env importing missing s = (.ok none, s) := by
  unfold swigHook
  cases importing with
  | none => rfl
  | some imp =>
    have h := fun pkg => h imp pkg rfl
    simp only [swigPair_iff] at h
    simp only []
    split
    · rfl
    · rename_i h1
      split
      · rfl
      · rename_i h2
        rw [M.bind_get]
        rw [if_pos]
        · rfl
        · cases h3 : (s.globalsWritten imp).contains c!"swig_import_helper" with
          | false => rfl
          | true => exact absurd ⟨Decidable.not_not.mp (by simpa using h1), by simpa using h2, h3, rfl⟩ (h _)

/-- C45: the SWIG hook supplies a node exactly when the importing module is the Python half of a
SWIG module, and the C half is found in its package and is an extension module (and the name is not
in use).  The node is the one of the extension module, under the requested name, and adding it is
the only change of the graph. -/
theorem C45_supplies (env : Env W) (importing : Option Node) (missing : Str) (s s' : St W)
    (node : Node) :
    swigHook env importing missing s = (.ok (some node), s') ↔
      ∃ imp pkg spec w1 ext w2, importing = some imp ∧ SwigPair s imp missing pkg ∧
        Located env missing pkg s.world (some spec) w1 ∧
        env.nodeForSpec spec w1 = (.ok (ext, []), w2) ∧ ext.isExtension = true ∧
        (∀ x ∈ s.nodes, x.ident ≠ missing) ∧
        node = { ext with ident := missing } ∧
        s' = ({ s with world := w2 } : St W).addNode node := by
  by_cases hp : ∃ imp pkg, importing = some imp ∧ SwigPair s imp missing pkg
  · obtain ⟨imp, pkg, rfl, hp⟩ := hp
    have hp' := swigPair_iff.mp hp
    obtain ⟨h1, h2, h3, h4⟩ := hp'
    have e : ∀ r, swigHook env (some imp) missing s = r ↔ (M.bind (M.bind (M.attempt (M.ext (env.findSpecRel missing pkg))) fun r =>
      (match r with
      | .ok spec => M.pure spec
      | .error e =>
        if e.isImportError then
          M.bind (M.ext (env.findSpec pkg)) fun sp =>
          match sp with
          | none => M.throw .assertion
          | some sp =>
            match sp.origin with
            | none => M.throw .assertion
            | some origin =>
              M.bind (M.modify fun s =>
                { s with world := env.setFake pkg (rpartition '/' origin).1 s.world }) fun _ =>
              M.bind (M.ext (env.findSpecRel missing pkg)) fun spec =>
              M.bind (M.ext (env.delModule pkg)) fun _ => M.pure spec
        else M.throw e : M W (Option Spec))) (swigFinish env missing)) s = r := by
      intro r
      rw [M.bind_assoc]
      unfold swigHook
      simp only []
      rw [if_neg (by rw [h1]; simp), if_neg (by simpa using h2), M.bind_get,
        if_neg (by rw [h3]; simp), h4]
      exact Iff.rfl
    rw [e]
    constructor
    · intro h
      obtain ⟨spec, s1, ha, hb⟩ := M.bind_ok h
      obtain ⟨w1, hL, rfl⟩ := (locate_iff ..).mp ha
      obtain ⟨sp, ext, w2, rfl, hc⟩ := (swigFinish_iff ..).mp hb
      exact ⟨imp, pkg, sp, w1, ext, w2, rfl, hp, hL, hc⟩
    · rintro ⟨imp', pkg', spec, w1, ext, w2, hi, hp', hL, hb⟩
      simp at hi
      subst hi
      have : pkg' = pkg := by rw [(swigPair_iff.mp hp').2.2.2, h4]
      subst this
      rw [M.bind_of_ok ((locate_iff ..).mpr ⟨w1, hL, rfl⟩)]
      exact (swigFinish_iff ..).mpr ⟨spec, ext, w2, rfl, hb⟩
  · rw [C45_declines env importing missing s fun imp pkg h1 h2 => hp ⟨imp, pkg, h1, h2⟩]
    constructor
    · intro h; simp at h
    · rintro ⟨imp, pkg, spec, w1, ext, w2, h1, h2, _⟩
      exact absurd ⟨imp, pkg, h1, h2⟩ hp

/-- `p.m` defines `swig_import_helper` and imports `_m`, the extension module `p._m`. -/
def swigPairTable : Demo.Table where
  mods := [(c!"p", Demo.pkg c!"p", []),
    (c!"p.m", Demo.src c!"p.m" [c!"swig_import_helper"], [Demo.imp c!"_m"]),
    (c!"p.q", Demo.src c!"p.q", [Demo.imp c!"_q"]),
    (c!"p._m", { ident := c!"p._m", kind := .module .extension }, []),
    (c!"p._q", { ident := c!"p._q", kind := .module .extension }, [])]

example : (swigHook (Demo.env swigPairTable) (some (Demo.src c!"p.m")) c!"_m"
    (Demo.run swigPairTable [.addModule c!"p.m"]).2).1 = .error (.valueError false) ∧
    ((Demo.run swigPairTable [.addModule c!"p.m"]).2.find c!"_m").map Node.kind =
      some (.module .extension) := by decide +kernel

example : SwigPair ((initState () [] true).addNode (Demo.src c!"p.m" [c!"swig_import_helper"]))
    (Demo.src c!"p.m" [c!"swig_import_helper"]) c!"_m" c!"p" ∧
    (swigHook (Demo.env swigPairTable) (some (Demo.src c!"p.m" [c!"swig_import_helper"])) c!"_m"
    ((initState () [] true).addNode (Demo.src c!"p.m" [c!"swig_import_helper"]))).1 =
      .ok (some { ident := c!"_m", kind := .module .extension }) :=
  ⟨swigPair_iff.mpr (by decide +kernel), by decide +kernel⟩

/-- No helper function, no node. -/
example : ((Demo.run swigPairTable [.addModule c!"p.q"]).2.find c!"_q").map Node.kind =
      some .missing := by decide +kernel

/-! ## C46 -/

theorem beforeFirst_append (a b : Str) : beforeFirst '.' (a ++ '.' :: b) = beforeFirst '.' a := by
  unfold beforeFirst
  induction a with
  | nil => rfl
  | cons x a ih =>
    simp only [List.cons_append, List.takeWhile_cons]
    split
    · rw [ih]
    · rfl

theorem beforeFirst_none {a : Str} (h : '.' ∉ a) : beforeFirst '.' a = a := by
  unfold beforeFirst
  induction a with
  | nil => rfl
  | cons x a ih =>
    have h1 : x ≠ '.' := fun he => h (by simp [he])
    rw [List.takeWhile_cons, ih fun hm => h (by simp [hm])]
    simp [h1]

theorem sourceNextTo_eq {file source : Str} (h : SourceOf file source) :
    sourceNextTo file = source := by
  obtain ⟨dir, stem, suffix, rfl, rfl, hd, hne, h1, h2, h3, h4⟩ := h
  have hp : (rpartition '/' (dir ++ stem ++ suffix)).1 ++ (rpartition '/' (dir ++ stem ++ suffix)).2.1
      = dir ∧ (rpartition '/' (dir ++ stem ++ suffix)).2.2 = stem ++ suffix := by
    unfold rpartition
    rcases hd with rfl | ⟨d, rfl⟩
    · have : rfindSplit '/' ([] ++ stem ++ suffix) = none := rfindSplit_none.mpr (by simp [h1, h3])
      rw [this]
      exact ⟨rfl, rfl⟩
    · have : rfindSplit '/' (d ++ ['/'] ++ stem ++ suffix) = some (d, stem ++ suffix) :=
        rfindSplit_some.mpr ⟨by simp, by simp [h1, h3]⟩
      rw [this]
      exact ⟨rfl, rfl⟩
  unfold sourceNextTo
  simp only [hp.1, hp.2]
  congr 2
  rcases h4 with rfl | ⟨r, rfl⟩
  · have : rfindSplit '.' (stem ++ []) = none := rfindSplit_none.mpr (by simpa using h2)
    rw [this]
    simpa using beforeFirst_none h2
  · cases hs : rfindSplit '.' (stem ++ '.' :: r) with
    | none => simp only []; rw [beforeFirst_append, beforeFirst_none h2]
    | some q =>
      obtain ⟨a, b⟩ := q
      simp only []
      split
      · rw [beforeFirst_append, beforeFirst_none h2]
      · have := (rfindSplit_some.mp hs).1
        rw [← beforeFirst_append a b, ← this, beforeFirst_append, beforeFirst_none h2]

theorem compiledFrom_iff {node : Node} {file : Str} :
    CompiledFrom node file ↔ mypycFile node = some (some file) := by
  unfold CompiledFrom mypycFile
  constructor
  · rintro (⟨h1, h2⟩ | ⟨a, init, b, c, d, h1, h2, h3⟩)
    · rw [h1]; simp [h2]
    · rw [h1]; simp [h2, h3]
  · intro h
    split at h
    · rename_i a init b c d hk
      split at h
      · rename_i he
        exact .inr ⟨a, init, b, c, d, hk, he, by simpa using h⟩
      · simp at h
    · rename_i hk
      exact .inl ⟨hk, by simpa using h⟩
    · simp at h

theorem endsWith_iff {p s : Str} : endsWith p s = true ↔ ∃ q, s = q ++ p := by
  unfold endsWith
  rw [List.isSuffixOf_iff_suffix]
  exact ⟨fun ⟨q, h⟩ => ⟨q, h.symm⟩, fun ⟨q, h⟩ => ⟨q, h.symm⟩⟩

theorem mypycModule_iff {node : Node} {file helper : Str} :
    MypycModule node file helper ↔ mypycFile node = some (some file) ∧
      ∃ d, node.distribution = some d ∧
        d.importNames.find? (endsWith c!"__mypyc") = some helper := by
  rw [← compiledFrom_iff]
  constructor
  · rintro ⟨h1, d, h2, a, b, h3, h4, h5⟩
    refine ⟨h1, d, h2, ?_⟩
    rw [List.find?_eq_some_iff_append]
    refine ⟨endsWith_iff.mpr h4, a, b, h3, fun x hx => ?_⟩
    simp only [Bool.not_eq_true']
    cases he : endsWith c!"__mypyc" x with
    | false => rfl
    | true => exact absurd (endsWith_iff.mp he) (h5 x hx)
  · rintro ⟨h1, d, h2, h3⟩
    rw [List.find?_eq_some_iff_append] at h3
    obtain ⟨h4, a, b, h5, h6⟩ := h3
    refine ⟨h1, d, h2, a, b, h5, endsWith_iff.mp h4, fun x hx he => ?_⟩
    have := h6 x hx
    rw [endsWith_iff.mpr he] at this
    simp at this

/-- C46: the hook does nothing for modules that were not compiled by mypyc. -/
theorem C46_other (env : Env W) (rec : Calls W) (node : Node) (s : St W)
    (h : ∀ file helper, ¬ MypycModule node file helper) :
    mypycHook env rec node s = (.ok (), s) := by
  simp only [mypycModule_iff] at h
  unfold mypycHook
  cases h1 : mypycFile node with
  | none => rfl
  | some f =>
    cases h2 : node.distribution with
    | none => rfl
    | some d =>
      cases f with
      | none => rfl
      | some f =>
        cases h3 : d.importNames.find? (endsWith c!"__mypyc") with
        | none => simp only [h3]; rfl
        | some x => exact absurd ⟨h1, d, h2, h3⟩ (h f x)

/-- The hook for a mypyc module. -/
theorem mypycHook_eq (env : Env W) (rec : Calls W) {node : Node} {file helper source : Str}
    (h : MypycModule node file helper) (hs : SourceOf file source) : mypycHook env rec node =
      M.bind (M.ext (env.isFile source)) fun b =>
      if !b then M.pure ()
      else
        M.bind (rec.op (.addModule helper)) fun h =>
        match h with
        | none => M.throw .assertion
        | some h =>
          M.bind (M.addEdge node.ident h.ident defaultDep) fun _ =>
          M.bind (M.ext (env.readBytes source)) fun code =>
          M.bind (M.attempt (M.ext (env.compileAst code))) fun r =>
          match r with
          | .error .syntaxError => M.pure ()
          | .error e => M.throw e
          | .ok imports =>
            if imports.isEmpty then M.pure ()
            else M.bind (M.schedule node imports) fun _ => rec.runStack := by
  obtain ⟨h1, d, h2, h3⟩ := mypycModule_iff.mp h
  unfold mypycHook
  rw [h1, h2]
  simp only [h3, sourceNextTo_eq hs]
  rfl

/-- C46: without the Python source next to it, nothing changes. -/
theorem C46_no_source (env : Env W) (rec : Calls W) {node : Node} {file helper source : Str}
    (h : MypycModule node file helper) (hs : SourceOf file source) (s : St W) (w : W)
    (hf : env.isFile source s.world = (.ok false, w)) :
    mypycHook env rec node s = (.ok (), { s with world := w }) := by
  rw [mypycHook_eq env rec h hs, M.bind_ext _ hf]
  rfl

/-- Everything that was queued has been started when the queue was processed. -/
theorem runStack_starts (env : Env W) (n : Nat) {s s' : St W}
    (h : (calls env n).runStack s = (.ok (), s')) (it : Item) (hi : it ∈ s.stack) :
    .started it ∈ s'.log := by
  have hop : (calls env (n + 1)).op .runStack s = (.ok none, s') := by
    have ha : apiBody env (calls env n) .runStack s = (.ok none, s') := by
      show M.bind (calls env n).runStack _ s = _
      rw [M.bind_of_ok h]
      rfl
    show opBody env (calls env n) .runStack s = _
    unfold opBody
    rw [ha]
  have h1 := C44_not_lost env (n + 1) .runStack s it
  have h2 := runStack_drains env n h
  have h3 := op_hidden env (n + 1) .runStack s
  rw [hop] at h1 h3
  simp only [pending] at h1
  simp only [] at h3
  rw [h3, h2] at h1
  have h4 : 0 < s.stack.count it := List.count_pos_iff.mpr hi
  have h5 : 0 < s'.log.count (.started it) := by
    simp only [List.count_append, List.count_nil] at h1
    omega
  exact List.count_pos_iff.mp h5

theorem mem_schedule_stack (s : St W) (node : Node) (infos : List ImportInfo) {i} (h : i ∈ infos) :
    .imp node i ∈ (s.schedule node infos).stack := by
  unfold St.schedule
  simp only [List.mem_append, List.mem_map]
  exact .inr ⟨i, h, rfl⟩

/-- C46: with the Python source next to the extension, the module gets an edge to the helper (the
module that `add_module` gives), and every import statement of the source is processed as an import
of this module.  A source with a syntax error has no imports. -/
theorem C46_adds (env : Env W) (n : Nat) {node : Node} {file helper source : Str}
    (h : MypycModule node file helper) (hs : SourceOf file source) (s s' : St W) (w : W)
    (hf : env.isFile source s.world = (.ok true, w))
    (hr : mypycHook env (calls env n) node s = (.ok (), s')) :
    ∃ m s1, (calls env n).op (.addModule helper) { s with world := w } = (.ok (some m), s1) ∧
      (∃ x ∈ s'.nodes, x.ident = m.ident) ∧
      (∃ d, (node.ident, m.ident, d) ∈ s'.edges) ∧
      ∃ code w1, env.readBytes source s1.world = (.ok code, w1) ∧
        ((∃ w2, env.compileAst code w1 = (.error .syntaxError, w2)) ∨
          ∃ imports w2, env.compileAst code w1 = (.ok imports, w2) ∧
            ∀ i ∈ imports, .started (.imp node i) ∈ s'.log) := by
  rw [mypycHook_eq env _ h hs, M.bind_ext _ hf] at hr
  simp only [Bool.not_true, Bool.false_eq_true, if_false] at hr
  obtain ⟨m, s1, h1, h2⟩ := M.bind_ok hr
  cases m with
  | none => simp [M.throw] at h2
  | some m =>
    refine ⟨m, s1, h1, ?_⟩
    simp only [] at h2
    obtain ⟨_, s2, h3, h4⟩ := M.bind_ok h2
    obtain ⟨ha, hb, rfl⟩ := M.addEdge_ok h3
    obtain ⟨code, s3, h5, h6⟩ := M.bind_ok h4
    obtain ⟨h5a, rfl⟩ := M.ext_ok h5
    have hw : (s1.addEdge node.ident m.ident defaultDep).world = s1.world := by
      unfold St.addEdge; split <;> rfl
    have hn : (s1.addEdge node.ident m.ident defaultDep).nodes = s1.nodes := by
      unfold St.addEdge; split <;> rfl
    have he : (node.ident, m.ident, defaultDep) ∈
        (s1.addEdge node.ident m.ident defaultDep).edges := (mem_addEdge ..).mpr (.inr rfl)
    have hx := Has_of_has hb
    rw [hw] at h5a h6
    obtain ⟨r, s4, h7, h8⟩ := M.bind_ok h6
    generalize hcw : (env.readBytes source s1.world).2 = w1 at *
    cases hc : env.compileAst code w1 with
    | mk q w2 =>
      have hxq : M.ext (env.compileAst code)
          { (s1.addEdge node.ident m.ident defaultDep) with world := w1 } =
          (q, { (s1.addEdge node.ident m.ident defaultDep) with world := w2 }) := by
        unfold M.ext; simp only [hc]
      have hrq : r = q ∧ s4 = { (s1.addEdge node.ident m.ident defaultDep) with world := w2 } := by
        rcases M.attempt_cases hxq with ⟨_, ha⟩ | ha
        · rw [ha] at h7; simp at h7
        · rw [ha] at h7; simp at h7; exact ⟨h7.1.symm, h7.2.symm⟩
      obtain ⟨rfl, rfl⟩ := hrq
      cases r with
      | error e =>
        cases e <;> first
          | (simp [M.throw] at h8; done)
          | (obtain ⟨_, rfl⟩ := M.pure_ok h8
             refine ⟨?_, ⟨_, he⟩, code, w1, Prod.ext h5a hcw, .inl ⟨w2, hc⟩⟩
             obtain ⟨x, hx1, hx2⟩ := hx
             exact ⟨x, by rw [← hn] at hx1; exact hx1, hx2⟩)
      | ok imports =>
        simp only [] at h8
        split at h8
        · rename_i hemp
          obtain ⟨_, rfl⟩ := M.pure_ok h8
          refine ⟨?_, ⟨_, he⟩, code, w1, Prod.ext h5a hcw, .inr ⟨imports, w2, hc, ?_⟩⟩
          · obtain ⟨x, hx1, hx2⟩ := hx
            exact ⟨x, by rw [← hn] at hx1; exact hx1, hx2⟩
          · intro i hi
            have : imports = [] := by simpa using hemp
            rw [this] at hi; simp at hi
        · rw [M.bind_schedule] at h8
          have hg := runStack_grows env n
            (St.schedule { (s1.addEdge node.ident m.ident defaultDep) with world := w2 } node imports)
          rw [h8] at hg
          have hv : view (St.schedule { (s1.addEdge node.ident m.ident defaultDep) with world := w2 } node imports)
              = view (s1.addEdge node.ident m.ident defaultDep) := by
            unfold St.schedule view; simp only []; split <;> rfl
          rw [hv] at hg
          refine ⟨?_, ⟨_, hg.edges _ he⟩, code, w1, Prod.ext h5a hcw, .inr ⟨imports, w2, hc, ?_⟩⟩
          · obtain ⟨x, hx1, hx2⟩ := hx
            exact ⟨x, hg.nodes x (by rw [← hn] at hx1; exact hx1), hx2⟩
          · intro i hi
            exact runStack_starts env n h8 _ (mem_schedule_stack _ _ _ hi)

def mypycDist : Dist :=
  { identifier := c!"d", name := c!"d", version := c!"1", files := [],
    importNames := [c!"x", c!"81d__mypyc"] }

def mypycNode : Node :=
  { ident := c!"x", kind := .module .extension, distribution := some mypycDist,
    filename := some c!"/lib/x.cpython-312.so" }

/-- `x` was compiled by mypyc; its source imports `y`. -/
def mypycTable : Demo.Table where
  mods := [(c!"x", mypycNode, []),
    (c!"81d__mypyc", { ident := c!"81d__mypyc", kind := .module .extension }, []),
    (c!"y", Demo.src c!"y", [])]
  files := [c!"/lib/x.py"]
  scripts := [(c!"/lib/x.py", [Demo.imp c!"y"])]

theorem mypycNode_is : MypycModule mypycNode c!"/lib/x.cpython-312.so" c!"81d__mypyc" :=
  mypycModule_iff.mpr ⟨by decide +kernel, mypycDist, by decide +kernel, by decide +kernel⟩

example : SourceOf c!"/lib/x.cpython-312.so" c!"/lib/x.py" :=
  ⟨c!"/lib/", c!"x", c!".cpython-312.so", rfl, rfl, .inr ⟨c!"/lib", rfl⟩, by decide +kernel,
    by decide +kernel, by decide +kernel, by decide +kernel, .inr ⟨_, rfl⟩⟩

example : (mypycHook (Demo.env mypycTable) (calls (Demo.env mypycTable) 20) mypycNode
      ((initState () [] true).addNode mypycNode)).1 = .ok () ∧
    (Demo.run mypycTable [.addModule c!"x"]).2.edges.map (fun e => (e.1, e.2.1)) =
      [(c!"x", c!"81d__mypyc"), (c!"x", c!"y")] := by decide +kernel

/-- An extension module of a distribution without such a helper. -/
example : ∀ file helper, ¬ MypycModule
    { mypycNode with distribution := some { mypycDist with importNames := [c!"x"] } } file helper := by
  intro file helper h
  obtain ⟨_, d, hd, hf⟩ := mypycModule_iff.mp h
  simp at hd
  subst hd
  have : List.find? (endsWith c!"__mypyc") [c!"x"] = none := by decide +kernel
  rw [this] at hf
  cases hf

end Verif.Props
