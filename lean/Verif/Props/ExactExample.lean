import Verif.Props.Exact
/-!
# C61: examples
-/
namespace Verif.Props
open Verif M Spec

/-- The environment of a table is described by the table. -/
theorem demo_describes (t : Demo.Table) (S : Setup) (hm : ∀ x, S.mods x = Demo.lookup t.mods x)
    (hs : ∀ x, S.scripts x = (Demo.lookup t.scripts x).map fun i => (i, x))
    (hd : ∀ x, S.dists x = t.dists.find? fun d => d.name == x)
    (ho : ∀ x, S.sources x = Demo.lookup t.scripts x)
    (hk : ∀ n, S.HasNode n → S.CompiledIn (Demo.env t) n) : S.Describes (Demo.env t) where
  compiled := hk
  found x spec w w' p h1 h2 := by
    have hn : spec.name = x := by
      replace h1 := locates_iff.mp h1
      simp only [resolveSpec, Demo.env] at h1
      cases hl : Demo.lookup t.mods x with
      | none => rw [hl] at h1; simp at h1
      | some q => rw [hl] at h1; simp [Demo.specOf] at h1; rw [← h1]
    simp only [Demo.env, hn] at h2
    rw [hm]
    cases hl : Demo.lookup t.mods x with
    | none => rw [hl] at h2; simp at h2
    | some q => rw [hl] at h2; simpa using h2
  absent x w h := by
    rw [hm]
    cases hl : Demo.lookup t.mods x with
    | none => rfl
    | some q =>
      refine absurd (locates_iff.mpr ?_) (h (Demo.specOf x q.1))
      simp [resolveSpec, Demo.env, hl]
  script path w r h := by
    rw [hs]
    simp only [Demo.env] at h
    cases hl : Demo.lookup t.scripts path with
    | none => rw [hl] at h; simp at h
    | some q => rw [hl] at h; simp at h; simp [h]
  distribution name w d h := by
    rw [hd]
    simpa [Demo.env] using h
  source src w infos h := by
    rw [ho]
    simp only [Demo.env] at h
    cases hl : Demo.lookup t.scripts src with
    | none => rw [hl] at h; simp at h
    | some q => rw [hl] at h; simp at h; simp [h]

/-- The distribution of `p`. -/
def exactDist : Dist := { identifier := c!"/d", name := c!"D", importNames := [c!"p", c!"p.q"] }

/-- `a` has `from p import q, v`, `import z`, `import x`; `p` is a package that defines `v` and has a
submodule `q`, which imports `a`; there is no `z`; the script imports `al`; a distribution has `p`; a piece of source code imports `z`. -/
def exactTable : Demo.Table :=
  { mods := [(c!"a", Demo.src c!"a", [Demo.fromImp 0 c!"p" [c!"q", c!"v"], Demo.imp c!"z", Demo.imp c!"x"]),
             (c!"p", Demo.pkg c!"p" [] [c!"v"], []),
             (c!"p.q", Demo.src c!"p.q", [Demo.imp c!"a"])],
    scripts := [(c!"/s", [Demo.imp c!"al"]), (c!"import z", [Demo.imp c!"z"])],
    dists := [exactDist] }

/-- `x` is excluded and `al` is an alias of `a`. -/
def exactSetup : Setup where
  conf := configured [c!"x"] ([] ++ [(c!"al", .alias c!"a")])
  mods := Demo.lookup exactTable.mods
  scripts x := (Demo.lookup exactTable.scripts x).map fun i => (i, x)
  asksModule x := x = c!"a" ∨ x = c!"al" ∨ x = c!"z"
  asksScript x := x = c!"/s"
  dists x := exactTable.dists.find? fun d => d.name == x
  sources x := Demo.lookup exactTable.scripts x
  asksDist d := d = exactDist

theorem ex_dot {x : Str} (h : '.' ∉ x) (p : Str) : ¬ HasPackage x p := fun hp => h hp.dot

theorem ex_a : exactSetup.NodeFor c!"a" (Demo.src c!"a") :=
  .top (by decide) (.found (.inl (by decide +kernel)) (infos := _) rfl rfl)
theorem ex_al : exactSetup.NodeFor c!"al" { ident := c!"al", kind := .alias c!"a" } :=
  .top (by decide) (.alias (by decide +kernel))
theorem ex_p : exactSetup.NodeFor c!"p" (Demo.pkg c!"p" [] [c!"v"]) :=
  .top (by decide) (.found (.inl (by decide +kernel)) (infos := _) rfl rfl)
theorem ex_pq : exactSetup.NodeFor c!"p.q" (Demo.src c!"p.q") :=
  .sub ⟨c!"q", rfl, by decide⟩ ex_p rfl rfl (.found (.inl (by decide +kernel)) (infos := _) rfl rfl)
theorem ex_pv : exactSetup.NodeFor c!"p.v" { ident := c!"p.v", kind := .missing } :=
  .sub ⟨c!"v", rfl, by decide⟩ ex_p rfl rfl (.absent (.inl (by decide +kernel)) (by decide +kernel))
theorem ex_z : exactSetup.NodeFor c!"z" { ident := c!"z", kind := .missing } :=
  .top (by decide) (.absent (.inl (by decide +kernel)) (by decide +kernel))
theorem ex_x : exactSetup.NodeFor c!"x" { ident := c!"x", kind := .excluded } :=
  .top (by decide) (.excluded (by decide +kernel))

/-- What is needed. -/
def ExNeeds : Setup.Thing → Prop
  | .module x tr => (x, tr) ∈ [(c!"a", false), (c!"al", false), (c!"p", false), (c!"p.q", true), (c!"p.q", false), (c!"p.v", true),
      (c!"z", false), (c!"x", false)]
  | .statement m i => (m, i) ∈ [(Demo.src c!"a", Demo.fromImp 0 c!"p" [c!"q", c!"v"]),
      (Demo.src c!"a", Demo.imp c!"z"), (Demo.src c!"a", Demo.imp c!"x"), (Demo.src c!"p.q", Demo.imp c!"a"),
      (Setup.scriptNode c!"/s" c!"/s", Demo.imp c!"al")]

instance (th : Setup.Thing) : Decidable (ExNeeds th) :=
  match th with
  | .module x tr => inferInstanceAs (Decidable ((x, tr) ∈ _))
  | .statement m i => inferInstanceAs (Decidable ((m, i) ∈ _))

def ExNode (n : Node) : Prop :=
  n ∈ [Demo.src c!"a", { ident := c!"al", kind := .alias c!"a" }, Demo.pkg c!"p" [] [c!"v"], Demo.src c!"p.q",
    { ident := c!"p.v", kind := .missing }, { ident := c!"z", kind := .missing },
    { ident := c!"x", kind := .excluded }, Setup.scriptNode c!"/s" c!"/s", Setup.distributionNode exactDist]

theorem ex_node {x tr n} (h : ExNeeds (.module x tr)) (hn : exactSetup.NodeFor x n) : ExNode n := by
  simp only [ExNeeds, List.mem_cons, Prod.mk.injEq, List.not_mem_nil, or_false] at h
  unfold ExNode
  rcases h with ⟨rfl, _⟩ | ⟨rfl, _⟩ | ⟨rfl, _⟩ | ⟨rfl, _⟩ | ⟨rfl, _⟩ | ⟨rfl, _⟩ | ⟨rfl, _⟩ | ⟨rfl, _⟩
  · cases hn.unique ex_a; simp
  · cases hn.unique ex_al; simp
  · cases hn.unique ex_p; simp
  · cases hn.unique ex_pq; simp
  · cases hn.unique ex_pq; simp
  · cases hn.unique ex_pv; simp
  · cases hn.unique ex_z; simp
  · cases hn.unique ex_x; simp

theorem ex_conf {x l} : exactSetup.conf x ≠ some (.refs l) := by
  intro h
  simp only [exactSetup, configured] at h
  split at h
  · cases h
  · simp only [List.nil_append, List.reverse_cons, List.reverse_nil, List.find?_cons] at h
    split at h <;> simp at h

theorem ex_stmt {m i} (h : ExNeeds (.statement m i)) : i.importLevel = 0 ∧ i.starImport = false ∧
    ∀ nm ∈ i.importNames, m = Demo.src c!"a" ∧ i.importModule.name = c!"p" ∧
      (nm.name = c!"q" ∨ nm.name = c!"v") := by
  simp only [ExNeeds, List.mem_cons, Prod.mk.injEq, List.not_mem_nil, or_false] at h
  rcases h with ⟨rfl, rfl⟩ | ⟨rfl, rfl⟩ | ⟨rfl, rfl⟩ | ⟨rfl, rfl⟩ | ⟨rfl, rfl⟩ <;>
    exact ⟨by decide +kernel, by decide +kernel, by decide +kernel⟩

theorem ex_refers {m i t} (h : ExNeeds (.statement m i)) (hr : Refers m i t) :
    t = i.importModule.name ∧ ExNeeds (.module t false) := by
  have h0 := (ex_stmt h).1
  cases hr with
  | relative _ _ h1 => omega
  | absolute =>
    refine ⟨rfl, ?_⟩
    simp only [ExNeeds, List.mem_cons, Prod.mk.injEq, List.not_mem_nil, or_false] at h
    rcases h with ⟨rfl, rfl⟩ | ⟨rfl, rfl⟩ | ⟨rfl, rfl⟩ | ⟨rfl, rfl⟩ | ⟨rfl, rfl⟩ <;> decide +kernel

theorem ex_source {m i t b c nm} (h : ExNeeds (.statement m i)) (hr : Refers m i t)
    (hb : exactSetup.NodeFor t b) (hc : exactSetup.Source b c) (hn : nm ∈ i.importNames) :
    m = Demo.src c!"a" ∧ c = Demo.pkg c!"p" [] [c!"v"] ∧ (nm.name = c!"q" ∨ nm.name = c!"v") := by
  obtain ⟨h1, h2, h3⟩ := (ex_stmt h).2.2 nm hn
  have h4 := (ex_refers h hr).1
  rw [h2] at h4
  subst h4
  cases hb.unique ex_p
  rcases hc with ⟨rfl, _⟩ | ⟨h5, _⟩
  · exact ⟨h1, rfl, h3⟩
  · cases h5

theorem ex_notSix : ¬ IsSixMoves (Demo.pkg c!"p" [] [c!"v"]) := by
  rintro ⟨_, _, _, _, _, hk, hi⟩
  cases hk
  revert hi
  decide

theorem ex_needs {th} (h : exactSetup.Needs th) : ExNeeds th := by
  induction h with
  | asked h =>
    rcases h with rfl | rfl | rfl <;> decide
  | distribution h hx =>
    cases h
    simp only [exactDist, List.mem_cons, List.not_mem_nil, or_false] at hx
    rcases hx with rfl | rfl <;> decide
  | @package x p tr _ hp ih =>
    simp only [ExNeeds, List.mem_cons, Prod.mk.injEq, List.not_mem_nil, or_false] at ih
    rcases ih with ⟨rfl, _⟩ | ⟨rfl, _⟩ | ⟨rfl, _⟩ | ⟨rfl, _⟩ | ⟨rfl, _⟩ | ⟨rfl, _⟩ | ⟨rfl, _⟩ | ⟨rfl, _⟩ <;>
      first
      | exact absurd hp (ex_dot (by decide) p)
      | (cases hp.unique (⟨c!"q", rfl, by decide⟩ : HasPackage c!"p.q" c!"p"); decide)
      | (cases hp.unique (⟨c!"v", rfl, by decide⟩ : HasPackage c!"p.v" c!"p"); decide)
  | alias _ hn hk ih =>
    have := ex_node ih hn
    simp only [ExNode, List.mem_cons, List.not_mem_nil, or_false] at this
    rcases this with rfl | rfl | rfl | rfl | rfl | rfl | rfl | rfl | rfl <;> rcases hk with hk | hk <;> cases hk
    decide
  | implied _ _ hc => exact absurd hc ex_conf
  | implying _ _ hc => exact absurd hc ex_conf
  | helper _ _ hc => cases hc
  | inCompiled _ _ hc => cases hc
  | explicitNamespace _ hn hk ih =>
    have := ex_node ih hn
    simp only [ExNode, List.mem_cons, List.not_mem_nil, or_false] at this
    rcases this with rfl | rfl | rfl | rfl | rfl | rfl | rfl | rfl | rfl <;> cases hk
  | inScript h hs hi =>
    cases h
    cases hs
    simp only [List.mem_cons, List.not_mem_nil, or_false] at hi
    subst hi
    simp [ExNeeds]
  | inModule _ hn hm hi ih =>
    have := ex_node ih hn
    simp only [ExNode, List.mem_cons, List.not_mem_nil, or_false] at this
    rcases this with rfl | rfl | rfl | rfl | rfl | rfl | rfl | rfl | rfl <;> cases hm
    · simp only [List.mem_cons, List.not_mem_nil, or_false] at hi
      rcases hi with rfl | rfl | rfl <;> simp [ExNeeds]
    · cases hi
    · simp only [List.mem_cons, List.not_mem_nil, or_false] at hi
      subst hi
      simp [ExNeeds]
  | target _ hr ih => exact (ex_refers ih hr).2
  | name _ hr hb hc _ _ hn ih =>
    obtain ⟨_, rfl, h1 | h1⟩ := ex_source ih hr hb hc hn <;> rw [h1] <;> decide
  | sixMoves _ hr hb hc _ hn hs ih =>
    obtain ⟨_, rfl, _⟩ := ex_source ih hr hb hc hn
    exact absurd hs.1 ex_notSix

theorem ex_from {m i c nm} (h : exactSetup.FromImport m i c nm) : m = Demo.src c!"a" ∧
    c = Demo.pkg c!"p" [] [c!"v"] ∧ (nm.name = c!"q" ∨ nm.name = c!"v") := by
  obtain ⟨h1, _, h2, t, b, h3, h4, h5⟩ := h
  exact ex_source (ex_needs h1) h3 h4 h5 h2

theorem ex_hasNode {n} (h : exactSetup.HasNode n) : ExNode n := by
  cases h with
  | module hx hn =>
    obtain ⟨tr, hx⟩ := hx
    exact ex_node (ex_needs hx) hn
  | script h hs =>
    cases h
    cases hs
    simp [ExNode]
  | distribution h =>
    cases h
    simp [ExNode]
  | invalid hs ho =>
    have := (ex_stmt (ex_needs hs)).1
    have := ho.1
    omega

theorem ex_define {k nm} (h : exactSetup.MayDefine k nm) :
    (k = c!"p" ∧ nm = c!"v") ∨ (k = c!"a" ∧ (nm = c!"q" ∨ nm = c!"v")) := by
  cases h with
  | own hn hm =>
    have := ex_hasNode hn
    simp only [ExNode, List.mem_cons, List.not_mem_nil, or_false] at this
    rcases this with rfl | rfl | rfl | rfl | rfl | rfl | rfl | rfl | rfl <;>
      simp [Demo.src, Demo.pkg, Setup.scriptNode, Setup.distributionNode] at hm ⊢ <;> simp [hm]
  | byName hs hn =>
    obtain ⟨rfl, _, h1⟩ := (ex_stmt (ex_needs hs)).2.2 _ hn
    exact .inr ⟨rfl, h1⟩
  | byStar hs h1 _ _ =>
    rw [(ex_stmt (ex_needs hs)).2.1] at h1
    cases h1

theorem ex_mods {x n infos} (h : exactSetup.mods x = some (n, infos)) :
    n.ident = x ∧ (n = Demo.src c!"a" ∨ n = Demo.pkg c!"p" [] [c!"v"] ∨ n = Demo.src c!"p.q") := by
  simp only [exactSetup, Demo.lookup, exactTable, List.find?_cons, List.find?_nil] at h
  split at h
  · rename_i h1
    simp at h h1
    obtain ⟨rfl, _⟩ := h
    exact ⟨h1, .inl rfl⟩
  · split at h
    · rename_i h1
      simp at h h1
      obtain ⟨rfl, _⟩ := h
      exact ⟨h1, .inr (.inl rfl)⟩
    · split at h
      · rename_i h1
        simp at h h1
        obtain ⟨rfl, _⟩ := h
        exact ⟨h1, .inr (.inr rfl)⟩
      · simp at h

theorem ex_tame : exactSetup.Tame where
  loaded x n infos h := by
    rcases (ex_mods h).2 with rfl | rfl | rfl <;> rfl
  extension x n infos h he := by
    rcases (ex_mods h).2 with rfl | rfl | rfl <;> cases he
  otherName x n infos h hne := absurd (ex_mods h).1 hne
  noDot x h := by
    obtain ⟨tr, h⟩ := h
    have := ex_needs h
    simp only [ExNeeds, List.mem_cons, Prod.mk.injEq, List.not_mem_nil, or_false] at this
    rcases this with ⟨rfl, _⟩ | ⟨rfl, _⟩ | ⟨rfl, _⟩ | ⟨rfl, _⟩ | ⟨rfl, _⟩ | ⟨rfl, _⟩ | ⟨rfl, _⟩ | ⟨rfl, _⟩ <;> decide
  plain m i nm hs hn := by
    rcases ((ex_stmt (ex_needs hs)).2.2 nm hn).2.2 with h | h <;> rw [h] <;> decide
  scriptName path h := by
    cases h
    exact ⟨fun ⟨tr, h⟩ => absurd (ex_needs h) (by cases tr <;> decide), by decide⟩
  distName d h := by
    cases h
    exact ⟨fun ⟨tr, h⟩ => absurd (ex_needs h) (by cases tr <;> decide), by decide, by
      intro h
      simp [exactSetup, exactDist] at h⟩
  distSame d d' h h' _ := h.trans h'.symm
  passedOn m i c nm h _ _ b d he _ := by
    obtain ⟨_, rfl, _⟩ := ex_from h
    exfalso
    generalize hx : (Demo.pkg c!"p" [] [c!"v"]).ident = x at he
    have hx : x = c!"p" := hx.symm
    have hnode : ∀ n, exactSetup.NodeFor c!"p" n → n = Demo.pkg c!"p" [] [c!"v"] := fun n h => h.unique ex_p
    cases he with
    | statement hs _ =>
      have := ex_needs hs
      simp only [ExNeeds, List.mem_cons, Prod.mk.injEq, List.not_mem_nil, or_false] at this
      rcases this with ⟨rfl, _⟩ | ⟨rfl, _⟩ | ⟨rfl, _⟩ | ⟨rfl, _⟩ | ⟨rfl, _⟩ <;> simp [Demo.src, Setup.scriptNode] at hx
    | invalid hs ho =>
      have := (ex_stmt (ex_needs hs)).1
      have := ho.1
      omega
    | distribution h _ => cases h; simp [exactDist] at hx
    | package _ hp => subst hx; exact ex_dot (by decide) _ hp
    | packageOfFound _ _ _ hp => subst hx; exact ex_dot (by decide) _ hp
    | alias _ hn hk =>
      subst hx
      cases hnode _ hn
      rcases hk with hk | hk <;> cases hk
    | implied _ _ hc _ => exact ex_conf hc
    | explicitNamespace _ hn hk =>
      subst hx
      cases hnode _ hn
      cases hk
    | helper _ _ hc => cases hc
    | fromName hf _ _ =>
      obtain ⟨rfl, _⟩ := ex_from hf
      simp [Demo.src] at hx
    | fromPackage hf _ _ =>
      obtain ⟨_, rfl, h | h⟩ := ex_from hf <;> simp [Demo.pkg] at hx
    | passedOn hf _ _ _ _ =>
      obtain ⟨rfl, _⟩ := ex_from hf
      simp [Demo.src] at hx
    | sixMoves hf _ =>
      obtain ⟨rfl, _⟩ := ex_from hf
      simp [Demo.src] at hx
  static m i c nm h _ _ hd := by
    obtain ⟨_, rfl, h1⟩ := ex_from h
    rcases h1 with h1 | h1 <;> rw [h1]
    · exact .inr ⟨_, ex_pq, rfl⟩
    · exact .inl (by decide)
  notBoth m i c nm h _ hs hn := by
    obtain ⟨_, rfl, h1 | h1⟩ := ex_from h
    · rw [h1] at hs
      exact hs (.inl ⟨_, ex_pq, rfl⟩)
    · rw [h1] at hn
      exact absurd (ex_needs hn) (by decide)
  noSwig x h := by
    rcases ex_define h with ⟨_, h⟩ | ⟨_, h | h⟩ <;> cases h

theorem ex_noMypyc : ¬ exactSetup.HasMypyc := by
  rintro ⟨n, file, helper, h, hm⟩
  obtain ⟨d, hd, _⟩ := hm.dist
  have := ex_hasNode h
  simp only [ExNode, List.mem_cons, List.not_mem_nil, or_false] at this
  rcases this with rfl | rfl | rfl | rfl | rfl | rfl | rfl | rfl | rfl <;> cases hd

theorem ex_describes : exactSetup.Describes (Demo.env exactTable) :=
  demo_describes exactTable exactSetup (fun _ => rfl) (fun _ => rfl) (fun _ => rfl) (fun _ => rfl)
    fun n hn => .no (fun file helper h => ex_noMypyc ⟨n, file, helper, hn, h⟩) rfl

/-- A module, an alias, a script, a distribution and a piece of source code. -/
def exactOps : List ApiOp :=
  [.addModule c!"a", .addModule c!"al", .addScript c!"/s", .addDistributionNamed c!"D",
    .addDependenciesForSource c!"import z"]

theorem ex_asked : exactSetup.AskedBy exactOps where
  module x := by
    have hz : exactSetup.sources c!"import z" = some [Demo.imp c!"z"] := by decide +kernel
    have hz' : ∀ x, InSource [Demo.imp c!"z"] x ↔ x = c!"z" := by
      intro x
      simp [InSource, Demo.imp, createImportInfo]
    constructor
    · rintro (rfl | rfl | rfl)
      · exact .inl (by simp [exactOps])
      · exact .inl (by simp [exactOps])
      · exact .inr ⟨_, _, by simp [exactOps], hz, (hz' _).mpr rfl⟩
    · rintro (h | ⟨src, infos, h1, h2, h3⟩)
      · simp [exactOps] at h
        rcases h with h | h
        · exact .inl h
        · exact .inr (.inl h)
      · simp [exactOps] at h1
        subst h1
        rw [hz] at h2
        cases h2
        exact .inr (.inr ((hz' _).mp h3))
  script x := by simp [exactSetup, exactOps]
  dist d := by
    have hd : exactSetup.dists c!"D" = some exactDist := by decide +kernel
    constructor
    · rintro rfl
      exact .inr ⟨_, by simp [exactOps], hd⟩
    · rintro (h | ⟨name, h1, h2⟩)
      · simp [exactOps] at h
      · simp [exactOps] at h1
        subst h1
        rw [hd] at h2
        cases h2
        rfl
  only o ho := by
    simp only [exactOps, List.mem_cons, List.not_mem_nil, or_false] at ho
    rcases ho with rfl | rfl | rfl | rfl | rfl
    · trivial
    · trivial
    · trivial
    · exact ⟨exactDist, by decide +kernel⟩
    · exact ⟨[Demo.imp c!"z"], by decide +kernel⟩

/-- The hypotheses of the theorems are met, for a graph with a cycle, an alias, an excluded and missing
modules, a script and a distribution. -/
example :
    exactSetup.Tame ∧ exactSetup.Describes (Demo.env exactTable) ∧ (Demo.env exactTable).OrderExact ∧
    (Demo.env exactTable).MakesModules ∧ exactSetup.AskedBy exactOps ∧
    exactSetup.conf = configured [c!"x"] ([] ++ [(c!"al", .alias c!"a")]) ∧
    Event.failed ∉ (runClient (Demo.env exactTable) 30 (configureThen [c!"x"] [(c!"al", .alias c!"a")]
      (doAll exactOps)) (initState () [] true)).2.log ∧
    Event.failed ∉ (runClient (Demo.env exactTable) 30 (configureThen [c!"x"] [(c!"al", .alias c!"a")]
      (doAll exactOps.reverse)) (initState () [] true)).2.log := by
  exact ⟨ex_tame, ex_describes, fun _ _ _ => Iff.rfl, (demo_loads _ (by decide +kernel)).makes, ex_asked, rfl,
    by decide +kernel, by decide +kernel⟩

/-! ## Graphs that do depend on the order -/

/-- `a` has `from p import j`; the package `p` has `import j`, `import a`. -/
def reexportTable : Demo.Table :=
  { mods := [(c!"a", Demo.src c!"a", [Demo.fromImp 0 c!"p" [c!"j"]]),
             (c!"p", Demo.pkg c!"p" [] [c!"j"], [Demo.imp c!"j", Demo.imp c!"a"]),
             (c!"j", Demo.src c!"j", [])] }

/-- A surprise, and why `passedOn` is about plain modules: with a cycle, the edge of a `from` import to a
module that the package only imports depends on the order in which modules are added. -/
theorem C62_reexport_order :
    let s := (Demo.run reexportTable [.addModule c!"a", .addModule c!"p"]).2
    let s' := (Demo.run reexportTable [.addModule c!"p", .addModule c!"a"]).2
    Event.failed ∉ s.log ∧ Event.failed ∉ s'.log ∧
    s.edges.any (fun e => e.1 == c!"a" && e.2.1 == c!"j") = true ∧ s.has c!"p.j" = false ∧
    s'.edges.any (fun e => e.1 == c!"a" && e.2.1 == c!"j") = false ∧ s'.has c!"p.j" = true := by
  decide +kernel

/-- `a` has `from c import j`; `c` has `import j`, `import a`. -/
def passTable : Demo.Table :=
  { mods := [(c!"a", Demo.src c!"a", [Demo.fromImp 0 c!"c" [c!"j"]]),
             (c!"c", Demo.src c!"c" [c!"j"], [Demo.imp c!"j", Demo.imp c!"a"]),
             (c!"j", Demo.src c!"j", [])] }

/-- Why `passedOn` asks that `c` does not wait for the importing module: the same for a plain module. -/
theorem C62_behind_order :
    let s := (Demo.run passTable [.addModule c!"a", .addModule c!"c"]).2
    let s' := (Demo.run passTable [.addModule c!"c", .addModule c!"a"]).2
    Event.failed ∉ s.log ∧ Event.failed ∉ s'.log ∧
    s.edges.any (fun e => e.1 == c!"a" && e.2.1 == c!"j") = true ∧
    s'.edges.any (fun e => e.1 == c!"a" && e.2.1 == c!"j") = false := by
  decide +kernel

/-- `a` has `from c import j`; `c` has `import j`, `import k as j`. -/
def choiceTable : Demo.Table :=
  { mods := [(c!"a", Demo.src c!"a", [Demo.fromImp 0 c!"c" [c!"j"]]),
             (c!"c", Demo.src c!"c" [c!"j"],
               [Demo.imp c!"j", createImportInfo (c!"k", some c!"j") none 0 false false false]),
             (c!"j", Demo.src c!"j", []), (c!"k", Demo.src c!"k", [])] }

/-- Why `passedOn` asks that `c` has but one module of the name: else the importing module gets an edge to
the one that comes first in the order in which the graph gives the edges of a node. -/
theorem C62_choice_order :
    let s := (Demo.run choiceTable [.addModule c!"a"]).2
    let s' := (runClient { Demo.env choiceTable with outOrder := fun _ l => l.reverse } 30
      (Demo.client [.addModule c!"a"]) (initState () [] true)).2
    Event.failed ∉ s.log ∧ Event.failed ∉ s'.log ∧
    s.edges.any (fun e => e.1 == c!"a" && e.2.1 == c!"j") = false ∧
    s.edges.any (fun e => e.1 == c!"a" && e.2.1 == c!"k") = true ∧
    s'.edges.any (fun e => e.1 == c!"a" && e.2.1 == c!"j") = true ∧
    s'.edges.any (fun e => e.1 == c!"a" && e.2.1 == c!"k") = false := by
  decide +kernel

/-- `a` has `from p import v`, `b` has `import p.v`; `v` is a name in the package `p`. -/
def linkTable : Demo.Table :=
  { mods := [(c!"a", Demo.src c!"a", [Demo.fromImp 0 c!"p" [c!"v"]]),
             (c!"b", Demo.src c!"b", [Demo.imp c!"p.v"]),
             (c!"p", Demo.pkg c!"p" [] [c!"v"], [])] }

/-- A surprise, and why `notBoth` is needed: whether the missing module `p.v` has an edge to its
package depends on the order. -/
theorem C62_link_order :
    let s := (Demo.run linkTable [.addModule c!"a", .addModule c!"b"]).2
    let s' := (Demo.run linkTable [.addModule c!"b", .addModule c!"a"]).2
    Event.failed ∉ s.log ∧ Event.failed ∉ s'.log ∧
    (c!"p.v", c!"p", defaultDep) ∉ s.edges ∧ (c!"p.v", c!"p", defaultDep) ∈ s'.edges := by
  decide +kernel

/-- `a` has `from p import v`; the package `p` has `from m import v`, `import a`. -/
def globalTable : Demo.Table :=
  { mods := [(c!"a", Demo.src c!"a", [Demo.fromImp 0 c!"p" [c!"v"]]),
             (c!"p", Demo.pkg c!"p", [Demo.fromImp 0 c!"m" [c!"v"], Demo.imp c!"a"]),
             (c!"m", Demo.src c!"m" [c!"v"], [])] }

/-- A surprise, and why `static` is needed: with a cycle, whether a name that a package imports from
elsewhere is taken for a (missing) submodule depends on the order. -/
theorem C62_global_order :
    let s := (Demo.run globalTable [.addModule c!"a", .addModule c!"p"]).2
    let s' := (Demo.run globalTable [.addModule c!"p", .addModule c!"a"]).2
    Event.failed ∉ s.log ∧ Event.failed ∉ s'.log ∧
    s.edges.any (fun e => e.1 == c!"a" && e.2.1 == c!"p.v") = false ∧
    s'.edges.any (fun e => e.1 == c!"a" && e.2.1 == c!"p.v") = true := by
  decide +kernel

end Verif.Props
