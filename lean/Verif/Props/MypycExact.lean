import Verif.Props.NoFailureExample
import Verif.Props.InWorlds
/-!
# C61, C63: a module compiled with mypyc
-/
namespace Verif.Props
open Verif M Spec

def compiledDist : Dist := { identifier := c!"/d", name := c!"D", importNames := [c!"m", c!"h__mypyc"] }

/-- The compiled module. -/
def mypycM : Node :=
  { ident := c!"m", kind := .module .extension, filename := some c!"/l/m.so", distribution := some compiledDist }

/-- The module with the code of all compiled modules of the distribution.  It is an extension module as well, but has
no source. -/
def mypycH : Node :=
  { ident := c!"h__mypyc", kind := .module .extension, filename := some c!"/l/h__mypyc.so",
    distribution := some compiledDist }

/-- `a` imports `m`, which mypyc compiled; the source of `m` is installed and imports `j`. -/
def compiledTable : Demo.Table :=
  { mods := [(c!"a", Demo.src c!"a", [Demo.imp c!"m"]), (c!"m", mypycM, []), (c!"h__mypyc", mypycH, []),
             (c!"j", Demo.src c!"j", [])],
    scripts := [(c!"/l/m.py", [Demo.imp c!"j"])],
    files := [c!"/l/m.py"] }

def compiledSetup : Setup where
  conf := configured [] ([] ++ [])
  mods := Demo.lookup compiledTable.mods
  scripts x := (Demo.lookup compiledTable.scripts x).map fun i => (i, x)
  sources := Demo.lookup compiledTable.scripts
  compiled n := if n = mypycM then some (c!"h__mypyc", [Demo.imp c!"j"]) else none
  asksModule x := x = c!"a"
  asksScript _ := False

theorem mypycEx_a : compiledSetup.NodeFor c!"a" (Demo.src c!"a") :=
  .top (by decide) (.found (.inl (by decide +kernel)) (infos := _) rfl rfl)
theorem mypycEx_m : compiledSetup.NodeFor c!"m" mypycM :=
  .top (by decide) (.found (.inl (by decide +kernel)) (infos := _) rfl rfl)
theorem mypycEx_h : compiledSetup.NodeFor c!"h__mypyc" mypycH :=
  .top (by decide) (.found (.inl (by decide +kernel)) (infos := _) rfl rfl)
theorem mypycEx_j : compiledSetup.NodeFor c!"j" (Demo.src c!"j") :=
  .top (by decide) (.found (.inl (by decide +kernel)) (infos := _) rfl rfl)

/-- What is needed. -/
def MypycNeeds : Setup.Thing → Prop
  | .module x tr => (x, tr) ∈ [(c!"a", false), (c!"m", false), (c!"h__mypyc", false), (c!"j", false)]
  | .statement m i => (m, i) ∈ [(Demo.src c!"a", Demo.imp c!"m"), (mypycM, Demo.imp c!"j")]

def MypycNode (n : Node) : Prop := n ∈ [Demo.src c!"a", mypycM, mypycH, Demo.src c!"j"]

theorem mypycEx_node {x tr n} (h : MypycNeeds (.module x tr)) (hn : compiledSetup.NodeFor x n) : MypycNode n := by
  simp only [MypycNeeds, List.mem_cons, Prod.mk.injEq, List.not_mem_nil, or_false] at h
  unfold MypycNode
  rcases h with ⟨rfl, _⟩ | ⟨rfl, _⟩ | ⟨rfl, _⟩ | ⟨rfl, _⟩
  · cases hn.unique mypycEx_a; simp
  · cases hn.unique mypycEx_m; simp
  · cases hn.unique mypycEx_h; simp
  · cases hn.unique mypycEx_j; simp

theorem mypycEx_conf {x l} : compiledSetup.conf x ≠ some (.refs l) := by
  intro h
  simp only [compiledSetup, configured] at h
  split at h <;> simp at h

theorem mypycEx_compiled {n h infos} (hc : compiledSetup.compiled n = some (h, infos)) :
    n = mypycM ∧ h = c!"h__mypyc" ∧ infos = [Demo.imp c!"j"] := by
  simp only [compiledSetup] at hc
  split at hc <;> cases hc
  exact ⟨by assumption, rfl, rfl⟩

theorem mypycEx_stmt {m i} (h : MypycNeeds (.statement m i)) : i.importNames = [] ∧ i.starImport = false ∧
    i.importLevel = 0 ∧ ∀ t, Refers m i t → t = c!"m" ∨ t = c!"j" := by
  simp only [MypycNeeds, List.mem_cons, Prod.mk.injEq, List.not_mem_nil, or_false] at h
  rcases h with ⟨rfl, rfl⟩ | ⟨rfl, rfl⟩
  · refine ⟨rfl, rfl, rfl, fun t h => .inl ?_⟩
    cases h with
    | relative _ _ h1 => exact absurd h1 (by decide)
    | absolute => rfl
  · refine ⟨rfl, rfl, rfl, fun t h => .inr ?_⟩
    cases h with
    | relative _ _ h1 => exact absurd h1 (by decide)
    | absolute => rfl

theorem mypycEx_needs {th} (h : compiledSetup.Needs th) : MypycNeeds th := by
  induction h with
  | asked h => cases h; simp [MypycNeeds]
  | distribution h => cases h
  | @package x p tr _ hp ih =>
    simp only [MypycNeeds, List.mem_cons, Prod.mk.injEq, List.not_mem_nil, or_false] at ih
    rcases ih with ⟨rfl, _⟩ | ⟨rfl, _⟩ | ⟨rfl, _⟩ | ⟨rfl, _⟩ <;> exact absurd hp (ex_dot (by decide) p)
  | alias _ hn hk ih =>
    have := mypycEx_node ih hn
    simp only [MypycNode, List.mem_cons, List.not_mem_nil, or_false] at this
    rcases this with rfl | rfl | rfl | rfl <;> rcases hk with hk | hk <;> cases hk
  | implied _ _ hc => exact absurd hc mypycEx_conf
  | implying _ _ hc => exact absurd hc mypycEx_conf
  | explicitNamespace _ hn hk ih =>
    have := mypycEx_node ih hn
    simp only [MypycNode, List.mem_cons, List.not_mem_nil, or_false] at this
    rcases this with rfl | rfl | rfl | rfl <;> cases hk
  | inScript h => cases h
  | helper _ _ hc =>
    obtain ⟨_, rfl, _⟩ := mypycEx_compiled hc
    simp [MypycNeeds]
  | inCompiled _ _ hc hi =>
    obtain ⟨rfl, _, rfl⟩ := mypycEx_compiled hc
    simp only [List.mem_cons, List.not_mem_nil, or_false] at hi
    simp [MypycNeeds, hi]
  | inModule _ hn hm hi ih =>
    have := mypycEx_node ih hn
    simp only [MypycNode, List.mem_cons, List.not_mem_nil, or_false] at this
    rcases this with rfl | rfl | rfl | rfl <;> cases hm
    · simp only [List.mem_cons, List.not_mem_nil, or_false] at hi
      simp [MypycNeeds, hi]
    all_goals cases hi
  | target _ hr ih =>
    rcases (mypycEx_stmt ih).2.2.2 _ hr with rfl | rfl <;> simp [MypycNeeds]
  | name _ _ _ _ _ _ hn ih => rw [(mypycEx_stmt ih).1] at hn; cases hn
  | sixMoves _ _ _ _ _ hn _ ih => rw [(mypycEx_stmt ih).1] at hn; cases hn

theorem mypycEx_from {m i c nm} : ¬ compiledSetup.FromImport m i c nm := by
  rintro ⟨h1, _, h2, _⟩
  rw [(mypycEx_stmt (mypycEx_needs h1)).1] at h2
  cases h2

theorem mypycEx_hasNode {n} (h : compiledSetup.HasNode n) : MypycNode n := by
  cases h with
  | module hx hn =>
    obtain ⟨tr, hx⟩ := hx
    exact mypycEx_node (mypycEx_needs hx) hn
  | script h => cases h
  | distribution h => cases h
  | invalid hs ho =>
    have := ho.1
    rw [(mypycEx_stmt (mypycEx_needs hs)).2.2.1] at this
    exact absurd this (by decide)

theorem mypycEx_define {k nm} : ¬ compiledSetup.MayDefine k nm := by
  intro h
  induction h with
  | own hn hm =>
    have := mypycEx_hasNode hn
    simp only [MypycNode, List.mem_cons, List.not_mem_nil, or_false] at this
    rcases this with rfl | rfl | rfl | rfl <;> cases hm
  | byName hs hn => rw [(mypycEx_stmt (mypycEx_needs hs)).1] at hn; cases hn
  | byStar _ _ _ _ ih => exact ih

theorem mypycEx_mods {x n infos} (h : compiledSetup.mods x = some (n, infos)) :
    n.ident = x ∧ MypycNode n ∧ (n = mypycM ∨ n = mypycH → infos = []) := by
  simp only [compiledSetup, Demo.lookup, compiledTable, List.find?_cons, List.find?_nil] at h
  unfold MypycNode
  split at h
  · rename_i h1
    simp at h h1
    obtain ⟨rfl, rfl⟩ := h
    exact ⟨h1, by simp, by simp [Demo.src, mypycM, mypycH]⟩
  · split at h
    · rename_i h1
      simp at h h1
      obtain ⟨rfl, rfl⟩ := h
      exact ⟨h1, by simp, by simp⟩
    · split at h
      · rename_i h1
        simp at h h1
        obtain ⟨rfl, rfl⟩ := h
        exact ⟨h1, by simp, by simp⟩
      · split at h
        · rename_i h1
          simp at h h1
          obtain ⟨rfl, rfl⟩ := h
          exact ⟨h1, by simp, by simp⟩
        · cases h

theorem mypycEx_tame : compiledSetup.Tame where
  loaded x n infos h := by
    have := (mypycEx_mods h).2.1
    simp only [MypycNode, List.mem_cons, List.not_mem_nil, or_false] at this
    rcases this with rfl | rfl | rfl | rfl <;> rfl
  extension x n infos h he := by
    have := (mypycEx_mods h).2
    simp only [MypycNode, List.mem_cons, List.not_mem_nil, or_false] at this
    rcases this with ⟨rfl | rfl | rfl | rfl, h1⟩
    · cases he
    · exact h1 (.inl rfl)
    · exact h1 (.inr rfl)
    · cases he
  otherName x n infos h hne := absurd (mypycEx_mods h).1 hne
  noDot x h := by
    obtain ⟨tr, h⟩ := h
    have := mypycEx_needs h
    simp only [MypycNeeds, List.mem_cons, Prod.mk.injEq, List.not_mem_nil, or_false] at this
    rcases this with ⟨rfl, _⟩ | ⟨rfl, _⟩ | ⟨rfl, _⟩ | ⟨rfl, _⟩ <;> decide
  plain m i nm hs hn := by rw [(mypycEx_stmt (mypycEx_needs hs)).1] at hn; cases hn
  scriptName path h := by cases h
  passedOn m i c nm h := absurd h mypycEx_from
  static m i c nm h := absurd h mypycEx_from
  notBoth m i c nm h := absurd h mypycEx_from
  noSwig x h := mypycEx_define h
  compiledNode x n _ hn hc := by
    obtain ⟨⟨h, infos⟩, hc⟩ := Option.ne_none_iff_exists'.mp hc
    obtain ⟨rfl, _⟩ := mypycEx_compiled hc
    exact ⟨.inl rfl, by rintro ⟨_, r, hr, _⟩; simp [mypycM] at hr⟩

theorem mypycEx_helper {n f} (h1 : n.distribution = some compiledDist) (h2 : CompiledFrom n f) :
    MypycModule n f c!"h__mypyc" :=
  ⟨h2, compiledDist, h1, [c!"m"], [], rfl, ⟨c!"h", rfl⟩, by
    rintro x hx ⟨p, hp⟩
    rw [List.mem_singleton.mp hx] at hp
    have := congrArg List.length hp
    simp at this⟩

theorem mypycEx_in {n} (h : MypycNode n) : compiledSetup.CompiledIn (Demo.env compiledTable) n := by
  simp only [MypycNode, List.mem_cons, List.not_mem_nil, or_false] at h
  rcases h with rfl | rfl | rfl | rfl
  · refine .no ?_ (by decide +kernel)
    rintro _ _ ⟨_, d, hd, _⟩
    cases hd
  · refine .source (mypycEx_helper rfl (.inl ⟨rfl, rfl⟩))
      ⟨c!"/l/", c!"m", c!".so", rfl, rfl, .inr ⟨c!"/l", rfl⟩, by decide, by decide, by decide, by decide, .inr ⟨_, rfl⟩⟩
      (infos := [Demo.imp c!"j"]) (by decide +kernel) ?_ ?_ ?_
    · intro w
      show (Except.ok (compiledTable.files.contains c!"/l/m.py") : Except Exc Bool) ≠ _
      simp [compiledTable]
    · intro w w' code l h1 h2
      cases h1
      exact (Except.ok.inj h2).symm
    · intro w w' code h1 h2
      cases h1
      cases h2
  · refine .noSource (mypycEx_helper rfl (.inl ⟨rfl, rfl⟩))
      ⟨c!"/l/", c!"h__mypyc", c!".so", rfl, rfl, .inr ⟨c!"/l", rfl⟩, by decide, by decide, by decide, by decide,
        .inr ⟨_, rfl⟩⟩ (by decide +kernel) ?_
    intro w
    show (Except.ok (compiledTable.files.contains c!"/l/h__mypyc.py") : Except Exc Bool) ≠ _
    simp [compiledTable]
  · refine .no ?_ (by decide +kernel)
    rintro _ _ ⟨_, d, hd, _⟩
    cases hd

theorem mypycEx_describes : compiledSetup.Describes (Demo.env compiledTable) :=
  demo_describes compiledTable compiledSetup (fun _ => rfl) (fun _ => rfl) (fun _ => rfl) (fun _ => rfl)
    fun _ hn => mypycEx_in (mypycEx_hasNode hn)

theorem mypycEx_run :
    let s := (runClient (Demo.env compiledTable) (30 + 1) (configureThen [] [] (doAll [.addModule c!"a"]))
        (initState () [] true)).2
    Event.failed ∉ s.log ∧ s.roots = [c!"a", c!"h__mypyc"] ∧
      s.edges.map (fun e => (e.1, e.2.1)) = [(c!"a", c!"m"), (c!"m", c!"h__mypyc"), (c!"m", c!"j")] := by
  decide +kernel

/-- By C61 the graph is as described: the module has the imports of its source, and the helper module is a root. -/
example :
    compiledSetup.HasEdge c!"m" c!"h__mypyc" defaultDep ∧ (∃ d, compiledSetup.HasEdge c!"m" c!"j" d) ∧
    compiledSetup.HasRoot c!"h__mypyc" ∧ ¬ compiledSetup.HasRoot c!"m" ∧ ∀ x d, ¬ compiledSetup.HasEdge c!"h__mypyc" x d := by
  have key := C61_built compiledSetup mypycEx_tame (Demo.env compiledTable) mypycEx_describes (fun _ _ _ => Iff.rfl)
    (demo_loads _ (by decide +kernel)).makes (fun _ _ => .ret none) (fun _ _ _ => .ret) 30 [.addModule c!"a"]
    ⟨by simp [compiledSetup, InSource], by simp [compiledSetup], by simp [compiledSetup], by simp [Setup.Adds]⟩
    () [] true [] [] rfl (.inl rfl) mypycEx_run.1
  obtain ⟨_, hr, he⟩ := mypycEx_run
  have hm : compiledSetup.Needs (.module c!"m" false) :=
    .target (.inModule (.asked rfl) mypycEx_a rfl (List.mem_singleton.mpr rfl)) (.absolute (by decide +kernel))
  refine ⟨.helper ⟨_, hm⟩ mypycEx_m (infos := [Demo.imp c!"j"]) (by decide +kernel), ?_, ?_, ?_, ?_⟩
  · exact ⟨_, .statement (.inCompiled hm mypycEx_m (h := c!"h__mypyc") (infos := [Demo.imp c!"j"]) (by decide +kernel)
      (List.mem_singleton.mpr rfl)) (.absolute (by decide +kernel))⟩
  · exact .inr ⟨mypycM, [Demo.imp c!"j"], .module ⟨_, hm⟩ mypycEx_m, by decide +kernel⟩
  · rw [← key.2.2, hr]; simp
  · intro x d h
    have := List.mem_map_of_mem (f := fun e : Str × Str × DepInfo => (e.1, e.2.1)) ((key.2.1 _ _ _).mpr h)
    rw [he] at this
    simp at this

theorem mypycEx_safe : compiledSetup.Safe where
  names x h := by
    obtain ⟨tr, h⟩ := h
    have := mypycEx_needs h
    simp only [MypycNeeds, List.mem_cons, Prod.mk.injEq, List.not_mem_nil, or_false] at this
    have one : ∀ y : Str, '.' ∉ y → y ≠ [] → ∃ pre last, IsSplit y 0 pre last :=
      fun y h1 h2 => ⟨[], y, by simp [dotted], by simp, h1, fun _ => h2⟩
    rcases this with ⟨rfl, _⟩ | ⟨rfl, _⟩ | ⟨rfl, _⟩ | ⟨rfl, _⟩ <;> exact one _ (by decide) (by decide)
  noCode x n infos h hn := by
    have := (mypycEx_mods h).2.1
    simp only [MypycNode, List.mem_cons, List.not_mem_nil, or_false] at this
    rcases this with rfl | rfl | rfl | rfl <;> cases hn
  once y p q h hp := by
    obtain ⟨tr, h⟩ := h
    have := mypycEx_needs h
    simp only [MypycNeeds, List.mem_cons, Prod.mk.injEq, List.not_mem_nil, or_false] at this
    rcases this with ⟨rfl, _⟩ | ⟨rfl, _⟩ | ⟨rfl, _⟩ | ⟨rfl, _⟩ <;> exact absurd hp (ex_dot (by decide) p)

theorem mypycEx_dom (x) (p) (h : compiledSetup.mods x = some p) : x ∈ [c!"a", c!"m", c!"h__mypyc", c!"j"] := by
  obtain ⟨n, infos⟩ := p
  obtain ⟨rfl, h, _⟩ := mypycEx_mods h
  simp only [MypycNode, List.mem_cons, List.not_mem_nil, or_false] at h
  rcases h with rfl | rfl | rfl | rfl <;> decide +kernel

/-- The hypotheses of C63 are met: adding `a` comes to an end, works, and gives the described graph. -/
example : ∃ N, ∀ n, N ≤ n →
    let r := runClient (Demo.env compiledTable) n (configureThen [] [] (doAll [.addModule c!"a"])) (initState () [] true)
    r.1 = .ok none ∧ Event.failed ∉ r.2.log ∧
    (∀ m, m ∈ r.2.nodes ↔ compiledSetup.HasNode m) ∧
    (∀ a b d, (a, b, d) ∈ r.2.edges ↔ compiledSetup.HasEdge a b d) ∧ ∀ x, x ∈ r.2.roots ↔ compiledSetup.HasRoot x :=
  C63_finite compiledSetup mypycEx_tame mypycEx_safe (Demo.env compiledTable) mypycEx_describes
    (demo_works _ _ nofun (fun _ => rfl) fun _ => rfl) (fun _ _ _ => Iff.rfl) [.addModule c!"a"]
    ⟨by simp [compiledSetup, InSource], by simp [compiledSetup], by simp [compiledSetup], by simp [Setup.Adds]⟩
    (by simp [ScriptsOnce]) () [] true [] [] rfl (demo_returns _) (demo_fakes (by decide +kernel)) _ mypycEx_dom
    (fun _ _ _ h => mypycEx_in (mypycEx_mods h).2.1) (demo_loads _ (by decide +kernel)).makes
    (fun _ _ => .ret none) (fun _ _ _ => .ret) (.inl rfl)

/-- The same world, seen from inside. -/
theorem mypycEx_shown : compiledSetup.ShownIn (fun _ => True) (Demo.env compiledTable) where
  found x p h w _ := by
    have h1 : ((Demo.env compiledTable).findSpec x w).1 = .ok (some (Demo.specOf x p.1)) := by
      have : Demo.lookup compiledTable.mods x = some p := h
      simp [Demo.env, this]
    refine ⟨_, h1, trivial, fun w _ => ⟨?_, trivial⟩⟩
    have : Demo.lookup compiledTable.mods x = some p := h
    simp [Demo.env, Demo.specOf, this]
  absent x _ h w _ := by
    have : Demo.lookup compiledTable.mods x = none := h
    exact ⟨.inl (by simp [Demo.env, this]), trivial⟩
  script path h := h.elim
  distribution name d h := by cases h
  source src infos h w _ := ⟨by
    have : Demo.lookup compiledTable.scripts src = some infos := h
    simp [Demo.env, this], trivial⟩
  compiled n hn := by
    have : MypycNode n := hn.elim mypycEx_hasNode fun ⟨x, infos, h⟩ => (mypycEx_mods h).2.1
    simp only [MypycNode, List.mem_cons, List.not_mem_nil, or_false] at this
    rcases this with rfl | rfl | rfl | rfl
    · refine .no ?_ (by decide +kernel)
      rintro _ _ ⟨_, d, hd, _⟩
      cases hd
    · refine .source (mypycEx_helper rfl (.inl ⟨rfl, rfl⟩))
        ⟨c!"/l/", c!"m", c!".so", rfl, rfl, .inr ⟨c!"/l", rfl⟩, by decide, by decide, by decide, by decide, .inr ⟨_, rfl⟩⟩
        (infos := [Demo.imp c!"j"]) (code := c!"/l/m.py") (by decide +kernel) ?_ ?_ ?_
      · exact fun w _ => ⟨by simp [Demo.env, compiledTable], trivial⟩
      · exact fun w _ => ⟨rfl, trivial⟩
      · exact fun w _ => ⟨by rfl, trivial⟩
    · refine .noSource (mypycEx_helper rfl (.inl ⟨rfl, rfl⟩))
        ⟨c!"/l/", c!"h__mypyc", c!".so", rfl, rfl, .inr ⟨c!"/l", rfl⟩, by decide, by decide, by decide, by decide,
          .inr ⟨_, rfl⟩⟩ (by decide +kernel) ?_
      exact fun w _ => ⟨by simp [Demo.env, compiledTable], trivial⟩
    · refine .no ?_ (by decide +kernel)
      rintro _ _ ⟨_, d, hd, _⟩
      cases hd

/-- The hypotheses of `C63_in_worlds` are met as well. -/
example : ∃ N, ∀ n, N ≤ n →
    let r := runClient (Demo.env compiledTable) n (configureThen [] [] (doAll [.addModule c!"a"])) (initState () [] true)
    r.1 = .ok none ∧ c!"h__mypyc" ∈ r.2.roots := by
  obtain ⟨N, h⟩ := C63_in_worlds compiledSetup mypycEx_tame mypycEx_safe (fun _ => True) (Demo.env compiledTable)
    mypycEx_shown (fun _ _ _ => Iff.rfl) [.addModule c!"a"]
    ⟨by simp [compiledSetup, InSource], by simp [compiledSetup], by simp [compiledSetup], by simp [Setup.Adds]⟩
    (by simp [ScriptsOnce]) () trivial [] true [] [] rfl (by decide +kernel) _ mypycEx_dom (.inl rfl)
  refine ⟨N, fun n hn => ⟨(h n hn).1, ((h n hn).2.2.2.2.2 _).mpr (.inr ⟨mypycM, [Demo.imp c!"j"], ?_, by decide +kernel⟩)⟩⟩
  exact .module ⟨_, .target (.inModule (.asked rfl) mypycEx_a rfl (List.mem_singleton.mpr rfl))
    (.absolute (by decide +kernel))⟩ mypycEx_m

end Verif.Props
