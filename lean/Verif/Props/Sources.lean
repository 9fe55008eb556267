import Verif.Props.Scanned
import Verif.Props.Ast
import Verif.Model.Scripts
/-!
# C55: `add_dependencies_for_source`
-/
namespace Verif.Props
open Verif Spec

variable {W : Type}

/-- Every import statement in a tree, at any depth, has its record. -/
theorem scan_complete {ord : SetOrder} (ho : ord.Ok) {root : Ast} {way : List Via} {x : Ast}
    (hn : Nested root way x) {e : Entry} (he : e ∈ entries (way, x)) :
    ∃ i ∈ extractAstInfo ord root, Describes i e := by
  obtain ⟨es, hp, hf⟩ := C22_ast_scan_exactly_once ord ho root
  have hm : e ∈ es := hp.mem_iff.mpr
    (List.mem_flatMap.mpr ⟨(way, x), (C22_occurrences_are_nested root way x).mpr hn, he⟩)
  clear hp
  generalize extractAstInfo ord root = l at hf
  induction hf with
  | nil => cases hm
  | cons h _ ih =>
    rcases List.mem_cons.mp hm with rfl | hm
    · exact ⟨_, List.mem_cons_self .., h⟩
    · obtain ⟨i, hi, hd⟩ := ih hm
      exact ⟨i, List.mem_cons_of_mem _ hi, hd⟩

/-- Every record comes from an import statement in the tree. -/
theorem scan_sound {ord : SetOrder} (ho : ord.Ok) {root : Ast} {i : ImportInfo}
    (hi : i ∈ extractAstInfo ord root) :
    ∃ way x e, Nested root way x ∧ e ∈ entries (way, x) ∧ Describes i e := by
  obtain ⟨es, hp, hf⟩ := C22_ast_scan_exactly_once ord ho root
  have : ∃ e ∈ es, Describes i e := by
    clear hp
    generalize extractAstInfo ord root = l at hf hi
    induction hf with
    | nil => cases hi
    | cons h _ ih =>
      rcases List.mem_cons.mp hi with rfl | hi
      · exact ⟨_, List.mem_cons_self .., h⟩
      · obtain ⟨e, he, hd⟩ := ih hi
        exact ⟨e, List.mem_cons_of_mem _ he, hd⟩
  obtain ⟨e, he, hd⟩ := this
  obtain ⟨⟨way, x⟩, ho, he⟩ := List.mem_flatMap.mp (hp.mem_iff.mp he)
  exact ⟨way, x, e, (C22_occurrences_are_nested root way x).mp ho, he, hd⟩

/-- The graph has a root with this name. -/
def IsRoot (s : St W) (name : Str) : Prop := name ∈ s.roots ∧ ∃ m ∈ s.nodes, m.ident = name

theorem IsRoot.grows {s s' : St W} {name : Str} (h : IsRoot s name) (hg : Grows (view s) (view s')) :
    IsRoot s' name := by
  obtain ⟨h1, m, h2, h3⟩ := h
  exact ⟨hg.roots _ h1, m, hg.nodes _ h2, h3⟩

theorem addModule_root {env : Env W} (hM : ∀ k i n, (env.userMissing k i n).Passive) {n : Nat}
    {name : Str} {s s' : St W} {m : Node} (h : addModule (calls env n) name s = (.ok m, s')) :
    IsRoot s' name ∧ Grows (view s) (view s') := by
  have hop : (calls env (n + 1)).op (.addModule name) s = (.ok (some m), s') := by
    show opBody env (calls env n) (.addModule name) s = _
    have : apiBody env (calls env n) (.addModule name) s = (.ok (some m), s') := by
      show M.bind (addModule (calls env n) name) _ s = _
      rw [M.bind_of_ok h]
      rfl
    unfold opBody
    rw [this]
  obtain ⟨m', _, h1, h2, h3, _⟩ := C16_result env hM (n + 1) name s s' _ hop
  have hg := C03_grows_op env (n + 1) (.addModule name) s
  rw [hop] at hg
  exact ⟨⟨h3, m', h2, h1⟩, hg.1⟩

/-- C55: when `add_dependencies_for_source` returns, every module named by an import statement that the
scan reported is a root, and so is every name of its name list, as name in that module. -/
theorem C55_roots (env : Env W) (hM : ∀ k i n, (env.userMissing k i n).Passive) (n : Nat) (src : Str)
    (s s' : St W) (r : Option Node)
    (h : (calls env n).op (.addDependenciesForSource src) s = (.ok r, s')) :
    ∃ infos, (env.parseSource src s.world).1 = .ok infos ∧ ∀ i ∈ infos, IsRoot s' i.importModule.name ∧
      ∀ nm ∈ i.importNames, IsRoot s' (i.importModule.name ++ '.' :: nm.name) := by
  cases n with
  | zero => simp [calls, callsZero, M.throw] at h
  | succ n =>
    obtain ⟨_, s1, h1, h2⟩ := M.bind_ok (op_ok h)
    obtain ⟨_, rfl⟩ := M.pure_ok h2
    obtain ⟨infos, s2, h3, h1⟩ := M.bind_ok h1
    have hp : (env.parseSource src s.world).1 = .ok infos := by
      have := congrArg Prod.fst h3
      exact this
    refine ⟨infos, hp, ?_⟩
    have inner : ∀ (p : Str) (l : List ImpName) (s s' : St W), M.forEach l (fun nm =>
        M.bind (addModule (calls env n) (p ++ '.' :: nm.name)) fun _ => M.pure ()) s = (.ok (), s') →
        Grows (view s) (view s') ∧ ∀ nm ∈ l, IsRoot s' (p ++ '.' :: nm.name) := by
      intro p l
      induction l with
      | nil =>
        intro s s' h
        obtain ⟨_, rfl⟩ := M.pure_ok h
        exact ⟨⟨fun _ h => h, fun _ h => h, fun _ h => h⟩, by simp⟩
      | cons a l ih =>
        intro s s' h
        obtain ⟨_, t1, h1, h⟩ := M.bind_ok h
        obtain ⟨m, t2, h2, h1⟩ := M.bind_ok h1
        obtain ⟨_, rfl⟩ := M.pure_ok h1
        obtain ⟨g1, g2⟩ := addModule_root hM h2
        obtain ⟨g3, g4⟩ := ih _ _ h
        refine ⟨⟨fun x hx => g3.nodes _ (g2.nodes _ hx), fun x hx => g3.edges _ (g2.edges _ hx),
          fun x hx => g3.roots _ (g2.roots _ hx)⟩, fun nm hnm => ?_⟩
        rcases List.mem_cons.mp hnm with rfl | hnm
        · exact g1.grows g3
        · exact g4 nm hnm
    have loop : ∀ (l : List ImportInfo) (s s' : St W), M.forEach l (fun info =>
        M.bind (addModule (calls env n) info.importModule.name) fun _ =>
        M.forEach info.importNames fun nm =>
          M.bind (addModule (calls env n) (info.importModule.name ++ '.' :: nm.name)) fun _ =>
            M.pure ()) s = (.ok (), s') →
        Grows (view s) (view s') ∧ ∀ i ∈ l, IsRoot s' i.importModule.name ∧
          ∀ nm ∈ i.importNames, IsRoot s' (i.importModule.name ++ '.' :: nm.name) := by
      intro l
      induction l with
      | nil =>
        intro s s' h
        obtain ⟨_, rfl⟩ := M.pure_ok h
        exact ⟨⟨fun _ h => h, fun _ h => h, fun _ h => h⟩, by simp⟩
      | cons a l ih =>
        intro s s' h
        obtain ⟨_, t1, h1, h⟩ := M.bind_ok h
        obtain ⟨m, t2, h2, h1⟩ := M.bind_ok h1
        obtain ⟨g1, g2⟩ := addModule_root hM h2
        obtain ⟨k1, k2⟩ := inner _ _ _ _ h1
        obtain ⟨g3, g4⟩ := ih _ _ h
        refine ⟨⟨fun x hx => g3.nodes _ (k1.nodes _ (g2.nodes _ hx)),
          fun x hx => g3.edges _ (k1.edges _ (g2.edges _ hx)),
          fun x hx => g3.roots _ (k1.roots _ (g2.roots _ hx))⟩, fun i hi => ?_⟩
        rcases List.mem_cons.mp hi with rfl | hi
        · exact ⟨(g1.grows k1).grows g3, fun nm hnm => (k2 nm hnm).grows g3⟩
        · exact g4 i hi
    exact (loop _ _ _ h1).2

/-- C55, partial: the modules imported by absolute import statements anywhere in the source code are
roots, and so is each name of a `from` import, as name in that module.  Missing: relative imports are
not rejected (`C55_relative_ignored`), and names that are not modules also get nodes
(`C55_attributes_are_roots`). -/
theorem C55_source_partial (env : Env W) (hM : ∀ k i n, (env.userMissing k i n).Passive) (n : Nat)
    (src : Str) (s s' : St W) (r : Option Node) (ord : SetOrder) (ho : ord.Ok) (root : Ast)
    (hp : (env.parseSource src s.world).1 = .ok (extractAstInfo ord root))
    (h : (calls env n).op (.addDependenciesForSource src) s = (.ok r, s')) :
    (∀ way names, Nested root way (.import_ names) → ∀ nm ∈ names, IsRoot s' nm.1) ∧
    ∀ way m names l, Nested root way (.importFrom m names l) → IsRoot s' (m.getD []) ∧
      ∀ nm ∈ names, nm.1 ≠ c!"*" → IsRoot s' (m.getD [] ++ '.' :: nm.1) := by
  obtain ⟨infos, hi, hr⟩ := C55_roots env hM n src s s' r h
  rw [hp] at hi
  obtain ⟨rfl⟩ := Except.ok.inj hi
  constructor
  · intro way names hn nm hnm
    obtain ⟨i, hi, hd⟩ := scan_complete ho hn (List.mem_map.mpr ⟨nm, hnm, rfl⟩)
    rw [show nm.1 = i.importModule.name from hd.module.symm]
    exact (hr i hi).1
  · intro way m names l hn
    obtain ⟨i, hi, hd⟩ := scan_complete ho hn (List.mem_singleton.mpr rfl)
    have hmod : i.importModule.name = m.getD [] := hd.module
    rw [← hmod]
    refine ⟨(hr i hi).1, fun nm hnm hs => ?_⟩
    obtain ⟨x, hx, hxn⟩ := hd.names_complete names rfl nm.1 nm.2 hnm hs
    rw [← hxn]
    exact (hr i hi).2 x hx

/-- C55: source code that does not parse: the exception is passed on and the graph is as before. -/
theorem C55_unparsable (env : Env W) (n : Nat) (src : Str) (s : St W) (e : Exc)
    (hp : (env.parseSource src s.world).1 = .error e) :
    ∃ w, (calls env (n + 1)).op (.addDependenciesForSource src) s =
      (.error e, ({ s with world := w } : St W).event .failed) := by
  refine ⟨(env.parseSource src s.world).2, ?_⟩
  show opBody env (calls env n) (.addDependenciesForSource src) s = _
  have : apiBody env (calls env n) (.addDependenciesForSource src) s =
      (.error e, { s with world := (env.parseSource src s.world).2 }) := by
    show M.bind (addDependenciesForSource env (calls env n) src) _ s = _
    unfold addDependenciesForSource
    rw [M.bind_assoc, M.bind_of_error (e := e)
      (s' := { s with world := (env.parseSource src s.world).2 }) (by unfold M.ext; rw [hp])]
  unfold opBody
  rw [this]

/-- C55, partial, in terms of the source code: `compile` is given the text under the name `-source-code-`.  Missing: as for
`C55_source_partial`. -/
theorem C55_text_partial (env : Env W) (T : Texts W) (hM : ∀ k i n, (env.userMissing k i n).Passive) (n : Nat)
    (src : Str) (s s' : St W) (r : Option Node) (ho : T.order.Ok) (root : Ast) {w : W}
    (hp : T.parse src c!"-source-code-" s.world = (.ok root, w))
    (h : (calls (env.withTexts T) n).op (.addDependenciesForSource src) s = (.ok r, s')) :
    (∀ way names, Nested root way (.import_ names) → ∀ nm ∈ names, IsRoot s' nm.1) ∧
    ∀ way m names l, Nested root way (.importFrom m names l) → IsRoot s' (m.getD []) ∧
      ∀ nm ∈ names, nm.1 ≠ c!"*" → IsRoot s' (m.getD [] ++ '.' :: nm.1) := by
  refine C55_source_partial (env.withTexts T) hM n src s s' r T.order ho root ?_ h
  show (Verif.parseSource T src s.world).1 = _
  unfold Verif.parseSource Ext.bind
  rw [hp]
  rfl

/-- C55: the same for source code that `compile` rejects. -/
theorem C55_text_unparsable (env : Env W) (T : Texts W) (n : Nat) (src : Str) (s : St W) (e : Exc) {w : W}
    (hp : T.parse src c!"-source-code-" s.world = (.error e, w)) :
    (calls (env.withTexts T) (n + 1)).op (.addDependenciesForSource src) s =
      (.error e, ({ s with world := w } : St W).event .failed) := by
  have h : Verif.parseSource T src s.world = (.error e, w) := by
    unfold Verif.parseSource Ext.bind
    rw [hp]
  show opBody (env.withTexts T) (calls (env.withTexts T) n) (.addDependenciesForSource src) s = _
  have : apiBody (env.withTexts T) (calls (env.withTexts T) n) (.addDependenciesForSource src) s =
      (.error e, { s with world := w }) := by
    show M.bind (addDependenciesForSource (env.withTexts T) (calls (env.withTexts T) n) src) _ s = _
    unfold addDependenciesForSource
    rw [M.bind_assoc, M.bind_of_error (e := e) (s' := { s with world := w })
      (by unfold M.ext; show (_, _) = _; rw [show (env.withTexts T).parseSource src s.world = _ from h])]
  unfold opBody
  rw [this]

/-- Source code with imports at several depths and of several kinds, and what the scan reports. -/
def sourceTree : Ast := .other [.import_ [(c!"a", none)], .funcDef [.importFrom (some c!"p") [(c!"q", none)] 0]]

def sourceInfos : List ImportInfo :=
  [Demo.imp c!"a", createImportInfo (c!"p", none) (some [(c!"q", none)]) 0 true false false]

theorem sourceInfos_eq : extractAstInfo exOrd sourceTree = sourceInfos := by
  simp [extractAstInfo, astLoop, astRecords, astPushes, sourceTree, sourceInfos, exOrd, Demo.imp]

def sourceTable : Demo.Table := { Demo.small with scripts :=
  [(c!"src", sourceInfos), (c!"rel", [Demo.fromImp 1 c!"b" [c!"f"]]),
   (c!"dots", [Demo.imp c!"a", Demo.fromImp 1 [] [c!"b"]])] }

/-- The hypotheses of the theorems are met. -/
example :
    ((Demo.env sourceTable).parseSource c!"src" ()).1 = .ok (extractAstInfo exOrd sourceTree) ∧
    ((calls (Demo.env sourceTable) 30).op (.addDependenciesForSource c!"src") (initState () [] true)).1 =
      .ok none ∧
    (Demo.run sourceTable [.addDependenciesForSource c!"src"]).2.roots = [c!"a", c!"p", c!"p.q"] ∧
    ((Demo.env sourceTable).parseSource c!"bad" ()).1 = .error .syntaxError := by
  rw [sourceInfos_eq]
  decide +kernel

/-- A surprise: the dots of relative imports are ignored.  `from .b import f` makes the top-level module
`b` a root; with `from . import b` the call ends with `ValueError`, and what the statements before it
import stays in the graph. -/
theorem C55_relative_ignored :
    (Demo.run sourceTable [.addDependenciesForSource c!"rel"]).2.roots = [c!"b", c!"b.f"] ∧
    ((calls (Demo.env sourceTable) 30).op (.addDependenciesForSource c!"dots") (initState () [] true)).1 =
      .error (.valueError false) ∧
    (Demo.run sourceTable [.addDependenciesForSource c!"dots"]).2.roots = [c!"a"] := by
  decide +kernel

/-- A surprise: `from a import x` makes `a.x` a root even if `a` is not a package and `x` a name
that it defines; the root is a missing module. -/
theorem C55_attributes_are_roots :
    let t : Demo.Table := { mods := [(c!"a", Demo.src c!"a" [c!"x"], [])]
                            scripts := [(c!"src", [Demo.fromImp 0 c!"a" [c!"x"]])] }
    let s := (Demo.run t [.addDependenciesForSource c!"src"]).2
    s.roots = [c!"a", c!"a.x"] ∧ s.find c!"a.x" = some (missingNode c!"a.x") := by
  decide +kernel

end Verif.Props
