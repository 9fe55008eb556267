import Verif.Model.Scripts
import Verif.Spec.StatementSpec
import Verif.Props.Sources
import Verif.Props.Nodes
import Verif.Props.Loaders
import Verif.Props.Structure
import Verif.Props.FromImportRun
/-!
# C58: from the source text to the edges

The scanner, the loaders and the graph builder put together.
-/
namespace Verif.Props
open Verif Spec

variable {W : Type}

theorem EdgeSays.of {way : List Via} {x : Ast} {e : Entry} (he : e ∈ entries (way, x)) {i : ImportInfo}
    (hd : Describes i e) (b : Bool) (a : Option Str) : EdgeSays way b a (fromImportInfo i b a) := by
  have hf : e.inFunction = way.contains .inDef ∧ e.inConditional = way.contains .inIf ∧
      e.inTryExcept = way.contains .inTry := by
    cases x <;> simp only [entries, List.not_mem_nil, List.mem_map, List.mem_singleton] at he
    · obtain ⟨_, _, rfl⟩ := he; exact ⟨rfl, rfl, rfl⟩
    · subst he; exact ⟨rfl, rfl, rfl⟩
  have h1 := hd.inFunction.trans hf.1
  have h2 := hd.inConditional.trans hf.2.1
  have h3 := hd.inTryExcept.trans hf.2.2
  refine ⟨?_, ?_, rfl, rfl⟩
  · simp [fromImportInfo, ImportInfo.isOptional, h1, h2, h3, or_assoc]
  · simp [fromImportInfo, ImportInfo.isGlobal, h1]

/-- What is known of a record that was found in `m` and whose processing is complete. -/
structure RecordDone (s : St W) (m : Node) (i : ImportInfo) (t : Str) : Prop where
  target : (Refers m i t ∧ (m.ident, t, fromImportInfo i false i.importModule.asname) ∈ s.edges) ∨
    (PointsOutside m i ∧ (∃ x ∈ s.nodes, x.ident = t ∧ x.isInvalidRel = true) ∧
      t = List.replicate i.importLevel '.' ++ i.importModule.name ∧
      (m.ident, t, fromImportInfo i false none) ∈ s.edges)
  names : i.starImport = false → ∀ P ∈ s.nodes, P.ident = t →
    P.isPackage = true ∨ P.isNamespacePkg = true → P.ident ≠ m.ident → ¬ IsSixMoves P →
    ∀ nm ∈ i.importNames, P.isNamespacePkg = true ∨ nm.name ∉ s.gw t →
    (∃ x ∈ s.nodes, x.ident = t ++ '.' :: nm.name) ∧
      (m.ident, t ++ '.' :: nm.name, fromImportInfo i true nm.asname) ∈ s.edges

/-- The edges for the records of a scan are edges for the statements. -/
theorem linked_of_edges {s : St W} {m : Node} {ord : SetOrder} (ho : ord.Ok) {tree : Ast}
    (h : ∀ i ∈ extractAstInfo ord tree, ∃ t, RecordDone s m i t) :
    StatementsLinked (view s) s.gw m tree := by
  constructor
  · intro way names hn nm hnm
    have he : (_ : Entry) ∈ entries (way, .import_ names) := List.mem_map.mpr ⟨nm, hnm, rfl⟩
    obtain ⟨i, hi, hd⟩ := scan_complete ho hn he
    have hl : i.importLevel = 0 := hd.level
    have hm : i.importModule.name = nm.1 := hd.module
    have ha : i.importModule.asname = nm.2 := hd.asname
    obtain ⟨t, ⟨hr, he'⟩ | ⟨ho, _⟩, -⟩ := h i hi
    · refine ⟨_, EdgeSays.of he hd _ _, ?_⟩
      have ht : t = nm.1 := by
        cases hr with
        | absolute _ => exact hm
        | relative => omega
      rw [ht, ha] at he'
      exact he'
    · exact absurd ho.1 (by omega)
  · intro way name names level hn
    have he : (_ : Entry) ∈ entries (way, .importFrom name names level) := List.mem_singleton.mpr rfl
    obtain ⟨i, hi, hd⟩ := scan_complete ho hn he
    have hl : i.importLevel = level := hd.level
    have hm : i.importModule.name = name.getD [] := hd.module
    have ha : i.importModule.asname = none := hd.asname
    obtain ⟨t, htgt, hnames⟩ := h i hi
    have hN : NamesLinked (view s) s.gw m t way names := by
      intro hst P hP hPt hpk hne h6 nm hnm hg
      have hs : i.starImport = false := by
        cases hs : i.starImport with
        | false => rfl
        | true =>
          obtain ⟨l, hl, a, ha⟩ := hd.star.mp hs
          cases hl
          exact absurd ha (hst a)
      obtain ⟨x, hx, hxn⟩ := hd.names_complete names rfl nm.1 nm.2 hnm
        (fun h => hst nm.2 (by rw [← h]; exact hnm))
      obtain ⟨h7, h8⟩ := hnames hs P hP hPt hpk hne h6 x hx (by rw [hxn]; exact hg)
      rw [hxn] at h7 h8
      obtain ⟨-, l, hl, hmem⟩ := hd.names_sound x hx
      cases hl
      refine ⟨h7, x.asname, _, ?_, EdgeSays.of he hd _ _, h8⟩
      rw [← hxn]; exact hmem
    rcases htgt with ⟨hr, he'⟩ | ⟨⟨h1, comps, h2, h3, h4, h5⟩, ⟨x, hx, rfl, h6⟩, h7, he'⟩
    · rw [ha] at he'
      refine ⟨t, _, ?_, EdgeSays.of he hd _ _, he', hN⟩
      cases hr with
      | absolute h => rw [← hm]; exact .absolute (by omega)
      | relative kept rest h1 h2 h3 h4 h5 =>
        rw [hm]
        refine .relative kept rest (by omega) h2 h3 h4 ?_
        rw [← hl]; exact h5
    · refine ⟨x.ident, _, ?_, EdgeSays.of he hd _ _, he', hN⟩
      refine .outside comps x (by omega) h2 h3 h4 ?_ hx h6 (by rw [h7, hl, hm])
      rw [← hl]; exact h5

theorem node_eq {g : View} (h : UniqueIds g) {a b : Node} (ha : a ∈ g.nodes) (hb : b ∈ g.nodes)
    (he : a.ident = b.ident) : a = b := by
  obtain ⟨i, hi, rfl⟩ := List.getElem_of_mem ha
  obtain ⟨j, hj, rfl⟩ := List.getElem_of_mem hb
  have := h i j hi hj he
  subst this
  rfl

/-- Every record found in a scan is done when the queue is empty. -/
theorem records_done (env : Env W) (hO : env.OrderExact) (impl : List (Str × Implies))
    (hP : ∀ k n, (env.userPost k n).Only (Building impl))
    (hM : ∀ k i n, (env.userMissing k i n).Passive) (n : Nat) (p : Hook W)
    (hp : p.Only (Building impl)) (w : W) (stdlib : List (Str × Implies)) (builtin : Bool) :
    let s := (runClient env n p (initState w stdlib builtin)).2
    Event.failed ∉ s.log → s.stack = [] →
    ∀ m ∈ s.nodes, ∀ infos i, Event.scheduled m.ident infos ∈ s.log → i ∈ infos →
      ∃ t, RecordDone s m i t := by
  intro s hf hst m hm infos i hs hi
  have hO' : env.OrderOk := fun w l x hx => (hO w l x).mp hx
  obtain ⟨t, he⟩ := C07_completed env n p w stdlib builtin hf hst m.ident infos i hs hi
  obtain ⟨m', h1, h2, h3, h4⟩ :=
    (client_edges env hO' impl hP hM n hp w stdlib builtin).imported _ _ _ he
  have hmm : m' = m := node_eq (C01_unique_ids env n p w stdlib builtin).1 h1 hm h2
  subst hmm
  refine ⟨t, ?_, ?_⟩
  · rcases h4 with h4 | ⟨h5, h6, h7, h8⟩
    · exact .inl h4
    · exact .inr ⟨h5, h7, h6, h8⟩
  · intro hstar P hPm hPt hpk hne h6 nm hnm hg
    have hT : TakesFrom s t P := ⟨hPm, P, hPm, hPt, .inl ⟨rfl, fun x hx => by
      simp [Node.isPackage, Node.isNamespacePkg, hx] at hpk⟩⟩
    have := (C40_run_package env hM hO n p w stdlib builtin hf hst m' P i nm t he hT hpk hstar hnm).1
    subst hPt
    rcases this (by
      rintro ⟨h7, h8 | h8⟩
      · rcases hg with hg | hg
        · rw [hg] at h7; cases h7
        · exact hg h8
      · exact hne h8) with ⟨h9, h10, -⟩ | ⟨h9, -⟩
    · exact ⟨h9, h10⟩
    · exact absurd h9 h6

/-- The module's own source, or that of the module it was moved to, was parsed to this tree. -/
def SourceTree (L : Loaders W) (m : Node) (tree : Ast) : Prop :=
  ∃ (spec : Verif.Spec) (src file : Str) (w : W), spec.name = m.ident ∧
    (L.getSource spec w).1 = .ok (some src) ∧ spec.origin = some file ∧ (L.parse src file w).1 = .ok tree

/-- A source module's imports are those of a scan of its source. -/
theorem source_imports {L : Loaders W} (hS : L.Stable) (k : Nat) : ∀ (spec : Verif.Spec) (w : W) (m : Node)
    (imports : List ImportInfo), (nodeForSpec L k spec w).1 = .ok (m, imports) →
    codeClass m = some .source → ∃ tree, SourceTree L m tree ∧ imports = extractAstInfo L.order tree := by
  induction k with
  | zero => intro spec w m imports h; simp [nodeForSpec, Ext.throw] at h
  | succ k ih =>
    intro spec w m imports h hc
    by_cases hp : spec.loader.Plain
    · obtain ⟨hid, ⟨-, -, _, _, hk⟩ | ⟨c, hcl, h1⟩⟩ := C36_class_partial hS k spec w m imports hp h
      · simp [codeClass, hk] at hc
      · have hcc : c = .source := by
          rcases h1 with ⟨-, h1⟩ | ⟨-, -, h1⟩ | ⟨-, init, locs, data, ns, h1, -, h2⟩
          · simpa [codeClass, h1] using hc
          · simpa [codeClass, h1] using hc
          · simpa [codeClass, h1, h2] using hc
        subst hcc
        cases hcl with
        | source src hl hb hs =>
          rcases C36_imports hS k spec w m imports (.inl hl) h with
            ⟨src', f, a, h2, h3, h4, h5⟩ | ⟨h2 | ⟨_, _, h2, h3, h4⟩, -⟩ | ⟨h2, -⟩
          · exact ⟨a, ⟨spec, src', f, w, hid.symm, h2, h3, h4⟩, h5⟩
          · rw [hs] at h2; cases h2
          · exact absurd (.inr (.inl ⟨_, _, h2, h3, h4⟩)) hb
          · exact absurd (.inl h2) hb
    · have hm : spec.loader.Moved ∨ spec.loader = .unknown := by
        unfold Loader.Plain at hp
        unfold Loader.Moved
        cases hl : spec.loader <;> simp_all
      rcases hm with hm | hm
      · rcases C36_moved k spec w m imports hm h with ⟨_, moved, _, w2, -, -, -, h2⟩ | ⟨h2, -⟩ | ⟨-, -, -, -, -, h2⟩
        · exact ih moved w2 m imports h2 hc
        · unfold Node.isMissing at h2
          unfold codeClass at hc
          cases hk : m.kind <;> simp_all
        · rw [hc] at h2; cases h2
      · rw [nodeForSpec] at h
        simp [hm, Ext.throw] at h

theorem Building.noAddNode {impl : List (Str × Implies)} (o : ApiOp) (h : Building impl o) : o.NoAddNode := by
  obtain ⟨h, -⟩ := h
  cases o <;> first | trivial | exact h.elim

/-- C58, modules: in a run without failed call whose queue was emptied, every source module (and every
package with source `__init__`) has a parsed source, and every import statement anywhere in it is an
edge from the module to the module that the statement means, saying whether the statement is optional
or global and which name it gives.  Nothing is built by hand and missing hooks are passive. -/
theorem C58_module (env : Env W) (L : Loaders W) (hS : L.Stable) (ho : L.order.Ok) (k : Nat)
    (hO : env.OrderExact) (impl : List (Str × Implies))
    (hP : ∀ k n, (env.userPost k n).Only (Building impl))
    (hM : ∀ k i n, (env.userMissing k i n).Passive) (n : Nat) (p : Hook W)
    (hp : p.Only (Building impl)) (w : W) (stdlib : List (Str × Implies)) (builtin : Bool) :
    let s := (runClient (env.withLoaders L k) n p (initState w stdlib builtin)).2
    Event.failed ∉ s.log → s.stack = [] →
    ∀ m ∈ s.nodes, codeClass m = some .source →
      ∃ tree, SourceTree L m tree ∧ StatementsLinked (view s) s.gw m tree := by
  intro s hf hst m hm hc
  have hO' : (env.withLoaders L k).OrderExact := hO
  rcases client_scans (env.withLoaders L k) (fun k n => (hP k n).mono Building.noAddNode) hM n
    (hp.mono Building.noAddNode) w stdlib builtin hf m hm with h | h | h | h
  · unfold Node.isStandIn Node.isLoaded Node.isModule Node.isPackage Node.isNamespacePkg Node.isScript at h
    unfold codeClass at hc
    cases hk : m.kind <;> simp_all
  · unfold SwigNode Node.isExtension at h
    unfold codeClass at hc
    cases hk : m.kind <;> simp_all
  · obtain ⟨name, imports, ⟨spec, _, w', _, h1⟩, ⟨h2, -⟩ | h2⟩ := h
    · obtain ⟨tree, h3, rfl⟩ := source_imports hS k spec w' m imports h1 hc
      refine ⟨tree, h3, linked_of_edges ho fun i hi => ?_⟩
      exact records_done (env.withLoaders L k) hO' impl hP hM n p hp w stdlib builtin hf hst m hm _ i h2 hi
    · cases h2
  · obtain ⟨_, _, h1, _⟩ := h
    unfold Node.isScript at h1
    unfold codeClass at hc
    cases hk : m.kind <;> simp_all

/-- The script's file was read and parsed to this tree. -/
def ScriptTree (T : Texts W) (m : Node) (tree : Ast) : Prop :=
  ∃ bytes source, (∃ w, (T.readFile m.ident w).1 = .ok bytes) ∧
    (∃ w, (T.decode bytes w).1 = .ok source) ∧ ∃ w, (T.parse source m.ident w).1 = .ok tree

theorem loadScript_ok {T : Texts W} {path : Str} {w : W} {infos : List ImportInfo} {file : Str}
    (h : (loadScript T path w).1 = .ok (infos, file)) :
    ∃ tree bytes source, (∃ w, (T.readFile path w).1 = .ok bytes) ∧
      (∃ w, (T.decode bytes w).1 = .ok source) ∧ (∃ w, (T.parse source path w).1 = .ok tree) ∧
      infos = extractAstInfo T.order tree := by
  unfold loadScript at h
  obtain ⟨bytes, w1, h1, h⟩ := Ext.bind_ok h
  obtain ⟨source, w2, h2, h⟩ := Ext.bind_ok h
  obtain ⟨tree, w3, h3, h⟩ := Ext.bind_ok h
  obtain ⟨_, w4, _, h⟩ := Ext.bind_ok h
  obtain ⟨_, w5, _, h⟩ := Ext.bind_ok h
  simp only [Ext.pure, Except.ok.injEq, Prod.mk.injEq] at h
  exact ⟨tree, bytes, source, ⟨_, by rw [h1]⟩, ⟨_, by rw [h2]⟩, ⟨_, by rw [h3]⟩, h.1.symm⟩

/-- C58, scripts: the same for every script. -/
theorem C58_script (env : Env W) (T : Texts W) (ho : T.order.Ok) (hN : env.MakesModules)
    (hO : env.OrderExact) (impl : List (Str × Implies))
    (hP : ∀ k n, (env.userPost k n).Only (Building impl))
    (hM : ∀ k i n, (env.userMissing k i n).Passive) (n : Nat) (p : Hook W)
    (hp : p.Only (Building impl)) (w : W) (stdlib : List (Str × Implies)) (builtin : Bool) :
    let s := (runClient (env.withTexts T) n p (initState w stdlib builtin)).2
    Event.failed ∉ s.log → s.stack = [] →
    ∀ m ∈ s.nodes, m.isScript = true →
      ∃ tree, ScriptTree T m tree ∧ StatementsLinked (view s) s.gw m tree := by
  intro s hf hst m hm hl
  have hO' : (env.withTexts T).OrderExact := hO
  have hN' : (env.withTexts T).MakesModules := hN
  rcases client_scans (env.withTexts T) (fun k n => (hP k n).mono Building.noAddNode) hM n
    (hp.mono Building.noAddNode) w stdlib builtin hf m hm with h | h | h | h
  · simp [Node.isStandIn, hl] at h
  · unfold Node.isScript at hl
    unfold SwigNode Node.isExtension at h
    cases hk : m.kind <;> simp_all
  · obtain ⟨name, imports, ⟨_, _, _, _, h1⟩, _⟩ := h
    have := hN' _ _ _ _ h1
    unfold Node.isScript at hl
    unfold Node.isLoaded Node.isMissing Node.isModule Node.isPackage Node.isNamespacePkg at this
    cases hk : m.kind <;> simp_all
  · obtain ⟨infos, file, _, ⟨w', h2⟩, h3, h4⟩ := h
    obtain ⟨tree, bytes, source, h5, h6, h7, rfl⟩ := loadScript_ok h2
    refine ⟨tree, ⟨bytes, source, h5, h6, h7⟩, linked_of_edges ho fun i hi => ?_⟩
    exact records_done (env.withTexts T) hO' impl hP hM n p hp w stdlib builtin hf hst m hm _ i h4 hi

/-- Texts whose every script is `sourceTree` (`import a`, and `from p import q` in a function). -/
def stmtTexts : Texts Unit where
  readFile := fun p w => (.ok p, w)
  decode := fun b w => (.ok b, w)
  parse := fun _ _ w => (.ok sourceTree, w)
  compile := fun _ _ w => (.ok (), w)
  resolve := fun p w => (.ok p, w)
  order := exOrd

def stmtEnv : Env Unit :=
  { Demo.env Demo.small with
    loadScript := fun p w => (.ok (sourceInfos, p), w)
    parseSource := fun _ w => (.ok sourceInfos, w) }

theorem stmtEnv_eq : (Demo.env Demo.small).withTexts stmtTexts = stmtEnv := by
  have h1 : loadScript stmtTexts = fun p w => (.ok (sourceInfos, p), w) := by
    funext p w
    simp [loadScript, stmtTexts, Ext.bind, Ext.pure, sourceInfos_eq]
  have h2 : parseSource stmtTexts = fun _ w => (.ok sourceInfos, w) := by
    funext p w
    simp [parseSource, stmtTexts, Ext.bind, Ext.pure, sourceInfos_eq]
  rw [Env.withTexts, h1, h2]
  rfl

/-- The hypotheses of `C58_script` are met by a run with a script whose tree has two statements, one of
them in a function. -/
example :
    let s := (runClient ((Demo.env Demo.small).withTexts stmtTexts) 30
      (Demo.client [.addScript c!"/s.py"]) (initState () [] true)).2
    ∃ m ∈ s.nodes, m.ident = c!"/s.py" ∧ StatementsLinked (view s) s.gw m sourceTree := by
  intro s
  obtain ⟨hf, hst, m, hm, hid, hs⟩ : Event.failed ∉ s.log ∧ s.stack = [] ∧
      ∃ m ∈ s.nodes, m.ident = c!"/s.py" ∧ m.isScript = true := by
    dsimp only [s]
    rw [stmtEnv_eq]
    decide +kernel
  obtain ⟨tree, ⟨_, _, _, _, ⟨_, h⟩⟩, hl⟩ := C58_script (Demo.env Demo.small) stmtTexts exOrd_ok
    (demo_loads _ (by decide +kernel)).makes (fun _ _ _ => Iff.rfl) [] (fun _ _ => .ret _)
    (fun _ _ _ => .ret) 30 (Demo.client [.addScript c!"/s.py"])
    (demo_client_only _ _ (by simp [Building, ApiOp.Declares])) () [] true hf hst m hm hs
  cases h
  exact ⟨m, hm, hid, hl⟩

/-- What is to be found there. -/
example :
    Nested sourceTree [.plain, .inDef] (.importFrom (some c!"p") [(c!"q", none)] 0) ∧
    let s := (runClient ((Demo.env Demo.small).withTexts stmtTexts) 30
      (Demo.client [.addScript c!"/s.py"]) (initState () [] true)).2
    (c!"/s.py", c!"p.q", DepInfo.mk true false true none) ∈ s.edges := by
  refine ⟨.plain (.tail _ (.head _)) (.inDef (.head _) (.here _)), ?_⟩
  rw [stmtEnv_eq]
  decide +kernel

/-- Loaders whose modules are all source modules with the tree of `sourceTree`. -/
def stmtLoaders : Loaders Unit where
  findSpec := fun _ w => (.ok none, w)
  getSource := fun _ w => (.ok (some []), w)
  parse := fun _ _ w => (.ok sourceTree, w)
  getCode := fun _ w => (.ok (some (.mk 0 [] [] .nil)), w)
  isPackage := fun s w => (.ok (s.name = c!"p"), w)
  distributionForFile := fun _ w => (.ok none, w)
  containsDatafiles := fun _ w => (.ok false, w)
  importPath := fun _ w => (.error .importError, w)
  delModule := fun _ w => (.ok (), w)
  invalidate := fun w => (.ok (), w)
  parent := id
  new := true
  order := exOrd

/-- `stmtLoaders` with the scan done. -/
def stmtNode (spec : Verif.Spec) : Node :=
  if spec.name = c!"p" then
    { ident := spec.name
      kind := .package false { name := spec.name, kind := .source, filename := some c!"/f" } [] false none
      filename := some c!"/f" }
  else { ident := spec.name, kind := .module .source, filename := some c!"/f" }

theorem stmtNode_eq (name : Str) (w : Unit) :
    nodeForSpec stmtLoaders 1 ⟨name, .inspect, some c!"/f", some []⟩ w =
      (.ok (stmtNode ⟨name, .inspect, some c!"/f", some []⟩, sourceInfos), w) := by
  have h : extractBytecodeInfo true (.mk 0 [] [] .nil) = .ok ([], [], []) := by decide +kernel
  by_cases hn : name = c!"p" <;>
    simp [nodeForSpec, inspectPart, astPart, codePart, distFor, wrapPackage, namespaceType, stmtLoaders,
      Ext.bind, Ext.pure, Ext.catching, h, sourceInfos_eq, stmtNode, hn]

/-- A world with the modules `a`, `p` and `p.q`. -/
def stmtWorld : Env Unit :=
  { Demo.env {} with
    findSpec := fun n w => (.ok (spec n), w)
    findSpecRel := fun n p w => (.ok (spec (p ++ '.' :: n)), w) }
where
  spec (n : Str) : Option Verif.Spec :=
    if n = c!"a" ∨ n = c!"p" ∨ n = c!"p.q" then some ⟨n, .inspect, some c!"/f", some []⟩ else none

def stmtWorld' : Env Unit :=
  { stmtWorld with
    nodeForSpec := fun spec => match spec with
      | ⟨name, .inspect, some ['/', 'f'], some []⟩ => fun w =>
        (.ok (stmtNode ⟨name, .inspect, some c!"/f", some []⟩, sourceInfos), w)
      | spec => nodeForSpec stmtLoaders 1 spec }

theorem stmtWorld_eq : stmtWorld.withLoaders stmtLoaders 1 = stmtWorld' := by
  have h : nodeForSpec stmtLoaders 1 = stmtWorld'.nodeForSpec := by
    funext spec w
    simp only [stmtWorld']
    split
    · exact stmtNode_eq _ _
    · rfl
  rw [Env.withLoaders, h]
  rfl

/-- The hypotheses of `C58_module` are met by a run with three modules. -/
example :
    let s := (runClient (stmtWorld.withLoaders stmtLoaders 1) 30
      (Demo.client [.addModule c!"p.q"]) (initState () [] true)).2
    (∀ m ∈ s.nodes, StatementsLinked (view s) s.gw m sourceTree) ∧
      s.nodes.map (·.ident) = [c!"p", c!"p.q", c!"a"] := by
  intro s
  obtain ⟨hf, hst, hs, hn⟩ : Event.failed ∉ s.log ∧ s.stack = [] ∧
      (∀ m ∈ s.nodes, codeClass m = some .source) ∧ s.nodes.map (·.ident) = [c!"p", c!"p.q", c!"a"] := by
    dsimp only [s]
    rw [stmtWorld_eq]
    decide +kernel
  refine ⟨fun m hm => ?_, hn⟩
  obtain ⟨tree, ⟨_, _, _, _, _, _, _, h⟩, hl⟩ := C58_module stmtWorld stmtLoaders
    ⟨fun _ _ _ => rfl, fun _ _ _ _ => rfl, fun _ _ _ => rfl, fun _ _ _ => rfl⟩ exOrd_ok 1
    (fun _ _ _ => Iff.rfl) [] (fun _ _ => .ret _)
    (fun _ _ _ => .ret) 30 (Demo.client [.addModule c!"p.q"])
    (demo_client_only _ _ (by simp [Building, ApiOp.Declares])) () [] true hf hst m hm (hs m hm)
  cases h
  exact hl

end Verif.Props
