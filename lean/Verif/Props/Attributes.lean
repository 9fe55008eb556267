import Verif.Props.Packages
import Verif.Props.Statements
import Verif.Props.DataFiles
import Verif.Proofs.Sourced
import Verif.Model.DataWorld
/-! # C53 and C35 in the graph: the attributes of the nodes of any run -/
namespace Verif.Props
open Verif Verif.Spec
variable {W : Type} {L : Loaders W}

/-- A node for code is made for a spec whose loader finds the module itself, perhaps after a move. -/
theorem plain_origin (k : Nat) : ∀ (spec : Verif.Spec) (w : W) (m : Node) (imports : List ImportInfo),
    (nodeForSpec L k spec w).1 = .ok (m, imports) → m.isMissing = true ∨ IsSixMoves m ∨
    ∃ spec' k' w', spec'.loader.Plain ∧ (spec' = spec ∨ ∃ x w1, (L.findSpec x w1).1 = .ok (some spec')) ∧
      (nodeForSpec L (k' + 1) spec' w').1 = .ok (m, imports) := by
  induction k with
  | zero => intro spec w m imports h; simp [nodeForSpec, Ext.throw] at h
  | succ k ih =>
    intro spec w m imports h
    by_cases hp : spec.loader.Plain
    · exact .inr (.inr ⟨spec, k, w, hp, .inl rfl, h⟩)
    · have hm : spec.loader.Moved ∨ spec.loader = .unknown := by
        unfold Loader.Plain at hp
        unfold Loader.Moved
        cases hl : spec.loader <;> simp_all
      rcases hm with hm | hm
      · rcases C36_moved k spec w m imports hm h with ⟨x, moved, w1, w2, -, h1, -, h2⟩ | ⟨h2, -⟩ | ⟨h0, -, -, -, -, -⟩
        · rcases ih moved w2 m imports h2 with h | h | ⟨s, k', w', h3, h4, h5⟩
          · exact .inl h
          · exact .inr (.inl h)
          · refine .inr (.inr ⟨s, k', w', h3, .inr ?_, h5⟩)
            rcases h4 with rfl | h4
            · exact ⟨x, w1, h1⟩
            · exact h4
        · exact .inl h2
        · refine .inr (.inl ?_)
          rw [nodeForSpec] at h
          simp only [h0.1, h0.2, if_true] at h
          obtain ⟨_, _, _, h⟩ := Ext.bind_ok h
          simp only [Ext.pure, Except.ok.injEq, Prod.mk.injEq] at h
          obtain ⟨rfl, -⟩ := h
          exact ⟨_, _, _, _, _, rfl, rfl⟩
      · rw [nodeForSpec] at h
        simp [hm, Ext.throw] at h

/-- Where the spec of a node was found: by the graph builder, or behind a spec that it found. -/
def SpecFound (env : Env W) (L : Loaders W) (spec : Verif.Spec) : Prop :=
  (∃ name w, Locates env name w spec) ∨ ∃ name w, (L.findSpec name w).1 = .ok (some spec)

/-- The spec behind a node for code. -/
theorem node_spec (hS : L.Stable) (env : Env W) (k : Nat) (hP : ∀ k n, (env.userPost k n).Only ApiOp.NoAddNode)
    (hM : ∀ k i n, (env.userMissing k i n).Passive) (n : Nat) (p : Hook W) (hp : p.Only ApiOp.NoAddNode)
    (w : W) (stdlib : List (Str × Implies)) (builtin : Bool) (m : Node)
    (hm : m ∈ (runClient (env.withLoaders L k) n p (initState w stdlib builtin)).2.nodes)
    (hl : m.isModule = true ∨ m.isPackage = true) :
    SwigNode m ∨ IsSixMoves m ∨ ∃ spec k' w' imports, spec.loader.Plain ∧ SpecFound env L spec ∧
      spec.name = m.ident ∧ (nodeForSpec L (k' + 1) spec w').1 = .ok (m, imports) := by
  rcases client_sourced (env.withLoaders L k) hP hM n hp w stdlib builtin m hm with
    h | h | ⟨name, imports, spec, w1, w2, h1, h2⟩ | ⟨h, -⟩
  · exfalso
    unfold Node.isStandIn Node.isLoaded Node.isModule Node.isPackage at h
    unfold Node.isModule Node.isPackage at hl
    cases hk : m.kind <;> simp_all
  · exact .inl h
  · rcases plain_origin k spec w2 m imports h2 with h | h | ⟨s, k', w', h3, h4, h5⟩
    · exfalso
      unfold Node.isMissing at h
      unfold Node.isModule Node.isPackage at hl
      cases hk : m.kind <;> simp_all
    · exact .inr (.inl h)
    · refine .inr (.inr ⟨s, k', w', imports, h3, ?_, (C36_class_partial hS k' s w' m imports h3 h5).1.symm, h5⟩)
      rcases h4 with rfl | h4
      · exact .inl ⟨name, w1, locates_iff.mpr h1⟩
      · exact .inr h4
  · exfalso
    unfold Node.isScript at h
    unfold Node.isModule Node.isPackage at hl
    cases hk : m.kind <;> simp_all

/-- C53, packages in the graph: in every run of every client, also when calls failed, a package other than
`six.moves` has the attributes that follow from the spec with its name. -/
theorem C53_package_in_graph (hS : L.Stable) (env : Env W) (k : Nat)
    (hP : ∀ k n, (env.userPost k n).Only ApiOp.NoAddNode)
    (hM : ∀ k i n, (env.userMissing k i n).Passive) (n : Nat) (p : Hook W) (hp : p.Only ApiOp.NoAddNode)
    (w : W) (stdlib : List (Str × Implies)) (builtin : Bool) (m : Node)
    (hm : m ∈ (runClient (env.withLoaders L k) n p (initState w stdlib builtin)).2.nodes)
    (fr : Bool) (init : InitModule) (sp : List Str) (hd : Bool) (ns : Option NsType)
    (hk : m.kind = .package fr init sp hd ns) (h6 : ¬ IsSixMoves m) :
    ∃ spec, SpecFound env L spec ∧ spec.name = m.ident ∧ init.filename = moduleFile spec ∧
      m.filename = (moduleFile spec).map L.parent ∧
      DistOf L (moduleFile spec) m.distribution ∧ DataOf L (moduleFile spec) hd ∧
      (∀ t, ns = some t ↔ (spec.loader = .inspect ∨ spec.loader = .frozen) ∧
        ∃ src, (L.getSource spec w).1 = .ok (some src) ∧ Explicit src m.globalsRead t) ∧
      (ns = none → spec.searchLocations = some sp) := by
  rcases node_spec hS env k hP hM n p hp w stdlib builtin m hm (.inr (by simp [Node.isPackage, hk])) with
    h | h | ⟨spec, k', w', imports, h1, h2, h3, h4⟩
  · unfold SwigNode Node.isExtension at h; simp [hk] at h
  · exact absurd h h6
  · obtain ⟨a, b, c, d, e, f, -⟩ := C53_package hS k' spec w' m imports h1 h4 fr init sp hd ns hk
    refine ⟨spec, h2, h3, a, b, c, d, ?_, f⟩
    intro t
    rw [hS.source spec w w']
    exact e t

/-- C53, modules in the graph. -/
theorem C53_module_in_graph (hS : L.Stable) (env : Env W) (k : Nat)
    (hP : ∀ k n, (env.userPost k n).Only ApiOp.NoAddNode)
    (hM : ∀ k i n, (env.userMissing k i n).Passive) (n : Nat) (p : Hook W) (hp : p.Only ApiOp.NoAddNode)
    (w : W) (stdlib : List (Str × Implies)) (builtin : Bool) (m : Node)
    (hm : m ∈ (runClient (env.withLoaders L k) n p (initState w stdlib builtin)).2.nodes)
    (c : ModKind) (hk : m.kind = .module c) (hs : ¬ SwigNode m) :
    ∃ spec, SpecFound env L spec ∧ spec.name = m.ident ∧ m.filename = moduleFile spec ∧
      DistOf L (moduleFile spec) m.distribution := by
  rcases node_spec hS env k hP hM n p hp w stdlib builtin m hm (.inl (by simp [Node.isModule, hk])) with
    h | ⟨_, _, _, _, _, h, -⟩ | ⟨spec, k', w', imports, h1, h2, h3, h4⟩
  · exact absurd h hs
  · rw [hk] at h; cases h
  · obtain ⟨a, b⟩ := C53_module hS k' spec w' m imports h1 h4 c hk
    exact ⟨spec, h2, h3, a, b⟩

/-! ## C35 in the graph -/

theorem pathParts_clean (s : Str) : ∀ c ∈ pathParts s, '/' ∉ c ∧ c ≠ [] ∧ c ≠ c!"." := by
  intro c hc
  unfold pathParts at hc
  obtain ⟨h1, h2⟩ := List.mem_filter.mp hc
  exact ⟨(splitAll_clean '/' s).2 c h1, of_decide_eq_true h2⟩

theorem parts_join {l : List Str} (h : ∀ c ∈ l, '/' ∉ c ∧ c ≠ [] ∧ c ≠ c!".") :
    (splitAll '/' (joinWith '/' l)).filter (fun c => decide (c ≠ [] ∧ c ≠ c!".")) = l := by
  cases l with
  | nil => decide
  | cons a l =>
    rw [splitAll_joinWith (by simp) fun x hx => (h x hx).1, List.filter_eq_self]
    intro c hc
    exact decide_eq_true (h c hc).2

/-- The parent of a path is the path without its last component. -/
theorem pathParts_parent (s : Str) : pathParts (pathParent s) = (pathParts s).dropLast := by
  have hc : ∀ c ∈ (pathParts s).dropLast, '/' ∉ c ∧ c ≠ [] ∧ c ≠ c!"." := fun c hc =>
    pathParts_clean s c (List.dropLast_subset _ hc)
  unfold pathParent
  dsimp only
  split
  · rw [pathParts, splitAll, if_pos rfl, List.filter_cons_of_neg (by decide)]
    exact parts_join hc
  · split
    · next h =>
      have := parts_join hc
      rw [h] at this
      rw [← this]
      decide
    · exact parts_join hc

theorem withTree_stable {sfx : List Str} {t : Tree} (hS : L.Stable) : (L.withTree sfx t).Stable :=
  ⟨hS.source, hS.parse, hS.code, hS.package⟩

/-- What `has_data_files` says. -/
theorem data_of {sfx : List Str} {t : Tree} (hS : L.Stable) (env : Env W) (k : Nat)
    (hP : ∀ k n, (env.userPost k n).Only ApiOp.NoAddNode)
    (hM : ∀ k i n, (env.userMissing k i n).Passive) (n : Nat) (p : Hook W) (hp : p.Only ApiOp.NoAddNode)
    (w : W) (stdlib : List (Str × Implies)) (builtin : Bool) (m : Node)
    (hm : m ∈ (runClient (env.withLoaders (L.withTree sfx t) k) n p (initState w stdlib builtin)).2.nodes)
    {fr : Bool} {init : InitModule} {sp : List Str} {hd : Bool} {ns : Option NsType}
    (hk : m.kind = .package fr init sp hd ns) (h6 : ¬ IsSixMoves m) :
    match init.filename with
    | none => hd = false
    | some f => containsDatafiles sfx t (pathParts f).dropLast = .ok hd := by
  obtain ⟨spec, -, -, h1, -, -, h2, -⟩ := C53_package_in_graph (withTree_stable hS) env k hP hM n p hp w stdlib
    builtin m hm fr init sp hd ns hk h6
  rw [← h1] at h2
  unfold DataOf at h2
  cases hf : init.filename with
  | none => rw [hf] at h2; exact h2
  | some f =>
    rw [hf] at h2
    obtain ⟨_, h2⟩ := h2
    show containsDatafiles sfx t _ = _
    rw [← pathParts_parent]
    exact h2

/-- C35 in the graph: in every run, a package in a directory whose node says that there are data files has a data
file below the directory of its `__init__`. -/
theorem C35_graph_flagged (sfx : List Str) (t : Tree) (hS : L.Stable) (env : Env W) (k : Nat)
    (hP : ∀ k n, (env.userPost k n).Only ApiOp.NoAddNode)
    (hM : ∀ k i n, (env.userMissing k i n).Passive) (n : Nat) (p : Hook W) (hp : p.Only ApiOp.NoAddNode)
    (w : W) (stdlib : List (Str × Implies)) (builtin : Bool) (m : Node)
    (hm : m ∈ (runClient (env.withLoaders (L.withTree sfx t) k) n p (initState w stdlib builtin)).2.nodes)
    (fr : Bool) (init : InitModule) (sp : List Str) (ns : Option NsType)
    (hk : m.kind = .package fr init sp true ns) (h6 : ¬ IsSixMoves m) :
    ∃ f, init.filename = some f ∧ ∀ c, t.lookup (pathParts f).dropLast = some (.dir c) →
      ∃ q, FileAt c q ∧ IsData sfx q := by
  have h := data_of hS env k hP hM n p hp w stdlib builtin m hm hk h6
  cases hf : init.filename with
  | none => rw [hf] at h; cases h
  | some f =>
    rw [hf] at h
    exact ⟨f, rfl, fun c hc => C35_flagged sfx t _ c hc h⟩

/-- C35 in the graph, exactly: a package in a directory has the flag iff there is a data file below the directory
of its `__init__`.  Missing, as for `C35_directory_partial`: directories with data files behind their first
sub-directory, and directories that are named like modules. -/
theorem C35_graph_directory_partial (sfx : List Str) (t : Tree) (hS : L.Stable) (env : Env W) (k : Nat)
    (hP : ∀ k n, (env.userPost k n).Only ApiOp.NoAddNode)
    (hM : ∀ k i n, (env.userMissing k i n).Passive) (n : Nat) (p : Hook W) (hp : p.Only ApiOp.NoAddNode)
    (w : W) (stdlib : List (Str × Implies)) (builtin : Bool) (m : Node)
    (hm : m ∈ (runClient (env.withLoaders (L.withTree sfx t) k) n p (initState w stdlib builtin)).2.nodes)
    (fr : Bool) (init : InitModule) (sp : List Str) (hd : Bool) (ns : Option NsType)
    (hk : m.kind = .package fr init sp hd ns) (h6 : ¬ IsSixMoves m) (f : Str) (hf : init.filename = some f)
    (c : Tree) (hc : t.lookup (pathParts f).dropLast = some (.dir c)) (hs : Single sfx c) (hd' : PlainDirs sfx c) :
    hd = true ↔ ∃ q, FileAt c q ∧ IsData sfx q := by
  have h := data_of hS env k hP hM n p hp w stdlib builtin m hm hk h6
  rw [hf] at h
  dsimp only at h
  obtain ⟨b, h1, h2⟩ := C35_directory_partial sfx t _ c hc hs hd'
  rw [h1] at h
  cases h
  exact h2

/-- C35 in the graph, packages in a zip file: the flag is set iff the archive has a data file below the package. -/
theorem C35_graph_zip (sfx : List Str) (hx : ∀ x ∈ sfx, '/' ∉ x) (t : Tree) (hS : L.Stable) (env : Env W) (k : Nat)
    (hP : ∀ k n, (env.userPost k n).Only ApiOp.NoAddNode)
    (hM : ∀ k i n, (env.userMissing k i n).Passive) (n : Nat) (p : Hook W) (hp : p.Only ApiOp.NoAddNode)
    (w : W) (stdlib : List (Str × Implies)) (builtin : Bool) (m : Node)
    (hm : m ∈ (runClient (env.withLoaders (L.withTree sfx t) k) n p (initState w stdlib builtin)).2.nodes)
    (fr : Bool) (init : InitModule) (sp : List Str) (hd : Bool) (ns : Option NsType)
    (hk : m.kind = .package fr init sp hd ns) (h6 : ¬ IsSixMoves m) (f : Str) (hf : init.filename = some f)
    (zp names members : List Str) (last : Str) (hne : names ≠ []) (hz : t.lookup zp = some (.file (some members)))
    (hpath : pathParts f = zp ++ names ++ [last]) :
    hd = true ↔ ∃ q, q ≠ [] ∧ (∀ x ∈ q, '/' ∉ x) ∧ q.getLast? ≠ some [] ∧
      joinWith '/' (names ++ q) ∈ members ∧ IsData sfx (names ++ q) := by
  have h := data_of hS env k hP hM n p hp w stdlib builtin m hm hk h6
  rw [hf] at h
  dsimp only at h
  obtain ⟨b, h1, h2⟩ := C35_zip sfx hx t zp members hz names hne fun x hx =>
    (pathParts_clean f x (by rw [hpath]; simp [hx])).1
  have he : (pathParts f).dropLast = zp ++ names := by rw [hpath, List.dropLast_concat]
  rw [he, h1] at h
  cases h
  exact h2

/-- C35 in the graph, packages without file: no data files. -/
theorem C35_graph_no_file (sfx : List Str) (t : Tree) (hS : L.Stable) (env : Env W) (k : Nat)
    (hP : ∀ k n, (env.userPost k n).Only ApiOp.NoAddNode)
    (hM : ∀ k i n, (env.userMissing k i n).Passive) (n : Nat) (p : Hook W) (hp : p.Only ApiOp.NoAddNode)
    (w : W) (stdlib : List (Str × Implies)) (builtin : Bool) (m : Node)
    (hm : m ∈ (runClient (env.withLoaders (L.withTree sfx t) k) n p (initState w stdlib builtin)).2.nodes)
    (fr : Bool) (init : InitModule) (sp : List Str) (hd : Bool) (ns : Option NsType)
    (hk : m.kind = .package fr init sp hd ns) (h6 : ¬ IsSixMoves m) (hf : init.filename = none) : hd = false := by
  have h := data_of hS env k hP hM n p hp w stdlib builtin m hm hk h6
  rw [hf] at h
  exact h

/-- Bytecode packages `pkg`, in a directory, and `p` and `q`, in a zip file. -/
def dataLoaders : Loaders Unit :=
  { demoLoaders with
    getSource := fun _ w => (.ok none, w)
    getCode := fun _ w => (.ok (some (.mk 0 [] [] .nil)), w)
    isPackage := fun _ w => (.ok true, w) }

def dataEnv : Env Unit :=
  { Demo.env {} with
    findSpec := fun n w => (.ok (if n = c!"pkg" then some ⟨n, .inspect, some c!"/pkg/__init__.pyc", some [c!"/pkg"]⟩
      else if n = c!"p" ∨ n = c!"q" then
        some ⟨n, .inspect, some (c!"/lib.zip/" ++ n ++ c!"/__init__.pyc"), some [c!"/lib.zip/" ++ n]⟩
      else none), w) }

/-- The hypotheses are met: the graph has the three packages, with the flag as it should be. -/
example :
    let s := (runClient (dataEnv.withLoaders (dataLoaders.withTree [c!".py"] sampleTree) 1) 30
      (Demo.client [.addModule c!"pkg", .addModule c!"p", .addModule c!"q"]) (initState () [] true)).2
    dataLoaders.Stable ∧ (∀ m ∈ s.nodes, ¬ IsSixMoves m) ∧
    s.nodes.map (fun m => (m.ident, m.filename, match m.kind with | .package _ i _ d _ => (i.filename, d) | _ => (none, false))) =
      [(c!"pkg", some c!"/pkg", some c!"/pkg/__init__.pyc", true),
       (c!"p", some c!"/lib.zip/p", some c!"/lib.zip/p/__init__.pyc", true),
       (c!"q", some c!"/lib.zip/q", some c!"/lib.zip/q/__init__.pyc", false)] ∧
    pathParts c!"/lib.zip/p/__init__.pyc" = [c!"lib.zip"] ++ [c!"p"] ++ [c!"__init__.pyc"] := by
  intro s
  obtain ⟨h1, h2⟩ : (s.nodes.all fun m => match m.kind with
      | .package _ i _ _ _ => decide (i.name ≠ c!"@@SIX_MOVES@@") | _ => false) = true ∧
    s.nodes.map (fun m => (m.ident, m.filename, match m.kind with | .package _ i _ d _ => (i.filename, d) | _ => (none, false))) =
      [(c!"pkg", some c!"/pkg", some c!"/pkg/__init__.pyc", true),
       (c!"p", some c!"/lib.zip/p", some c!"/lib.zip/p/__init__.pyc", true),
       (c!"q", some c!"/lib.zip/q", some c!"/lib.zip/q/__init__.pyc", false)] := by
    decide +kernel
  refine ⟨⟨fun _ _ _ => rfl, fun _ _ _ _ => rfl, fun _ _ _ => rfl, fun _ _ _ => rfl⟩, ?_, h2, by decide⟩
  rintro m hm ⟨a, i, b, c, d, hk, hi⟩
  have := List.all_eq_true.mp h1 m hm
  rw [hk] at this
  simp [hi] at this

end Verif.Props
