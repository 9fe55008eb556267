import Verif.Proofs.Shelf
import Verif.Props.ProjectExample
/-!
# C75: from the RECORD files of installed distributions to the graph
-/
namespace Verif.Props
open Verif Spec Proj
variable {V W : Type}

/-- What `C75_shown` says for the object that is made for a dist-info directory. -/
theorem shelf_shown (S : Shelf) (J : W → Prop) (D : DistEnv W) (hS : S.OnDisk J D)
    (p : DistPart V W) (hp : ∀ s v, p.get (p.put s v) = s)
    (I : V → Prop) (hI : ∀ s v, I v → J s.world → I (p.put s v))
    (P : Project) (env : Env V) (L : Loaders V) (T : Texts V)
    (hd : P.dist = fun file => (S.owner file).bind (shelfObject S))
    (hn : P.installed = fun name => (S.named name).bind (shelfObject S))
    (h : P.ShowsFiles (fun v => I v ∧ J (p.get v).world ∧ Remembers (shelfObject S) (p.get v)) env L T) :
    P.Shows (fun v => I v ∧ J (p.get v).world ∧ Remembers (shelfObject S) (p.get v)) (env.withDists D p)
      (L.withDists D p) T := by
  have hkeep : ∀ {s : DSt W} {v : V}, I v → ShelfState S J s → (fun v => I v ∧ J (p.get v).world ∧
      Remembers (shelfObject S) (p.get v)) (p.put s v) := fun {s v} hv hs =>
    ⟨hI s v hv hs.1, by rw [hp]; exact hs.1, by rw [hp]; exact hs.2⟩
  refine { h with distribution := ?_, installed := ?_ }
  · intro x it file _ _ v hv
    have h1 := shelf_owner hS file hv.2
    rw [hd]
    exact ⟨h1.2, hkeep hv.1 h1.1⟩
  · intro name d h v hv
    have h1 := shelf_named hS name hv.2
    rw [hn] at h
    rw [← h]
    exact ⟨h1.2, hkeep hv.1 h1.1⟩

/-- C75: with the functions of `_distributions.py`, installed distributions are looked up as they are on disk: by the
first RECORD on the search path with the file, and by the first METADATA with the name. -/
theorem C75_shown (S : Shelf) (J : W → Prop) (D : DistEnv W) (hS : S.OnDisk J D) :
    ∃ read : Str → Option Dist, (∀ d, (read d).isSome = (S.info d).isSome) ∧ (∀ d x, read d = some x → S.Object d x) ∧
    ∀ (V : Type) (p : DistPart V W), (∀ s v, p.get (p.put s v) = s) →
    ∀ I : V → Prop, (∀ s v, I v → J s.world → I (p.put s v)) →
    ∀ (P : Project) (env : Env V) (L : Loaders V) (T : Texts V),
      P.dist = (fun file => (S.owner file).bind read) → P.installed = (fun name => (S.named name).bind read) →
      let K := fun v => I v ∧ J (p.get v).world ∧ Remembers read (p.get v)
      P.ShowsFiles K env L T → P.Shows K (env.withDists D p) (L.withDists D p) T := by
  exact ⟨shelfObject S, shelfObject_isSome S, fun d x h => shelfObject_ok hS.suffixOk h,
    fun V p hp I hI P env L T hd hn h => shelf_shown S J D hS p hp I hI P env L T hd hn h⟩

/-- What a client finds in the graph of installed distributions. -/
structure Installed (S : Shelf) (P : Project) (ops : List ApiOp) (nodes : List Node)
    (edges : List (Str × Str × DepInfo)) (roots : List Str) : Prop where
  /-- the distributions that were asked for by name -/
  asked : ∀ name d i, .addDistributionNamed name ∈ ops → S.named name = some d → S.info d = some i →
    d ∈ roots ∧ (∃ x, S.Object d x ∧ { ident := d, kind := .dist x } ∈ nodes) ∧
    (∀ m e, (d, m, e) ∈ edges ↔
      e = defaultDep ∧ ∃ row ∈ i.rows, ImportedBy (c!".py" :: c!".pyc" :: S.suffixes) row.path m) ∧
    ∀ m e, (d, m, e) ∈ edges → ∃ n ∈ nodes, n.ident = m
  /-- the distributions of modules -/
  modules : ∀ n ∈ nodes, n.isLoaded = true → ∀ it file, P.item n.ident = some it → it.file = some file →
    (n.distribution = none ↔ S.owner file = none) ∧
    ∀ d, S.owner file = some d → ∃ x, n.distribution = some x ∧ S.Object d x

theorem named_dirs {S : Shelf} {name d} (h : S.named name = some d) : ∃ i, S.info d = some i ∧ i.name = name := by
  have := List.find?_some h
  cases hi : S.info d with
  | none => rw [hi] at this; cases this
  | some i => rw [hi] at this; exact ⟨i, rfl, by simpa using this⟩

theorem owner_dirs {S : Shelf} {file d} (h : S.owner file = some d) : S.info d ≠ none := by
  have := List.find?_some h
  intro hi
  rw [hi] at this
  cases this

theorem edge_place {P : Project} {conf : Str → Option Implies} {mods scripts : List Str}
    (hC : P.Clear conf mods scripts) {a b e} (h : P.Edge conf mods scripts a b e) : '/' ∉ a ∨ a ∈ scripts := by
  have ht : ∀ {x pkg tree}, P.Reached conf mods scripts (.text x pkg tree) → '/' ∉ x ∨ x ∈ scripts := by
    intro x pkg tree h
    cases h with
    | text h _ => exact .inl (proper_slash (reached_proper hC h))
    | script h _ => exact .inr h
  cases h with
  | imports h => exact ht h
  | froms h => exact ht h
  | outside h => exact ht h
  | names h => exact ht h
  | passedOn h => exact ht h
  | package h => exact .inl (proper_slash (reached_proper hC h))
  | along h => exact .inl (proper_slash (reached_proper hC h))
  | implied h => exact .inl (proper_slash (reached_proper hC h))

/-- What follows for a client from the description of the graph. -/
theorem installed_of_graph {S : Shelf} (hsuf : ∀ x ∈ S.suffixes, x ≠ [] ∧ '/' ∉ x) {P : Project}
    (hd : P.dist = fun file => (S.owner file).bind (shelfObject S))
    (hn : P.installed = fun name => (S.named name).bind (shelfObject S))
    {conf : Str → Option Implies} {mods scripts : List Str} {dists : List Dist}
    (hC : P.Clear conf (mods ++ distModules dists) scripts) (hfit : P.Fits conf (mods ++ distModules dists) scripts dists)
    {ops : List ApiOp} (ha : P.AddsAll mods scripts dists ops) {nodes edges roots}
    (r4 : P.GraphWith conf mods scripts dists nodes edges roots) : Installed S P ops nodes edges roots := by
  have h1 := shelfObject_isSome S
  have h2 : ∀ d x, shelfObject S d = some x → S.Object d x := fun d x h => shelfObject_ok hsuf h
  refine ⟨?_, ?_⟩
  · intro name d i ho hnd hi
    have hr : (shelfObject S d).isSome = true := by rw [h1, hi]; rfl
    obtain ⟨x, hx⟩ := Option.isSome_iff_exists.mp hr
    have hob := h2 d x hx
    have hin : P.installed name = some x := by rw [hn]; simp [hnd, hx]
    have hxd : x ∈ dists := (ha.dist x).mpr (.inr ⟨name, ho, hin⟩)
    obtain ⟨i', hi', -, -, -, hnames⟩ := hob.contents
    rw [hi] at hi'
    cases hi'
    have hed : ∀ m e, (d, m, e) ∈ edges ↔ e = defaultDep ∧ m ∈ x.importNames := by
      intro m e
      rw [r4.edges]
      constructor
      · rintro (h | ⟨x', hx', e1, e2, e3⟩)
        · obtain ⟨f1, -, f3⟩ := hfit.place x hxd
          rw [hob.identifier] at f1 f3
          rcases edge_place hC h with h | h
          · exact absurd f1 h
          · exact absurd h f3
        · have := hfit.same x hxd x' hx' (hob.identifier.trans e1)
          subst this
          exact ⟨e3, e2⟩
      · rintro ⟨e1, e2⟩
        exact .inr ⟨x, hxd, hob.identifier.symm, e2, e1⟩
    refine ⟨(r4.roots d).mpr (.inr (.inr ⟨x, hxd, hob.identifier.symm⟩)), ⟨x, hob, ?_⟩, ?_, ?_⟩
    · exact (r4.nodes _).mpr (.inr (.inr (.inr ⟨x, hxd, by rw [hob.identifier]⟩)))
    · intro m e
      rw [hed, hnames]
    · intro m e hm
      rw [hed] at hm
      obtain ⟨q, hq⟩ := of_exists (P := P) (conf := conf) m
      refine ⟨q, (r4.nodes q).mpr (.inl ⟨m, .inl (.asked ?_), hq⟩), of_ident hq⟩
      exact List.mem_append.mpr (.inr (List.mem_flatMap.mpr ⟨x, hxd, hm.2⟩))
  · intro q hq hloaded it file hi hf
    have hdist : q.distribution = (S.owner file).bind (shelfObject S) := by
      rcases (r4.nodes q).mp hq with ⟨x, -, hx⟩ | ⟨path, hp', rfl⟩ | ⟨y, hy, rfl⟩ | ⟨x, hx, rfl⟩
      · have hid := of_ident hx
        rcases shape hx with rfl | rfl | ⟨t, rfl⟩ | ⟨t, rfl⟩ | rfl <;> first | (cases hloaded; done) | skip
        rw [hid] at hi
        rw [← congrFun hd file]
        unfold Project.node
        rw [hi]
        cases it <;> simp_all [Spec.Item.file]
      · cases hloaded
      · cases hloaded
      · cases hloaded
    rw [hdist]
    refine ⟨?_, ?_⟩
    · cases ho : S.owner file with
      | none => simp
      | some d =>
        have := owner_dirs ho
        have h4 := h1 d
        cases hi : S.info d with
        | none => exact absurd hi this
        | some i =>
          rw [hi] at h4
          obtain ⟨x, hx⟩ := Option.isSome_iff_exists.mp h4
          simp [hx]
    · intro d ho
      have := owner_dirs ho
      have h4 := h1 d
      cases hi : S.info d with
      | none => exact absurd hi this
      | some i =>
        rw [hi] at h4
        obtain ⟨x, hx⟩ := Option.isSome_iff_exists.mp h4
        exact ⟨x, by rw [ho]; exact hx, h2 d x hx⟩

/-- What `C75_graph` says for the object that is made for a dist-info directory. -/
theorem shelf_graph (S : Shelf) (J : W → Prop) (D : DistEnv W) (hS : S.OnDisk J D)
    (p : DistPart V W) (hp : ∀ s v, p.get (p.put s v) = s) (I : V → Prop) (hI : ∀ s v, I v → J s.world → I (p.put s v))
    (P : Project) (env : Env V) (L : Loaders V) (T : Texts V)
    (hd : P.dist = fun file => (S.owner file).bind (shelfObject S))
    (hn : P.installed = fun name => (S.named name).bind (shelfObject S))
    (hF : P.ShowsFiles (fun v => I v ∧ J (p.get v).world ∧ Remembers (shelfObject S) (p.get v)) env L T)
    (hl : L.order.Ok) (ht : T.order.Ok) (hO : env.OrderExact)
    (table implies : List (Str × Implies)) (excludes mods scripts : List Str) (dists : List Dist) (dom : List Str)
    (hC : P.Clear (configured excludes (table ++ implies)) (mods ++ distModules dists) scripts)
    (hfit : P.Fits (configured excludes (table ++ implies)) (mods ++ distModules dists) scripts dists)
    (hdom : ∀ x, P.item x ≠ none → x ∈ dom) (k : Nat) (ops : List ApiOp) (ha : P.AddsAll mods scripts dists ops)
    (v : V) (hv : I v) (hj : J (p.get v).world) (hc : (p.get v).cache = []) (builtin : Bool) :
    ∃ N, ∀ n, N ≤ n →
      let r := runClient (((env.withDists D p).withLoaders (L.withDists D p) (k + 1)).withTexts T) n
        (configureThen excludes implies (doAll ops)) (initState v table builtin)
      r.1 = .ok none ∧ Event.failed ∉ r.2.log ∧
      P.GraphWith (configured excludes (table ++ implies)) mods scripts dists r.2.nodes r.2.edges r.2.roots ∧
      Installed S P ops r.2.nodes r.2.edges r.2.roots := by
  obtain ⟨N, h⟩ := C66_installed P table implies excludes mods scripts dists hC hfit dom hdom _ _ _ T
    (shelf_shown S J D hS p hp I hI P env L T hd hn hF) hl ht k hO ops ha v
    ⟨hv, hj, fun d o h => by rw [hc] at h; cases h⟩ builtin
  refine ⟨N, fun n hn' => ?_⟩
  obtain ⟨r1, r2, -, r4⟩ := h n hn'
  exact ⟨r1, r2, r4, installed_of_graph hS.suffixOk hd hn hC hfit ha r4⟩

/-- C75: a client adds modules, scripts, pieces of source code and distributions to a graph, also distributions by name.
The node of a distribution is that of the first dist-info directory on the search path with the name; its edges go
to what the files in its RECORD are imported by; and modules have the distribution whose RECORD has their file. -/
theorem C75_graph (S : Shelf) (J : W → Prop) (D : DistEnv W) (hS : S.OnDisk J D) :
    ∃ read : Str → Option Dist, (∀ d, (read d).isSome = (S.info d).isSome) ∧ (∀ d x, read d = some x → S.Object d x) ∧
    ∀ (V : Type) (p : DistPart V W), (∀ s v, p.get (p.put s v) = s) →
    ∀ I : V → Prop, (∀ s v, I v → J s.world → I (p.put s v)) →
    ∀ (P : Project) (env : Env V) (L : Loaders V) (T : Texts V),
      P.dist = (fun file => (S.owner file).bind read) → P.installed = (fun name => (S.named name).bind read) →
      let K := fun v => I v ∧ J (p.get v).world ∧ Remembers read (p.get v)
      P.ShowsFiles K env L T → L.order.Ok → T.order.Ok → env.OrderExact →
    ∀ (table implies : List (Str × Implies)) (excludes mods scripts : List Str) (dists : List Dist) (dom : List Str),
      P.Clear (configured excludes (table ++ implies)) (mods ++ distModules dists) scripts →
      P.Fits (configured excludes (table ++ implies)) (mods ++ distModules dists) scripts dists →
      (∀ x, P.item x ≠ none → x ∈ dom) →
    ∀ (k : Nat) (ops : List ApiOp), P.AddsAll mods scripts dists ops →
    ∀ v, I v → J (p.get v).world → (p.get v).cache = [] → ∀ builtin : Bool,
      ∃ N, ∀ n, N ≤ n →
        let r := runClient (((env.withDists D p).withLoaders (L.withDists D p) (k + 1)).withTexts T) n
          (configureThen excludes implies (doAll ops)) (initState v table builtin)
        r.1 = .ok none ∧ Event.failed ∉ r.2.log ∧
        P.GraphWith (configured excludes (table ++ implies)) mods scripts dists r.2.nodes r.2.edges r.2.roots ∧
        Installed S P ops r.2.nodes r.2.edges r.2.roots := by
  exact ⟨shelfObject S, shelfObject_isSome S, fun d x h => shelfObject_ok hS.suffixOk h,
    fun V p hp I hI P env L T hd hn hF hl ht hO table implies excludes mods scripts dists dom hC hfit hdom k ops ha
      v hv hj hc builtin => shelf_graph S J D hS p hp I hI P env L T hd hn hF hl ht hO table implies excludes mods scripts
        dists dom hC hfit hdom k ops ha v hv hj hc builtin⟩

/-! ## Example -/

namespace Box

def tree : Ast := .other []
/-- A distribution with a module, and one that cannot be read. -/
def shelf : Shelf where
  path := [c!"/gone", c!"/lib"]
  list p := if p = c!"/lib" then some [c!"m.py", c!"Box.dist-info", c!"z.dist-info"] else none
  info d := if d = c!"/lib/Box.dist-info" then
      some ⟨c!"Box", c!"1", [⟨c!"m.py", c!"h", c!"5"⟩, ⟨c!"Box.dist-info/RECORD", [], []⟩]⟩
    else none
  file := Verif.absPath
  suffixes := [c!".so"]

def disk : DistEnv Unit where
  sysPath := fun _ => [c!"/gone", c!"/lib"]
  listdir := fun p w => (if p = c!"/lib" then .ok [c!"m.py", c!"Box.dist-info", c!"z.dist-info"] else .error .osError, w)
  metadata := fun d w =>
    (if d = c!"/lib/Box.dist-info" then .ok c!"Name: Box\nVersion: 1\n" else .error .osError, w)
  record := fun _ w => (.ok c!"m.py,h,5\n\"Box.dist-info/RECORD\",,\n", w)
  extSuffixes := [c!".so"]

def fields : List Meta.Field := [⟨c!"Name", c!" ", c!"Box", []⟩, ⟨c!"Version", c!" ", c!"1", []⟩]

theorem metadata : Meta.File fields c!"Name: Box\nVersion: 1\n" := by
  refine ⟨[], fields.map .field, [], .lf (l := c!"Name: Box") ⟨by decide, by decide⟩
    (.lf (l := c!"Version: 1") ⟨by decide, by decide⟩ .nil), by simp, ?_, rfl, fun l r h => by cases h⟩
  intro p hp
  obtain ⟨f, hf, rfl⟩ := List.mem_map.mp hp
  have hb : ∀ c, c = ' ' ∨ c = '\t' → Meta.Blank c := fun _ h => h
  simp only [fields, List.mem_cons, List.not_mem_nil, or_false] at hf
  rcases hf with rfl | rfl <;>
    exact ⟨by decide, (by intro c hc; exact hb c (by revert c; decide)), ⟨⟨by decide, by decide⟩, by
      intro c r h; cases h; unfold Meta.Blank; decide⟩, fun l hl => by cases hl⟩

theorem says : Meta.Says fields c!"Name" c!"Box" ∧ Meta.Says fields c!"Version" c!"1" := by
  simp only [← C77_value metadata]
  decide +kernel

theorem onDisk : shelf.OnDisk (fun _ => True) disk where
  path := fun _ _ => rfl
  file := by
    intro p _ name hn rel
    obtain ⟨f, hf⟩ := from_exists p rel
    show Path.From p rel (Verif.absPath (inDir p name) rel)
    rw [C76_file hn hf]
    exact hf
  suffixes := rfl
  suffixOk := by decide
  entries := by
    intro p _ l h
    simp only [shelf] at h
    split at h
    · rename_i hp
      cases h
      exact ⟨by decide, fun w _ => ⟨by simp [disk, hp], trivial⟩⟩
    · cases h
  unlisted := by
    intro p _ h w _
    simp only [shelf] at h
    split at h
    · cases h
    · rename_i hp
      exact ⟨by simp [disk, hp], trivial⟩
  read := by
    intro p _ d _ i h
    simp only [shelf] at h
    split at h
    · rename_i hd
      cases h
      refine ⟨⟨fields, _, metadata, says.1, says.2, fun w _ => ⟨by simp [disk, hd], trivial⟩⟩, c!"m.py,h,5\n\"Box.dist-info/RECORD\",,\n", ?_, fun w _ => ⟨rfl, trivial⟩⟩
      exact .cons (row := ⟨c!"m.py", c!"h", c!"5"⟩) (text := c!"\"Box.dist-info/RECORD\",,\n") (field := c!"m.py")
        (eol := ['\n']) ⟨by decide, by decide⟩ ⟨by decide, by decide⟩ (by decide) ⟨by decide, by decide⟩ (by decide) (.plain (by decide)) (.inl rfl)
        (.cons (row := ⟨c!"Box.dist-info/RECORD", [], []⟩) (text := []) (field := c!"\"Box.dist-info/RECORD\"")
          (eol := ['\n']) ⟨by decide, by decide⟩ ⟨by decide, by decide⟩ (by decide) ⟨by decide, by decide⟩ (by decide) .quoted (.inl rfl) .nil)
    · cases h
  unread := by
    intro p _ d _ h
    simp only [shelf] at h
    split at h
    · cases h
    · rename_i hd
      exact .inl fun w _ => ⟨by simp [disk, hd], trivial⟩

def project : Project where
  item x := if x = c!"m" then some (.source c!"/lib/m.py" c!"M" tree [] []) else none
  script := fun _ => none
  parent := fun _ => c!"/lib"
  resolve := fun p => p
  dist := fun file => (shelf.owner file).bind (shelfObject shelf)
  installed := fun name => (shelf.named name).bind (shelfObject shelf)

def box : Dist where
  identifier := c!"/lib/Box.dist-info"
  name := c!"Box"
  version := c!"1"
  files := [c!"/lib/m.py", c!"/lib/Box.dist-info/RECORD"]
  importNames := [c!"m"]

theorem object : shelfObject shelf c!"/lib/Box.dist-info" = some box := by decide +kernel
theorem named : shelf.named c!"Box" = some c!"/lib/Box.dist-info" := by decide +kernel
theorem owner : shelf.owner c!"/lib/m.py" = some c!"/lib/Box.dist-info" := by decide +kernel

theorem installed : project.installed c!"Box" = some box := by
  show (shelf.named c!"Box").bind (shelfObject shelf) = _
  rw [named]
  exact object

theorem objects {d x} (h : shelfObject shelf d = some x) : x = box := by
  by_cases hd : d = c!"/lib/Box.dist-info"
  · subst hd
    rw [object] at h
    exact (Option.some.inj h).symm
  · simp [shelfObject, shelf, hd] at h

noncomputable abbrev conf : Str → Option Implies := configured [] ([] ++ [])

theorem conf_cases {x v} (h : conf x = some v) : v = .excluded := by
  unfold conf configured at h
  split at h
  · exact (Option.some.inj h).symm
  · simp at h

theorem not_alias {x t} : ¬ project.Along conf x t := by
  intro h
  rcases alias_conf (along_alias (fun _ => rfl) h) with h | h <;> cases conf_cases h
theorem not_implied {x r} : ¬ Project.Implied conf x r := by
  rintro ⟨l, h, _⟩
  cases conf_cases h

theorem no_from {way m names l} (h : Nested tree way (.importFrom m names l)) : False := by
  cases h with
  | plain h => cases h

theorem no_import {way t a} (h : HasImport tree way t a) : False := by
  obtain ⟨names, h, -⟩ := h
  cases h with
  | plain h => cases h

def Bound : Place → Prop
  | .module x => x = c!"m"
  | .text x pkg t => x = c!"m" ∧ pkg = false ∧ t = tree

theorem bound {pl} (h : project.Reached conf [c!"m"] [] pl) : Bound pl := by
  induction h with
  | asked h => exact List.mem_singleton.mp h
  | package _ h ih => rw [show _ = c!"m" from ih] at h; exact absurd h.dot (by decide)
  | along _ h => exact absurd h not_alias
  | implied _ _ h => exact absurd h not_implied
  | text _ h ih =>
    have h := h.1
    rw [show _ = c!"m" from ih] at h ⊢
    cases h
    exact ⟨rfl, rfl, rfl⟩
  | script h => cases h
  | imports _ h ih => obtain ⟨-, -, rfl⟩ := ih; exact (no_import h).elim
  | froms _ h ih => obtain ⟨-, -, rfl⟩ := ih; obtain ⟨_, _, h, -⟩ := h; exact (no_from h).elim
  | names _ h _ _ _ _ _ ih => obtain ⟨-, -, rfl⟩ := ih; obtain ⟨_, _, h, -⟩ := h; exact (no_from h).elim

theorem froms {x pkg t way u names} (h1 : project.Reached conf [c!"m"] [] (.text x pkg t))
    (h2 : HasFrom x pkg t way u names) : False := by
  obtain ⟨-, -, rfl⟩ := bound h1
  obtain ⟨_, _, h, -⟩ := h2
  exact no_from h

theorem clear : project.Clear conf [c!"m"] [] where
  mentioned := by
    intro x h
    have : x = c!"m" := by
      cases h with
      | asked h => exact List.mem_singleton.mp h
      | imports h1 h2 => exact bound (.imports h1 h2)
      | froms h1 h2 => exact bound (.froms h1 h2)
      | along _ h => exact absurd h not_alias
      | implied _ h => exact absurd h not_implied
    subst this
    exact ⟨[c!"m"], by decide, rfl, by decide⟩
  names := by
    intro x pkg t way name names level h1 h2
    obtain ⟨-, -, rfl⟩ := bound h1
    exact (no_from h2).elim
  script := fun x h => by cases h
  noEmpty := rfl
  noSix := by simp [project]
  noSwig := by
    intro x h
    rw [show x = c!"m" from bound h]
    simp [Project.globals, project]
  noMypyc := by
    intro x file d h
    simp only [project] at h
    split at h <;> cases h
  tried := fun x l h hc => by cases conf_cases hc
  once := by
    intro y p q h hp
    rw [show y = c!"m" from bound h] at hp
    exact absurd hp.dot (by decide)
  passedOn := fun x pkg t way u names v nm a h1 h2 => (froms h1 h2).elim
  static := by
    rintro t nm ⟨x, pkg, tr, way, t', ns, a, h1, h2, -⟩
    exact (froms h1 h2).elim
  variables := by
    rintro t nm ⟨x, pkg, tr, way, t', ns, a, h1, h2, -⟩
    exact (froms h1 h2).elim

theorem fits : project.Fits conf ([] ++ distModules [box]) [] [box] where
  place := by
    intro d hd
    cases List.mem_singleton.mp hd
    decide
  same := by
    intro d hd d' hd' _
    rw [List.mem_singleton.mp hd, List.mem_singleton.mp hd']
  config := by
    rintro x t (h | h | h)
    · cases conf_cases h
    · cases conf_cases h
    · exact absurd h not_implied
  passedOn := fun x pkg t way u names v nm a h1 h2 => (froms h1 h2).elim

def codes (_ : Str) : Code := .mk 0 [] [] .nil

theorem compiled : Compiled project (fun _ _ => tree) codes where
  source := by
    intro x file text t g r h
    rcases h with h | ⟨path, data, h⟩ <;> simp only [project] at h <;> split at h <;> simp at h
    obtain ⟨rfl, rfl, rfl, rfl, rfl⟩ := h
    exact ⟨rfl, [], by unfold codes; decide +kernel⟩
  package := by
    intro x file text t g r path data h
    simp only [project] at h
    split at h <;> simp at h
  other := by
    intro x it h
    simp only [project] at h
    repeat' split at h
    all_goals first | cases h; trivial | cases h

/-- The state of `_distributions.py` is all there is to the world. -/
def part : DistPart (DSt Unit) Unit := ⟨id, fun s _ => s⟩

end Box

/-- The hypotheses of `C75_graph` are met: the distribution `Box` is found on disk, its module is in the graph, and belongs to
it. -/
example : ∃ N, ∀ n, N ≤ n →
    let r := runClient ((((projectEnv Box.project (fun _ => true) { world := () }).withDists Box.disk Box.part).withLoaders
        ((projectLoaders Box.project exOrd (fun _ _ => Box.tree) Box.codes).withDists Box.disk Box.part) 1).withTexts
          (projectTexts Box.project exOrd)) n
      (configureThen [] [] (doAll [.addDistributionNamed c!"Box"])) (initState { world := () } [] true)
    r.1 = .ok none ∧ (∀ m e, (c!"/lib/Box.dist-info", m, e) ∈ r.2.edges ↔ m = c!"m" ∧ e = defaultDep) ∧
    ∃ n ∈ r.2.nodes, n.ident = c!"m" ∧ n.distribution = some Box.box := by
  obtain ⟨N, h⟩ := shelf_graph Box.shelf (fun _ => True) Box.disk Box.onDisk Box.part (fun _ _ => rfl) (fun _ => True)
    (fun _ _ _ _ => trivial) Box.project (projectEnv Box.project (fun _ => true) { world := () })
    (projectLoaders Box.project exOrd (fun _ _ => Box.tree) Box.codes) (projectTexts Box.project exOrd) rfl rfl
    (project_shows Box.compiled fun _ _ => rfl).toShowsFiles exOrd_ok exOrd_ok (fun _ _ _ => Iff.rfl)
    [] [] [] [] [] [Box.box] [c!"m"] Box.clear Box.fits (by
      intro x h
      simp only [Box.project] at h
      split at h <;> simp_all) 0 [.addDistributionNamed c!"Box"]
    ⟨by simp, by simp, fun d => by simp [Box.installed, eq_comm], by simp [Box.installed], by simp [ScriptsOnce]⟩
    { world := () } trivial trivial rfl true
  refine ⟨N, fun n hn => ?_⟩
  obtain ⟨h1, -, h2, h3⟩ := h n hn
  refine ⟨h1, fun m e => ?_, ?_⟩
  · rw [h2.edges]
    constructor
    · rintro (h | ⟨d, hd, -, hm, he⟩)
      · rcases edge_place Box.clear h with h | h
        · exact absurd (by decide) h
        · cases h
      · cases List.mem_singleton.mp hd
        exact ⟨List.mem_singleton.mp hm, he⟩
    · rintro ⟨rfl, rfl⟩
      exact .inr ⟨Box.box, by simp, rfl, by decide, rfl⟩
  · have ht : Box.project.NodeOf Box.conf c!"m" (Box.project.node c!"m") := by
      rw [of_top (by decide), own_plain (.inl (by
        unfold Box.conf configured
        rw [if_neg (by simp)]
        rfl))]
    refine ⟨_, (h2.nodes _).mpr (.inl ⟨c!"m", .inl (.asked (by decide)), ht⟩), rfl, ?_⟩
    show (Box.shelf.owner c!"/lib/m.py").bind (shelfObject Box.shelf) = some Box.box
    rw [Box.owner]
    exact Box.object

end Verif.Props
