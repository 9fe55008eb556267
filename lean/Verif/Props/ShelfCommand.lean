import Verif.Props.Shelf
import Verif.Props.CommandExample
/-!
# C75: the command line for installed distributions
-/
namespace Verif.Props
open Verif Spec Proj
variable {V W : Type}

/-- What `C75_command` says for the object that is made for a dist-info directory. -/
theorem shelf_command (S : Shelf) (J : W → Prop) (D : DistEnv W) (hS : S.OnDisk J D)
    (p : DistPart V W) (hp : ∀ s v, p.get (p.put s v) = s) (P : Project)
    (hd : P.dist = fun file => (S.owner file).bind (shelfObject S))
    (hn : P.installed = fun name => (S.named name).bind (shelfObject S))
    (table : List (Str × Implies)) (stdlib : List Str) (argv : List Arg)
    (excludes names : List Str) (dists : List Dist) (hx : ∀ x, x ∈ excludes ↔ ExcludedBy stdlib argv x)
    (hg : groups argv = [names]) (hne : names ≠ []) (hnt : (nodeTypes argv).getLast? = some .distribution)
    (hP : names.map P.installed = dists.map some) (hfm : ∀ f ∈ formats argv, f = c!"html" ∨ f = c!"dot")
    (hC : P.Clear (configured excludes table) (distModules dists) [])
    (hF : P.Fits (configured excludes table) (distModules dists) [] dists)
    (dom : List Str) (hdom : ∀ x, P.item x ≠ none → x ∈ dom)
    (sp : SysPath V) (hsp : SysPathOk sp) (w : V) (I : V → Prop) (hw : I w) (hc : (p.get w).cache = [])
    (hI : ∀ r l v, I v → I (sp.assign r l v)) (hI' : ∀ v, I v → I (sp.invalidate v))
    (hs : ∀ r l v, (p.get (sp.assign r l v)).cache = (p.get v).cache)
    (hs' : ∀ v, (p.get (sp.invalidate v)).cache = (p.get v).cache)
    (hj : ∀ v, I v → sp.path v = paths argv ++ sp.path w → J (p.get v).world)
    (hput : ∀ s v, I v → sp.path v = paths argv ++ sp.path w → J s.world →
      I (p.put s v) ∧ sp.path (p.put s v) = paths argv ++ sp.path w)
    (env : Env V) (L : Loaders V) (T : Texts V)
    (hA : P.ShowsFiles (fun v => (I v ∧ sp.path v = paths argv ++ sp.path w) ∧ Remembers (shelfObject S) (p.get v)) env L T)
    (hl : L.order.Ok) (ht : T.order.Ok) (k : Nat) (hO : env.OrderExact)
    (o : Output V) (f : Files V) (hf : OutputOk o f) (hwr : Writable o f (outputs argv).getLast?)
    (iter : St V → Iter) (hi : ObjectGraphOk iter) :
    ∃ N, ∀ n, N ≤ n → ∃ w1 w' g doc,
      main o sp (((env.withDists D p).withLoaders (L.withDists D p) (k + 1)).withTexts T) n table stdlib iter argv w =
        (.returned, w') ∧
      P.GraphWith (configured excludes table) [] [] dists g.nodes g.edges g.roots ∧
      Installed S P (names.map .addDistributionNamed) g.nodes g.edges g.roots ∧
      Document (if (formats argv).getLast? = some c!"dot" then .graphviz else .html) g doc ∧
      I w1 ∧ sp.path w1 = sp.path w ∧ WrittenTo f (outputs argv).getLast? doc w1 w' := by
  have hA' : P.ShowsFiles (fun v => (I v ∧ sp.path v = paths argv ++ sp.path w) ∧ J (p.get v).world ∧
      Remembers (shelfObject S) (p.get v)) env L T := by
    have : (fun v => (I v ∧ sp.path v = paths argv ++ sp.path w) ∧ J (p.get v).world ∧
        Remembers (shelfObject S) (p.get v)) =
        fun v => (I v ∧ sp.path v = paths argv ++ sp.path w) ∧ Remembers (shelfObject S) (p.get v) :=
      funext fun v => propext ⟨fun h => ⟨h.1, h.2.2⟩, fun h => ⟨h.1, hj v h.1.1 h.1.2, h.2⟩⟩
    rw [this]
    exact hA
  have hsh := shelf_shown S J D hS p hp _ (fun s v h hJ => hput s v h.1 h.2 hJ) P env L T hd hn hA'
  have : (fun v => (I v ∧ sp.path v = paths argv ++ sp.path w) ∧ J (p.get v).world ∧
      Remembers (shelfObject S) (p.get v)) =
      fun v => (I v ∧ Remembers (shelfObject S) (p.get v)) ∧ sp.path v = paths argv ++ sp.path w :=
    funext fun v => propext ⟨fun h => ⟨⟨h.1.1, h.2.2⟩, h.1.2⟩, fun h => ⟨⟨h.1.1, h.2⟩, hj v h.1.1 h.2, h.1.2⟩⟩
  rw [this] at hsh
  obtain ⟨N, h⟩ := C67_distributions P table stdlib argv excludes names dists hx hg hne hnt hP hfm hC hF dom hdom sp hsp w
    (fun v => I v ∧ Remembers (shelfObject S) (p.get v)) ⟨hw, fun d o h => by rw [hc] at h; cases h⟩
    (fun r l v h => ⟨hI r l v h.1, by unfold Remembers; rw [hs]; exact h.2⟩)
    (fun v h => ⟨hI' v h.1, by unfold Remembers; rw [hs']; exact h.2⟩)
    (env.withDists D p) (L.withDists D p) T hsh hl ht k hO o f hf hwr iter hi
  refine ⟨N, fun n hn' => ?_⟩
  obtain ⟨w1, w', g, doc, h1, h2, h3, h4, h5, h6⟩ := h n hn'
  refine ⟨w1, w', g, doc, h1, h2, ?_, h3, h4.1, h5, h6⟩
  refine installed_of_graph hS.suffixOk hd hn (mods := []) hC hF ?_ h2
  have hall : ∀ d, d ∈ dists ↔ ∃ x ∈ names, P.installed x = some d := by
    intro d
    have : some d ∈ names.map P.installed ↔ some d ∈ dists.map some := by rw [hP]
    simpa using this.symm
  refine ⟨by simp, by simp, fun d => by simpa using hall d, fun op ho => ?_, ?_⟩
  · obtain ⟨x, h1, rfl⟩ := List.mem_map.mp ho
    have : P.installed x ∈ dists.map some := hP ▸ List.mem_map.mpr ⟨x, h1, rfl⟩
    obtain ⟨d, _, h2⟩ := List.mem_map.mp this
    show P.installed x ≠ none
    rw [← h2]
    simp
  · simp only [ScriptsOnce, List.pairwise_map]
    exact List.pairwise_of_forall fun _ _ => by simp

/-- C75: `python -m modulegraph2 -d name ...` finds the distributions on the search path with the `-p` directories in
front, and writes the document of the graph of these, in which each has edges to what the files in its RECORD are imported by. -/
theorem C75_command (S : Shelf) (J : W → Prop) (D : DistEnv W) (hS : S.OnDisk J D) :
    ∃ read : Str → Option Dist, (∀ d, (read d).isSome = (S.info d).isSome) ∧ (∀ d x, read d = some x → S.Object d x) ∧
    ∀ (V : Type) (p : DistPart V W), (∀ s v, p.get (p.put s v) = s) → ∀ P : Project,
      P.dist = (fun file => (S.owner file).bind read) → P.installed = (fun name => (S.named name).bind read) →
    ∀ (table : List (Str × Implies)) (stdlib : List Str) (argv : List Arg) (excludes names : List Str) (dists : List Dist),
      (∀ x, x ∈ excludes ↔ ExcludedBy stdlib argv x) → groups argv = [names] → names ≠ [] →
      (nodeTypes argv).getLast? = some .distribution → names.map P.installed = dists.map some →
      (∀ f ∈ formats argv, f = c!"html" ∨ f = c!"dot") → P.Clear (configured excludes table) (distModules dists) [] →
      P.Fits (configured excludes table) (distModules dists) [] dists →
    ∀ dom : List Str, (∀ x, P.item x ≠ none → x ∈ dom) →
    ∀ sp : SysPath V, SysPathOk sp → ∀ (w : V) (I : V → Prop), I w → (p.get w).cache = [] →
      (∀ r l v, I v → I (sp.assign r l v)) → (∀ v, I v → I (sp.invalidate v)) →
      (∀ r l v, (p.get (sp.assign r l v)).cache = (p.get v).cache) →
      (∀ v, (p.get (sp.invalidate v)).cache = (p.get v).cache) →
      (∀ v, I v → sp.path v = paths argv ++ sp.path w → J (p.get v).world) →
      (∀ s v, I v → sp.path v = paths argv ++ sp.path w → J s.world →
        I (p.put s v) ∧ sp.path (p.put s v) = paths argv ++ sp.path w) →
    ∀ (env : Env V) (L : Loaders V) (T : Texts V),
      P.ShowsFiles (fun v => (I v ∧ sp.path v = paths argv ++ sp.path w) ∧ Remembers read (p.get v)) env L T →
      L.order.Ok → T.order.Ok → ∀ k : Nat, env.OrderExact →
    ∀ (o : Output V) (f : Files V), OutputOk o f → Writable o f (outputs argv).getLast? →
    ∀ iter : St V → Iter, ObjectGraphOk iter →
    ∃ N, ∀ n, N ≤ n → ∃ w1 w' g doc,
      main o sp (((env.withDists D p).withLoaders (L.withDists D p) (k + 1)).withTexts T) n table stdlib iter argv w =
        (.returned, w') ∧
      P.GraphWith (configured excludes table) [] [] dists g.nodes g.edges g.roots ∧
      Installed S P (names.map .addDistributionNamed) g.nodes g.edges g.roots ∧
      Document (if (formats argv).getLast? = some c!"dot" then .graphviz else .html) g doc ∧
      I w1 ∧ sp.path w1 = sp.path w ∧ WrittenTo f (outputs argv).getLast? doc w1 w' :=
  ⟨shelfObject S, shelfObject_isSome S, fun _ _ h => shelfObject_ok hS.suffixOk h,
    fun _ p hp P hd hn table stdlib argv excludes names dists hx hg hne hnt hP hfm hC hF dom hdom sp hsp w I hw hc hI hI' hs hs'
      hj hput env L T hA hl ht k hO o f hf hwr iter hi =>
      shelf_command S J D hS p hp P hd hn table stdlib argv excludes names dists hx hg hne hnt hP hfm hC hF dom hdom sp hsp w I
        hw hc hI hI' hs hs' hj hput env L T hA hl ht k hO o f hf hwr iter hi⟩

/-! ## Example -/

namespace Rack

/-- A world with a search path, files and what `_distributions.py` remembers. -/
abbrev World := DSt Desk

def part : DistPart World Desk := ⟨id, fun s _ => s⟩

def path : SysPath World where
  ref w := Desk.path.ref w.world
  contents w := Desk.path.contents w.world
  assign r l w := { w with world := Desk.path.assign r l w.world }
  invalidate w := { w with world := Desk.path.invalidate w.world }

theorem path_ok : SysPathOk path :=
  ⟨fun r l w => desk_path_ok.contents_assign r l w.world, fun r l w => desk_path_ok.ref_assign r l w.world,
    fun w => desk_path_ok.ref_invalidate w.world, fun w r => desk_path_ok.contents_invalidate w.world r⟩

/-- Use the files. -/
def on {α : Type} (x : Ext Desk α) : Ext World α := fun w => ((x w.world).1, { w with world := (x w.world).2 })

def files : Files World :=
  ⟨fun w => Desk.files.out w.world, fun w => Desk.files.file w.world, fun w => Desk.files.handle w.world⟩

def output : Output World where
  stdout t := on (Desk.output.stdout t)
  openFile x := on (Desk.output.openFile x)
  write h t := on (Desk.output.write h t)
  close h := on (Desk.output.close h)
  stderr w := w

theorem on_ok {α : Type} {x : Ext Desk α} {w w' : World} {a : α} (h : on x w = (.ok a, w')) :
    x w.world = (.ok a, w'.world) := by
  have h1 := congrArg Prod.fst h
  have h2 := congrArg (fun p => p.2.world) h
  exact Prod.ext h1 h2

theorem ok : OutputOk output files where
  stdout t _ u _ h := desk_ok.stdout t _ u _ (on_ok h)
  openFile x _ h _ e := desk_ok.openFile x _ h _ (on_ok e)
  write h t _ u _ x b e := desk_ok.write h t _ u _ x b (on_ok e)
  close h _ u _ x b e := desk_ok.close h _ u _ x b (on_ok e)

theorem writable : Writable output files (some c!"/out") := by
  obtain ⟨h1, h2, h3⟩ := desk_writable
  exact ⟨fun w => h1 w.world, fun h t w e => h2 h t w.world e, fun h w e => h3 h w.world e⟩

/-- The disk of `Box`, with the search path of the world. -/
def disk : DistEnv Desk where
  sysPath := Desk.path.path
  listdir := fun p w => ((Box.disk.listdir p ()).1, w)
  metadata := fun d w => ((Box.disk.metadata d ()).1, w)
  record := fun d w => ((Box.disk.record d ()).1, w)
  extSuffixes := [c!".so"]

abbrev There (w : Desk) : Prop := Desk.path.path w = [c!"/gone", c!"/lib"]

theorem onDisk : Box.shelf.OnDisk There disk where
  path := fun _ h => h
  file := Box.onDisk.file
  suffixes := rfl
  suffixOk := by decide
  entries := fun p hp l h =>
    ⟨(Box.onDisk.entries p hp l h).1, fun w hw => ⟨((Box.onDisk.entries p hp l h).2 () trivial).1, hw⟩⟩
  unlisted := fun p hp h w hw => ⟨(Box.onDisk.unlisted p hp h () trivial).1, hw⟩
  read := by
    intro p hp d hd i h
    obtain ⟨⟨fields, text, h1, h2, h3, h4⟩, text', h5, h6⟩ := Box.onDisk.read p hp d hd i h
    exact ⟨⟨fields, text, h1, h2, h3, fun w hw => ⟨(h4 () trivial).1, hw⟩⟩, text', h5, fun w hw => ⟨(h6 () trivial).1, hw⟩⟩
  unread := by
    intro p hp d hd h
    rcases Box.onDisk.unread p hp d hd h with h | ⟨fields, text, name, version, h1, h2, h3, h4, h5⟩
    · exact .inl fun w hw => ⟨(h () trivial).1, hw⟩
    · exact .inr ⟨fields, text, name, version, h1, h2, h3, fun w hw => ⟨(h4 () trivial).1, hw⟩,
        fun w hw => ⟨(h5 () trivial).1, hw⟩⟩

/-- `-p /gone -d -o /out Box` -/
def argv : List Arg := [.path c!"/gone", .nodeType .distribution, .output c!"/out", .names [c!"Box"]]

def start : World := { world := desk }

end Rack

/-- The hypotheses of `C75_command` are met. -/
example (iter : St Rack.World → Iter) (hi : ObjectGraphOk iter) : ∃ N, ∀ n, N ≤ n → ∃ w' g doc,
    main Rack.output Rack.path ((((projectEnv Box.project (fun _ => true) Rack.start).withDists Rack.disk Rack.part).withLoaders
        ((projectLoaders Box.project exOrd (fun _ _ => Box.tree) Box.codes).withDists Rack.disk Rack.part) 1).withTexts
          (projectTexts Box.project exOrd)) n [] [] iter Rack.argv Rack.start = (.returned, w') ∧
    Document .html g doc ∧ w'.world.disk.file c!"/out" = some doc ∧
    c!"/lib/Box.dist-info" ∈ g.roots ∧ (c!"/lib/Box.dist-info", c!"m", defaultDep) ∈ g.edges := by
  obtain ⟨N, h⟩ := shelf_command Box.shelf Rack.There Rack.disk Rack.onDisk Rack.part (fun _ _ => rfl) Box.project rfl rfl
    [] [] Rack.argv [] [c!"Box"] [Box.box] (by simp [ExcludedBy, Rack.argv]) rfl (by simp) rfl
    (by simp [Box.installed]) (by simp [formats, Rack.argv]) Box.clear Box.fits [c!"m"] (by
      intro x h
      simp only [Box.project] at h
      split at h <;> simp_all)
    Rack.path Rack.path_ok Rack.start (fun _ => True) trivial rfl (fun _ _ _ _ => trivial) (fun _ _ => trivial)
    (fun _ _ _ => rfl) (fun _ => rfl) (fun v _ h => h) (fun s v _ _ h => ⟨trivial, h⟩)
    (projectEnv Box.project (fun _ => true) Rack.start)
    (projectLoaders Box.project exOrd (fun _ _ => Box.tree) Box.codes) (projectTexts Box.project exOrd)
    (project_shows Box.compiled fun _ _ => rfl).toShowsFiles exOrd_ok exOrd_ok 0 (fun _ _ _ => Iff.rfl)
    Rack.output Rack.files Rack.ok Rack.writable iter hi
  refine ⟨N, fun n hn => ?_⟩
  obtain ⟨w1, w', g, doc, h1, -, h2, h3, -, -, h4⟩ := h n hn
  obtain ⟨k1, -, k2, -⟩ := h2.asked c!"Box" c!"/lib/Box.dist-info" _ (by simp) Box.named rfl
  refine ⟨w', g, doc, h1, h3, h4.1, k1, (k2 _ _).mpr ⟨rfl, ⟨c!"m.py", c!"h", c!"5"⟩, by simp, ?_⟩⟩
  exact .module (dirs := []) (base := c!"m") (suffix := c!".py") rfl (by decide) ⟨[], _, rfl, by decide, by decide⟩ (by decide)
    (by decide)

end Verif.Props
