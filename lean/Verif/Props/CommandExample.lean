import Verif.Props.Command
import Verif.Props.ProjectExample
/-!
# C67: an example
-/
namespace Verif.Props
open Verif Spec Proj

section
variable {P : Project} {conf : Str → Option Implies} {mods mods' scripts scripts' : List Str}

theorem Reached.more (hm : ∀ x ∈ mods, x ∈ mods') (hs : ∀ x ∈ scripts, x ∈ scripts') {pl}
    (h : P.Reached conf mods scripts pl) : P.Reached conf mods' scripts' pl := by
  induction h with
  | asked h => exact .asked (hm _ h)
  | package _ h ih => exact .package ih h
  | along _ h ih => exact .along ih h
  | implied _ h h' ih => exact .implied ih h h'
  | text _ h ih => exact .text ih h
  | script h h' => exact .script (hs _ h) h'
  | imports _ h ih => exact .imports ih h
  | froms _ h ih => exact .froms ih h
  | names _ h h1 h2 h3 h4 h5 ih => exact .names ih h h1 h2 h3 h4 h5

theorem Tried.more (hm : ∀ x ∈ mods, x ∈ mods') (hs : ∀ x ∈ scripts, x ∈ scripts') {x}
    (h : P.Tried conf mods scripts x) : P.Tried conf mods' scripts' x := by
  obtain ⟨h1, h2, h3, h4, h5, h6, h7⟩ := h
  exact .mk (Reached.more hm hs h1) h2 h3 h4 h5 h6 h7

theorem Edge.more (hm : ∀ x ∈ mods, x ∈ mods') (hs : ∀ x ∈ scripts, x ∈ scripts') {x b d}
    (h : P.Edge conf mods scripts x b d) : P.Edge conf mods' scripts' x b d := by
  have hr := fun {pl} => Reached.more (P := P) (conf := conf) hm hs (pl := pl)
  induction h with
  | imports h1 h2 h3 => exact .imports (hr h1) h2 h3
  | froms h1 h2 h3 => exact .froms (hr h1) h2 h3
  | outside h1 h2 h3 => exact .outside (hr h1) h2 h3
  | names h1 h2 hs h3 h4 hne h5 h6 => exact .names (hr h1) h2 hs h3 h4 hne h5 h6
  | package h1 h2 => exact .package (hr h1) h2
  | along h1 h2 => exact .along (hr h1) h2
  | implied h1 h2 h3 => exact .implied (hr h1) h2 h3
  | passedOn h1 h2 h3 h4 h5 h6 h7 _ h8 h9 ih => exact .passedOn (hr h1) h2 h3 h4 h5 h6 h7 ih h8 h9

theorem Leads.more (hm : ∀ x ∈ mods, x ∈ mods') (hs : ∀ x ∈ scripts, x ∈ scripts') {x y}
    (h : P.Leads conf mods scripts x y) : P.Leads conf mods' scripts' x y := by
  induction h with
  | here => exact .here
  | on _ h ih => exact .on ih (Edge.more hm hs h)

theorem Behind.more (hm : ∀ x ∈ mods, x ∈ mods') (hs : ∀ x ∈ scripts, x ∈ scripts') {x y}
    (h : P.Behind conf mods scripts x y) : P.Behind conf mods' scripts' x y := by
  obtain ⟨z, h1, h2⟩ := h
  refine ⟨z, ?_, Leads.more hm hs h2⟩
  cases h1 with
  | self => exact .self
  | linked h1 h2 => exact .linked h1 h2
  | together h1 h2 h3 h4 => exact .together (h1.imp (Reached.more hm hs) (Tried.more hm hs)) h2 h3 h4
  | names h1 h2 h3 h4 h5 h6 h7 h8 h9 => exact .names (Reached.more hm hs h1) h2 h3 h4 h5 h6 h7 h8 h9

/-- The edges of a module do not depend on what else is in the graph. -/
theorem Edge.here (hC : P.Clear conf mods' scripts') (hm : ∀ x ∈ mods, x ∈ mods') (hs : ∀ x ∈ scripts, x ∈ scripts')
    {u b d} (h : P.Edge conf mods' scripts' u b d) (hu : P.Reached conf mods scripts (.module u)) :
    P.Edge conf mods scripts u b d := by
  have text : ∀ {u pkg tree}, P.Reached conf mods scripts (.module u) → P.Reached conf mods' scripts' (.text u pkg tree) →
      P.Reached conf mods scripts (.text u pkg tree) := by
    intro u pkg tree hu h
    cases h with
    | text _ h => exact .text hu h
    | script h => exact absurd (hC.script _ h).2.1 (proper_slash (reached_proper hC (Reached.more hm hs hu)))
  induction h with
  | imports h1 h2 h3 => exact .imports (text hu h1) h2 h3
  | froms h1 h2 h3 => exact .froms (text hu h1) h2 h3
  | outside h1 h2 h3 => exact .outside (text hu h1) h2 h3
  | names h1 h2 hs h3 h4 hne h5 h6 => exact .names (text hu h1) h2 hs h3 h4 hne h5 h6
  | package h1 h2 => exact .package hu h2
  | along h1 h2 => exact .along hu h2
  | implied h1 h2 h3 => exact .implied hu h2 h3
  | passedOn h1 h2 h3 h4 h5 h6 h7 _ h8 h9 ih =>
    exact .passedOn (text hu h1) h2 h3 h4 h5 h6 h7 (ih (source_reached (text hu h1) h2 h3)) h8 h9

theorem ByText.here (hC : P.Clear conf mods' scripts') (hm : ∀ x ∈ mods, x ∈ mods') (hs : ∀ x ∈ scripts, x ∈ scripts')
    {u b d} (h : P.ByText conf mods' scripts' u b d) (hu : P.Reached conf mods scripts (.module u)) :
    P.ByText conf mods scripts u b d := by
  have text : ∀ {pkg tree}, P.Reached conf mods' scripts' (.text u pkg tree) →
      P.Reached conf mods scripts (.text u pkg tree) := by
    intro pkg tree h
    cases h with
    | text _ h => exact .text hu h
    | script h => exact absurd (hC.script _ h).2.1 (proper_slash (reached_proper hC (Reached.more hm hs hu)))
  cases h with
  | imports h1 h2 h3 => exact .imports (text h1) h2 h3
  | froms h1 h2 h3 => exact .froms (text h1) h2 h3
  | names h1 h2 hs h3 h4 hne h5 h6 => exact .names (text h1) h2 hs h3 h4 hne h5 h6
  | passedOn h1 h2 h3 h4 h5 h6 h7 h8 h9 h10 =>
    exact .passedOn (text h1) h2 h3 h4 h5 h6 h7 (Edge.here hC hm hs h8 (source_reached (text h1) h2 h3)) h9 h10

/-- Less is clear too. -/
theorem Clear.fewer (h : P.Clear conf mods' scripts') (hm : ∀ x ∈ mods, x ∈ mods') (hs : ∀ x ∈ scripts, x ∈ scripts') :
    P.Clear conf mods scripts := by
  have hr := fun {pl} => Reached.more (P := P) (conf := conf) hm hs (pl := pl)
  have hw : ∀ {u nm}, P.Wanted conf mods scripts u nm → P.Wanted conf mods' scripts' u nm := by
    rintro u nm ⟨x, pkg, tree, way, t, names, a, h1, h2⟩
    exact ⟨x, pkg, tree, way, t, names, a, hr h1, h2⟩
  have hme : ∀ {x}, P.Mentioned conf mods scripts x → P.Mentioned conf mods' scripts' x := by
    intro x h
    cases h with
    | asked h => exact .asked (hm _ h)
    | imports h h' => exact .imports (hr h) h'
    | froms h h' => exact .froms (hr h) h'
    | along h h' => exact .along (hr h) h'
    | implied h h' => exact .implied (hr h) h'
  exact {
    mentioned := fun x hx => h.mentioned x (hme hx)
    names := fun x pkg tree way name names level h1 => h.names x pkg tree way name names level (hr h1)
    script := fun x hx => h.script x (hs x hx)
    noEmpty := h.noEmpty
    noSix := h.noSix
    noSwig := fun x hx => h.noSwig x (hr hx)
    noMypyc := h.noMypyc
    tried := fun x l hx => by
      cases hx with
      | mk h1 h2 h3 h4 h5 h6 h7 => exact h.tried _ l (.mk (hr h1) h2 h3 h4 h5 h6 h7)
    once := fun y p q hy => h.once y p q (hr hy)
    passedOn := fun x pkg tree way t names u nm a h1 h2 h3 h4 h5 h6 b d h7 h8 => by
      obtain ⟨k1, k2, k3, ⟨d', k4, k5⟩, k6⟩ :=
        h.passedOn x pkg tree way t names u nm a (hr h1) h2 h3 h4 h5 h6 b d (Edge.more hm hs h7) h8
      exact ⟨k1, k2, fun b' d' h => k3 b' d' (Edge.more hm hs h),
        ⟨d', ByText.here h hm hs k4 (source_reached h1 h2 h3), k5⟩, fun h => k6 (Behind.more hm hs h)⟩
    static := fun t nm hx => h.static t nm (hw hx)
    variables := fun t nm hx h1 h2 y hy => h.variables t nm (hw hx) h1 h2 y (hme hy) }

theorem Fits.fewer {dists : List Dist} (h : P.Fits conf mods' scripts' dists) (hm : ∀ x ∈ mods, x ∈ mods')
    (hs : ∀ x ∈ scripts, x ∈ scripts') : P.Fits conf mods scripts dists where
  place d hd := ⟨(h.place d hd).1, (h.place d hd).2.1, fun hx => (h.place d hd).2.2 (hs _ hx)⟩
  same := h.same
  config := h.config
  passedOn := fun x pkg tree way t names u nm a h1 h2 h3 h4 h5 h6 b e h7 h8 d hd m h9 m' h10 h11 y h12 h13 =>
    h.passedOn x pkg tree way t names u nm a (Reached.more hm hs h1) h2 h3 h4 h5 h6 b e (Edge.more hm hs h7) h8
      d hd m h9 m' h10 h11 y h12 (Leads.more hm hs h13)
end

/-- Lists and files. -/
structure Desk where
  lists : Lists
  disk : Disk

def Desk.path : SysPath Desk where
  ref w := listsPath.ref w.lists
  contents w := listsPath.contents w.lists
  assign r l w := { w with lists := listsPath.assign r l w.lists }
  invalidate w := { w with lists := listsPath.invalidate w.lists }

theorem desk_path_ok : SysPathOk Desk.path :=
  ⟨fun r l w => listsPath_ok.contents_assign r l w.lists, fun r l w => listsPath_ok.ref_assign r l w.lists,
    fun w => listsPath_ok.ref_invalidate w.lists, fun w r => listsPath_ok.contents_invalidate w.lists r⟩

def Desk.files : Files Desk := ⟨fun w => w.disk.out, fun w => w.disk.file, fun w => w.disk.handle⟩

/-- Use the disk. -/
def Desk.on {α : Type} (x : Ext Disk α) : Ext Desk α := fun w => ((x w.disk).1, { w with disk := (x w.disk).2 })

def Desk.output : Output Desk where
  stdout t := Desk.on (Disk.output.stdout t)
  openFile x := Desk.on (Disk.output.openFile x)
  write h t := Desk.on (Disk.output.write h t)
  close h := Desk.on (Disk.output.close h)
  stderr w := w

theorem desk_on {α : Type} {x : Ext Disk α} {w w' : Desk} {a : α} (h : Desk.on x w = (.ok a, w')) :
    x w.disk = (.ok a, w'.disk) := by
  have h1 := congrArg Prod.fst h
  have h2 := congrArg (fun p => p.2.disk) h
  exact Prod.ext h1 h2

theorem desk_ok : OutputOk Desk.output Desk.files where
  stdout t _ u _ h := disk_ok.stdout t _ u _ (desk_on h)
  openFile x _ h _ e := disk_ok.openFile x _ h _ (desk_on e)
  write h t _ u _ x b e := disk_ok.write h t _ u _ x b (desk_on e)
  close h _ u _ x b e := disk_ok.close h _ u _ x b (desk_on e)

theorem desk_writable : Writable Desk.output Desk.files (some c!"/out") := by
  refine ⟨fun w => ⟨3, ?_⟩, fun _ _ _ _ => rfl, fun h w hh => ?_⟩
  · show (Disk.output.openFile c!"/out" w.disk).1 = _
    simp only [Disk.output]
    rw [if_neg (by decide)]
  · show (Disk.output.close h w.disk).1 = _
    have hh : w.disk.handle h ≠ none := hh
    simp only [Disk.output]
    cases hx : w.disk.handle h with
    | none => exact absurd hx hh
    | some p => rfl

/-- `-p /src -x e -s -o /out -f dot /s` -/
def deskArgv : List Arg :=
  [.path c!"/src", .exclude c!"e", .nodeType .script, .output c!"/out", .format c!"dot", .names [c!"/s"]]

def desk : Desk := { lists := { bound := 0, heap := fun _ => [c!"/lib"] }, disk := {} }

/-- The hypotheses of `C67_command` are met. -/
example (iter : St Desk → Iter) (hi : ObjectGraphOk iter) : ∃ N, ∀ n, N ≤ n → ∃ w' g doc,
    main Desk.output Desk.path (((projectEnv Shop.project
          (fun w : Desk => decide (Desk.path.path w = [c!"/src", c!"/lib"])) desk).withLoaders
        (projectLoaders Shop.project exOrd Shop.trees Shop.codes) 1).withTexts (projectTexts Shop.project exOrd)) n
      (Shop.table ++ Shop.implies) [c!"os", c!"re"] iter deskArgv desk = (.returned, w') ∧
    Document .graphviz g doc ∧ w'.disk.file c!"/out" = some doc ∧ w'.disk.out = [] ∧
    (c!"c", c!"d", defaultDep) ∈ g.edges ∧ ∀ x, x ∈ g.roots ↔ x = c!"/s" := by
  have hc := Clear.fewer Shop.clear (mods := []) (scripts := [c!"/s"]) (by simp) (by simp [Shop.scripts])
  obtain ⟨N, h⟩ := C67_command Shop.project (Shop.table ++ Shop.implies) [c!"os", c!"re"] deskArgv [c!"e"] [] [c!"/s"]
    (by simp [ExcludedBy, deskArgv]) (.scripts rfl (by simp) (by simp) rfl) (by simp [formats, deskArgv]) hc
    [c!"a", c!"a.b", c!"d", c!"e", c!"e.x", c!"n", c!"n.x", c!"sys"]
    (by
      intro x h
      simp only [Shop.project] at h
      repeat' split at h
      all_goals simp_all)
    Desk.path desk_path_ok desk (fun w => w.disk.out = []) rfl (fun _ _ _ h => h) (fun _ h => h)
    (projectEnv Shop.project (fun w : Desk => decide (Desk.path.path w = [c!"/src", c!"/lib"])) desk)
    (projectLoaders Shop.project exOrd Shop.trees Shop.codes) (projectTexts Shop.project exOrd)
    (project_shows Shop.compiled fun w h => by
      rw [h.2]
      decide +kernel)
    exOrd_ok exOrd_ok 0 (fun _ _ _ => Iff.rfl) Desk.output Desk.files desk_ok desk_writable iter hi
  refine ⟨N, fun n hn => ?_⟩
  obtain ⟨w1, w', g, doc, h1, h2, h3, h4, _, h5⟩ := h n hn
  refine ⟨w', g, doc, h1, h3, h5.1, h5.2.1.trans h4, ?_, ?_⟩
  · have hs : Shop.project.Reached Shop.conf [] [c!"/s"] (.text c!"/s" false Shop.treeS) := .script (by simp) rfl
    have his : HasImport Shop.treeS [.plain] c!"c" none :=
      ⟨_, .plain (.tail _ (.head _)) (.here _), by simp⟩
    exact (h2.edges _ _ _).mpr (.along (.imports hs his) (.inl ⟨_, Shop.node_c.mpr rfl, .inl rfl⟩))
  · intro x
    rw [h2.roots]
    simp

/-- `-p /src -x e -d -o /out Shop` -/
def deskDists : List Arg :=
  [.path c!"/src", .exclude c!"e", .nodeType .distribution, .output c!"/out", .names [c!"Shop"]]

/-- The hypotheses of `C67_distributions` are met. -/
example (iter : St Desk → Iter) (hi : ObjectGraphOk iter) : ∃ N, ∀ n, N ≤ n → ∃ w' g doc,
    main Desk.output Desk.path (((projectEnv Shop.project
          (fun w : Desk => decide (Desk.path.path w = [c!"/src", c!"/lib"])) desk).withLoaders
        (projectLoaders Shop.project exOrd Shop.trees Shop.codes) 1).withTexts (projectTexts Shop.project exOrd)) n
      (Shop.table ++ Shop.implies) [c!"os", c!"re"] iter deskDists desk = (.returned, w') ∧
    Document .html g doc ∧ w'.disk.file c!"/out" = some doc ∧ w'.disk.out = [] ∧
    (c!"/shop.dist-info", c!"a.b", defaultDep) ∈ g.edges ∧ ∀ x, x ∈ g.roots ↔ x = c!"/shop.dist-info" := by
  have hc := Clear.fewer Shop.clear (mods := distModules [Shop.shop]) (scripts := []) (by decide) (by simp)
  have hF := Fits.fewer Shop.fits (mods := distModules [Shop.shop]) (scripts := []) (by decide) (by simp)
  obtain ⟨N, h⟩ := C67_distributions Shop.project (Shop.table ++ Shop.implies) [c!"os", c!"re"] deskDists [c!"e"]
    [c!"Shop"] [Shop.shop] (by simp [ExcludedBy, deskDists]) rfl (by simp) rfl (by simp [Shop.project])
    (by simp [formats, deskDists]) hc hF
    [c!"a", c!"a.b", c!"d", c!"e", c!"e.x", c!"n", c!"n.x", c!"sys"]
    (by
      intro x h
      simp only [Shop.project] at h
      repeat' split at h
      all_goals simp_all)
    Desk.path desk_path_ok desk (fun w => w.disk.out = []) rfl (fun _ _ _ h => h) (fun _ h => h)
    (projectEnv Shop.project (fun w : Desk => decide (Desk.path.path w = [c!"/src", c!"/lib"])) desk)
    (projectLoaders Shop.project exOrd Shop.trees Shop.codes) (projectTexts Shop.project exOrd)
    (project_shows Shop.compiled fun w h => by
      rw [h.2]
      decide +kernel)
    exOrd_ok exOrd_ok 0 (fun _ _ _ => Iff.rfl) Desk.output Desk.files desk_ok desk_writable iter hi
  refine ⟨N, fun n hn => ?_⟩
  obtain ⟨w1, w', g, doc, h1, h2, h3, h4, _, h5⟩ := h n hn
  refine ⟨w', g, doc, h1, h3, h5.1, h5.2.1.trans h4, ?_, ?_⟩
  · exact (h2.edges _ _ _).mpr (.inr ⟨_, List.mem_singleton.mpr rfl, rfl, by decide, rfl⟩)
  · intro x
    rw [h2.roots]
    simp [Shop.shop]

end Verif.Props
