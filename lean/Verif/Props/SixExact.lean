import Verif.Props.ExactExample
/-!
# C61: names that `six.moves` has from other modules
-/
namespace Verif.Props
open Verif M Spec

/-- The node of `six.moves`. -/
def sixNode : Node :=
  { ident := c!"six.moves",
    kind := .package false { name := c!"@@SIX_MOVES@@", kind := .frozen } [] false none,
    globalsWritten := [c!"filter"] }

/-- `a` has `from six.moves import shlex_quote, nope`; `six.moves` has neither as a submodule. -/
def sixTable : Demo.Table :=
  { mods := [(c!"a", Demo.src c!"a", [Demo.fromImp 0 c!"six.moves" [c!"shlex_quote", c!"nope"]]),
             (c!"six", Demo.src c!"six", []), (c!"six.moves", sixNode, []),
             (c!"shlex", Demo.src c!"shlex", [])] }

def sixSetup : Setup where
  conf := configured [] ([] ++ [])
  mods := Demo.lookup sixTable.mods
  scripts _ := none
  asksModule x := x = c!"a"
  asksScript _ := False

theorem sixEx_six : sixSetup.NodeFor c!"six" (Demo.src c!"six") :=
  .top (by decide) (.found (.inl (by decide +kernel)) (infos := _) rfl rfl)
theorem sixEx_a : sixSetup.NodeFor c!"a" (Demo.src c!"a") :=
  .top (by decide) (.found (.inl (by decide +kernel)) (infos := _) rfl rfl)
theorem sixEx_shlex : sixSetup.NodeFor c!"shlex" (Demo.src c!"shlex") :=
  .top (by decide) (.found (.inl (by decide +kernel)) (infos := _) rfl rfl)
theorem sixEx_moves : sixSetup.NodeFor c!"six.moves" sixNode :=
  .sub ⟨c!"moves", rfl, by decide⟩ sixEx_six rfl rfl (.found (.inl (by decide +kernel)) (infos := _) rfl rfl)
theorem sixEx_quote : sixSetup.NodeFor c!"six.moves.shlex_quote" { ident := c!"six.moves.shlex_quote", kind := .missing } :=
  .sub ⟨c!"shlex_quote", rfl, by decide⟩ sixEx_moves rfl rfl (.absent (.inl (by decide +kernel)) (by decide +kernel))
theorem sixEx_nope : sixSetup.NodeFor c!"six.moves.nope" { ident := c!"six.moves.nope", kind := .missing } :=
  .sub ⟨c!"nope", rfl, by decide⟩ sixEx_moves rfl rfl (.absent (.inl (by decide +kernel)) (by decide +kernel))

def sixStmt : ImportInfo := Demo.fromImp 0 c!"six.moves" [c!"shlex_quote", c!"nope"]

/-- What is needed. -/
def SixNeeds : Setup.Thing → Prop
  | .module x tr => (x, tr) ∈ [(c!"a", false), (c!"six", false), (c!"six.moves", false),
      (c!"six.moves.shlex_quote", true), (c!"six.moves.nope", true), (c!"shlex", false)]
  | .statement m i => m = Demo.src c!"a" ∧ i = sixStmt

def SixNode (n : Node) : Prop :=
  n ∈ [Demo.src c!"a", Demo.src c!"six", sixNode, { ident := c!"six.moves.shlex_quote", kind := .missing },
    { ident := c!"six.moves.nope", kind := .missing }, Demo.src c!"shlex"]

theorem sixEx_node {x tr n} (h : SixNeeds (.module x tr)) (hn : sixSetup.NodeFor x n) : SixNode n := by
  simp only [SixNeeds, List.mem_cons, Prod.mk.injEq, List.not_mem_nil, or_false] at h
  unfold SixNode
  rcases h with ⟨rfl, _⟩ | ⟨rfl, _⟩ | ⟨rfl, _⟩ | ⟨rfl, _⟩ | ⟨rfl, _⟩ | ⟨rfl, _⟩
  · cases hn.unique sixEx_a; simp
  · cases hn.unique sixEx_six; simp
  · cases hn.unique sixEx_moves; simp
  · cases hn.unique sixEx_quote; simp
  · cases hn.unique sixEx_nope; simp
  · cases hn.unique sixEx_shlex; simp

theorem sixEx_conf {x l} : sixSetup.conf x ≠ some (.refs l) := by
  intro h
  simp only [sixSetup, configured] at h
  split at h <;> simp at h

theorem sixEx_refers {t} (h : Refers (Demo.src c!"a") sixStmt t) : t = c!"six.moves" := by
  cases h with
  | relative _ _ h1 => exact absurd h1 (by decide)
  | absolute => rfl

theorem sixEx_source {m i t b c nm} (h : SixNeeds (.statement m i)) (hr : Refers m i t)
    (hb : sixSetup.NodeFor t b) (hc : sixSetup.Source b c) (hn : nm ∈ i.importNames) :
    m = Demo.src c!"a" ∧ i = sixStmt ∧ c = sixNode ∧ (nm.name = c!"shlex_quote" ∨ nm.name = c!"nope") := by
  obtain ⟨rfl, rfl⟩ := h
  cases sixEx_refers hr
  cases hb.unique sixEx_moves
  rcases hc with ⟨rfl, _⟩ | ⟨h5, _⟩
  · refine ⟨rfl, rfl, rfl, ?_⟩
    revert nm
    decide +kernel
  · cases h5

theorem sixEx_sent {nm r} (hn : nm = c!"shlex_quote" ∨ nm = c!"nope") (h : sixSetup.Sent sixNode nm r) :
    nm = c!"shlex_quote" ∧ r = c!"shlex" := by
  have h1 := sixMove_iff.mpr h.2.1
  rcases hn with rfl | rfl
  · exact ⟨rfl, by have h2 : sixMove c!"shlex_quote" = some c!"shlex" := by decide +kernel
                   rw [h2] at h1; cases h1; rfl⟩
  · have h2 : sixMove c!"nope" = none := by decide +kernel
    rw [h2] at h1; cases h1

theorem sixEx_needs {th} (h : sixSetup.Needs th) : SixNeeds th := by
  induction h with
  | asked h => cases h; simp [SixNeeds]
  | distribution h => cases h
  | @package x p tr _ hp ih =>
    simp only [SixNeeds, List.mem_cons, Prod.mk.injEq, List.not_mem_nil, or_false] at ih
    rcases ih with ⟨rfl, _⟩ | ⟨rfl, _⟩ | ⟨rfl, _⟩ | ⟨rfl, _⟩ | ⟨rfl, _⟩ | ⟨rfl, _⟩
    · exact absurd hp (ex_dot (by decide) p)
    · exact absurd hp (ex_dot (by decide) p)
    · cases hp.unique (⟨c!"moves", rfl, by decide⟩ : HasPackage c!"six.moves" c!"six"); simp [SixNeeds]
    · cases hp.unique (⟨c!"shlex_quote", rfl, by decide⟩ : HasPackage c!"six.moves.shlex_quote" c!"six.moves")
      simp [SixNeeds]
    · cases hp.unique (⟨c!"nope", rfl, by decide⟩ : HasPackage c!"six.moves.nope" c!"six.moves")
      simp [SixNeeds]
    · exact absurd hp (ex_dot (by decide) p)
  | alias _ hn hk ih =>
    have := sixEx_node ih hn
    simp only [SixNode, List.mem_cons, List.not_mem_nil, or_false] at this
    rcases this with rfl | rfl | rfl | rfl | rfl | rfl <;> rcases hk with hk | hk <;> cases hk
  | implied _ _ hc => exact absurd hc sixEx_conf
  | implying _ _ hc => exact absurd hc sixEx_conf
  | explicitNamespace _ hn hk ih =>
    have := sixEx_node ih hn
    simp only [SixNode, List.mem_cons, List.not_mem_nil, or_false] at this
    rcases this with rfl | rfl | rfl | rfl | rfl | rfl <;> cases hk
  | inScript h => cases h
  | helper _ _ hc => cases hc
  | inCompiled _ _ hc => cases hc
  | inModule _ hn hm hi ih =>
    have := sixEx_node ih hn
    simp only [SixNode, List.mem_cons, List.not_mem_nil, or_false] at this
    rcases this with rfl | rfl | rfl | rfl | rfl | rfl <;> cases hm
    · simp only [List.mem_cons, List.not_mem_nil, or_false] at hi
      exact ⟨rfl, hi⟩
    all_goals cases hi
  | target _ hr ih =>
    obtain ⟨rfl, rfl⟩ := ih
    cases sixEx_refers hr
    simp [SixNeeds]
  | name _ hr hb hc _ _ hn ih =>
    obtain ⟨_, _, rfl, h1 | h1⟩ := sixEx_source ih hr hb hc hn <;> rw [h1] <;> simp [SixNeeds, sixNode]
  | sixMoves _ hr hb hc _ hn hs ih =>
    obtain ⟨_, _, rfl, h1⟩ := sixEx_source ih hr hb hc hn
    rw [(sixEx_sent h1 hs).2]
    simp [SixNeeds]

theorem sixEx_from {m i c nm} (h : sixSetup.FromImport m i c nm) :
    m = Demo.src c!"a" ∧ i = sixStmt ∧ c = sixNode ∧ (nm.name = c!"shlex_quote" ∨ nm.name = c!"nope") := by
  obtain ⟨h1, _, h2, t, b, h3, h4, h5⟩ := h
  exact sixEx_source (sixEx_needs h1) h3 h4 h5 h2

theorem sixEx_is : IsSixMoves sixNode := ⟨_, _, _, _, _, rfl, rfl⟩

theorem sixEx_hasNode {n} (h : sixSetup.HasNode n) : SixNode n := by
  cases h with
  | module hx hn =>
    obtain ⟨tr, hx⟩ := hx
    exact sixEx_node (sixEx_needs hx) hn
  | script h => cases h
  | distribution h => cases h
  | invalid hs ho =>
    obtain ⟨rfl, rfl⟩ := sixEx_needs hs
    exact absurd ho.1 (by decide)

theorem sixEx_define {k nm} (h : sixSetup.MayDefine k nm) :
    (k = c!"six.moves" ∧ nm = c!"filter") ∨ (k = c!"a" ∧ (nm = c!"shlex_quote" ∨ nm = c!"nope")) := by
  cases h with
  | own hn hm =>
    have := sixEx_hasNode hn
    simp only [SixNode, List.mem_cons, List.not_mem_nil, or_false] at this
    rcases this with rfl | rfl | rfl | rfl | rfl | rfl <;> simp [Demo.src, sixNode] at hm ⊢
    exact hm
  | @byName m i nm hs hn =>
    obtain ⟨rfl, rfl⟩ := sixEx_needs hs
    refine .inr ⟨rfl, ?_⟩
    revert nm
    decide +kernel
  | byStar hs h1 _ _ =>
    obtain ⟨rfl, rfl⟩ := sixEx_needs hs
    exact absurd h1 (by decide)

theorem sixEx_mods {x n infos} (h : sixSetup.mods x = some (n, infos)) :
    n.ident = x ∧ (n = Demo.src c!"a" ∨ n = Demo.src c!"six" ∨ n = sixNode ∨ n = Demo.src c!"shlex") := by
  simp only [sixSetup, Demo.lookup, sixTable, List.find?_cons, List.find?_nil] at h
  split at h
  · rename_i h1
    simp at h h1
    obtain ⟨rfl, _⟩ := h
    exact ⟨h1, .inl rfl⟩
  · split at h
    · rename_i h1
      simp at h h1
      obtain ⟨rfl, _⟩ := h
      exact ⟨h1, .inr (.inl rfl)⟩
    · split at h
      · rename_i h1
        simp at h h1
        obtain ⟨rfl, _⟩ := h
        exact ⟨h1, .inr (.inr (.inl rfl))⟩
      · split at h
        · rename_i h1
          simp at h h1
          obtain ⟨rfl, _⟩ := h
          exact ⟨h1, .inr (.inr (.inr rfl))⟩
        · cases h

theorem sixEx_tame : sixSetup.Tame where
  loaded x n infos h := by
    rcases (sixEx_mods h).2 with rfl | rfl | rfl | rfl <;> rfl
  extension x n infos h he := by
    rcases (sixEx_mods h).2 with rfl | rfl | rfl | rfl <;> cases he
  otherName x n infos h hne := absurd (sixEx_mods h).1 hne
  noDot x h := by
    obtain ⟨tr, h⟩ := h
    have := sixEx_needs h
    simp only [SixNeeds, List.mem_cons, Prod.mk.injEq, List.not_mem_nil, or_false] at this
    rcases this with ⟨rfl, _⟩ | ⟨rfl, _⟩ | ⟨rfl, _⟩ | ⟨rfl, _⟩ | ⟨rfl, _⟩ | ⟨rfl, _⟩ <;> decide
  plain m i nm hs hn := by
    obtain ⟨rfl, rfl⟩ := sixEx_needs hs
    revert nm
    decide +kernel
  scriptName path h := by cases h
  passedOn m i c nm h hd _ b d he _ := by
    obtain ⟨_, _, rfl, h1⟩ := sixEx_from h
    exfalso
    rcases sixEx_define hd with ⟨_, h2⟩ | ⟨h2, _⟩
    · rcases h1 with h1 | h1 <;> rw [h1] at h2 <;> simp at h2
    · simp [sixNode] at h2
  static m i c nm h _ h6 hd := by
    obtain ⟨_, _, rfl, _⟩ := sixEx_from h
    exact absurd sixEx_is h6
  notBoth m i c nm h _ hs hn := by
    obtain ⟨_, _, rfl, h1 | h1⟩ := sixEx_from h
    · rw [h1] at hn
      have := sixEx_needs hn
      simp [SixNeeds, sixNode] at this
    · rw [h1] at hs
      exact hs (.inr (.inl ⟨sixEx_is, sixMove_none.mp (by decide +kernel)⟩))
  noSwig x h := by
    rcases sixEx_define h with ⟨_, h⟩ | ⟨_, h | h⟩ <;> simp at h

theorem sixEx_noMypyc : ¬ sixSetup.HasMypyc := by
  rintro ⟨n, file, helper, h, hm⟩
  obtain ⟨d, hd, _⟩ := hm.dist
  have := sixEx_hasNode h
  simp only [SixNode, List.mem_cons, List.not_mem_nil, or_false] at this
  rcases this with rfl | rfl | rfl | rfl | rfl | rfl <;> cases hd

theorem sixEx_describes : sixSetup.Describes (Demo.env sixTable) :=
  demo_describes sixTable sixSetup (fun _ => rfl) (fun _ => rfl) (fun _ => rfl) (fun _ => rfl)
    fun n hn => .no (fun file helper h => sixEx_noMypyc ⟨n, file, helper, hn, h⟩) rfl

theorem sixEx_run :
    let s := (runClient (Demo.env sixTable) (30 + 1) (configureThen [] [] (doAll [.addModule c!"a"]))
        (initState () [] true)).2
    Event.failed ∉ s.log ∧ s.edges.all (fun e => !(e.1 == c!"a" && e.2.1 == c!"six.moves.shlex_quote")) = true := by
  decide +kernel

/-- The name is taken from `shlex`: by C61 there is an edge, and none to the submodule that was tried. -/
theorem sixEx_edges :
    sixSetup.HasEdge c!"a" c!"shlex" defaultDep ∧
    (∀ d, ¬ sixSetup.HasEdge c!"a" c!"six.moves.shlex_quote" d) ∧
    ∃ d, sixSetup.HasEdge c!"a" c!"six.moves.nope" d := by
  have hst : sixSetup.Needs (.statement (Demo.src c!"a") sixStmt) :=
    .inModule (.asked rfl) sixEx_a rfl (by simp [sixStmt])
  have hr : Refers (Demo.src c!"a") sixStmt c!"six.moves" := .absolute (by decide +kernel)
  have hf : ∀ nm ∈ sixStmt.importNames, sixSetup.FromImport (Demo.src c!"a") sixStmt sixNode nm := fun nm h =>
    ⟨hst, by decide +kernel, h, _, _, hr, sixEx_moves, .inl ⟨rfl, fun _ h => by cases h⟩⟩
  have h1 : (⟨c!"shlex_quote", none⟩ : ImpName) ∈ sixStmt.importNames := by decide +kernel
  have h2 : (⟨c!"nope", none⟩ : ImpName) ∈ sixStmt.importNames := by decide +kernel
  have hs : sixSetup.Sent sixNode c!"shlex_quote" c!"shlex" :=
    ⟨sixEx_is, sixMove_iff.mp (by decide +kernel), _, sixEx_quote, rfl⟩
  refine ⟨.sixMoves (hf _ h1) hs, ?_, ?_⟩
  · have key := C61_built sixSetup sixEx_tame (Demo.env sixTable) sixEx_describes (fun _ _ _ => Iff.rfl)
      (demo_loads _ (by decide +kernel)).makes (fun _ _ => .ret none) (fun _ _ _ => .ret) 30 [.addModule c!"a"]
      ⟨by simp [sixSetup, InSource], by simp [sixSetup], by simp [sixSetup], by simp [Setup.Adds]⟩
      () [] true [] [] rfl (.inl rfl) sixEx_run.1
    intro d hd
    have h0 := (key.2.1 _ _ _).mpr hd
    have := List.all_eq_true.mp sixEx_run.2 _ h0
    simp at this
  · exact ⟨_, .fromName (hf _ h2) (.inl rfl) (.inr (.inl ⟨sixEx_is, sixMove_none.mp (by decide +kernel)⟩))⟩

end Verif.Props
