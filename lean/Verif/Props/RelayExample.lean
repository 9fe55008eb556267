import Verif.Props.ProjectExample
import Verif.Props.Relay
/-!
# C66 and C73: an example

`compat` imports `json`, `relay` has `from compat import json as j`, and a script has `from relay import j`.
The graph has an edge from the script to `json`.
-/
namespace Verif.Props
open Verif Spec Proj

namespace Relay

def treeC : Ast := .other [.import_ [(c!"json", none)]]
def treeR : Ast := .other [.importFrom (some c!"compat") [(c!"json", some c!"j")] 0]
def treeM : Ast := .other [.importFrom (some c!"relay") [(c!"j", none)] 0]

def project : Project where
  item x :=
    if x = c!"json" then some (.source c!"/json.py" c!"J" (.other []) [] [])
    else if x = c!"compat" then some (.source c!"/compat.py" c!"C" treeC [c!"json"] [])
    else if x = c!"relay" then some (.source c!"/relay.py" c!"R" treeR [c!"j"] [])
    else none
  script path := if path = c!"/m" then some treeM else none
  parent := fun _ => c!"/"
  resolve := fun p => p
  dist := fun _ => none

noncomputable abbrev conf : Str → Option Implies := configured [] ([] ++ [])
def scripts : List Str := [c!"/m"]
def trees (_ file : Str) : Ast :=
  if file = c!"/json.py" then .other [] else if file = c!"/compat.py" then treeC else treeR
def codes (x : Str) : Code :=
  if x = c!"json" then .mk 0 [] [] .nil
  else if x = c!"compat" then .mk 0 [c!"json"] [⟨.storeName, some 0⟩] .nil
  else .mk 0 [c!"j"] [⟨.storeName, some 0⟩] .nil

theorem compiled : Compiled project trees codes where
  source := by
    intro x file text tree g r h
    rcases h with h | ⟨path, data, h⟩
    · simp only [project] at h
      repeat' split at h
      all_goals simp at h
      all_goals
        rename_i hx
        obtain ⟨rfl, rfl, rfl, rfl, rfl⟩ := h
        subst hx
        exact ⟨rfl, [], by decide +kernel⟩
    · simp only [project] at h
      repeat' split at h
      all_goals simp at h
  package := by
    intro x file text tree g r path data h
    simp only [project] at h
    repeat' split at h
    all_goals simp at h
  other := by
    intro x it h
    simp only [project] at h
    repeat' split at h
    all_goals first | cases h; trivial | cases h

theorem text_cases {x pkg tree} (h : project.text x = some (pkg, tree)) :
    x = c!"json" ∧ pkg = false ∧ tree = .other [] ∨ x = c!"compat" ∧ pkg = false ∧ tree = treeC ∨
      x = c!"relay" ∧ pkg = false ∧ tree = treeR := by
  simp only [Project.text] at h
  split at h
  all_goals
    rename_i hi
    simp only [project] at hi
    repeat' split at hi
  all_goals simp_all

theorem import_text {tree way t a} (ht : tree = .other [] ∨ tree = treeC ∨ tree = treeR ∨ tree = treeM)
    (h : HasImport tree way t a) : tree = treeC ∧ t = c!"json" ∧ a = none := by
  have h := imports_all h
  rcases ht with rfl | rfl | rfl | rfl
  · simp [allImports, occurrences] at h
  · simp [allImports, treeC, occurrences] at h
    exact ⟨rfl, h⟩
  · simp [allImports, treeR, occurrences] at h
  · simp [allImports, treeM, occurrences] at h

theorem conf_cases {x v} (h : conf x = some v) : v = .excluded ∧ x = c!"__main__" := by
  unfold conf configured at h
  split at h
  · rename_i hx
    simp at hx
    exact ⟨(Option.some.inj h).symm, hx⟩
  · simp at h

theorem conf_none {x} (h : x ≠ c!"__main__") : conf x = none := by
  cases hc : conf x with
  | none => rfl
  | some v => exact absurd (conf_cases hc).2 h

theorem not_implied {x r} (h : Project.Implied conf x r) : False := by
  obtain ⟨l, h1, _⟩ := h
  cases (conf_cases h1).1

theorem no_alias {x t} (h : project.Along conf x t) : False := by
  rcases alias_conf (along_alias (fun _ => rfl) h) with h | h <;> cases (conf_cases h).1

theorem source_of {t u} (h : project.Source conf t u) : u = t := by
  rcases h with ⟨h, _⟩ | h
  · exact h
  · exact (no_alias (.inl ⟨_, h, .inl rfl⟩)).elim

theorem node_of {x n} (hx : '.' ∉ x) (hm : x ≠ c!"__main__") : project.NodeOf conf x n ↔ n = project.node x := by
  rw [of_top hx, own_plain (.inl (conf_none hm))]

theorem not_pkg {x} (h : project.Pkg conf x) : False := by
  obtain ⟨n, h1, h2⟩ := h
  have h3 := of_pkg h1 h2
  subst h3
  unfold Project.node at h2
  split at h2
  all_goals simp [Node.isPackage, Node.isNamespacePkg] at h2
  all_goals
    rename_i hi
    simp only [project] at hi
    repeat' split at hi
    all_goals simp at hi

theorem no_out {x pkg tree way y names} (ht : tree = .other [] ∨ tree = treeC ∨ tree = treeR ∨ tree = treeM)
    (h : HasOutside x pkg tree way y names) : False := by
  obtain ⟨name, level, h1, ⟨hl, _⟩, _⟩ := h
  have h3 := froms_all h1
  rcases ht with rfl | rfl | rfl | rfl
  · simp [allFroms, occurrences] at h3
  · simp [allFroms, treeC, occurrences] at h3
  · simp [allFroms, treeR, occurrences] at h3
    omega
  · simp [allFroms, treeM, occurrences] at h3
    omega

theorem from_text {x pkg tree way t names} (ht : tree = .other [] ∨ tree = treeC ∨ tree = treeR ∨ tree = treeM)
    (h : HasFrom x pkg tree way t names) :
    tree = treeR ∧ t = c!"compat" ∧ names = [(c!"json", some c!"j")] ∨
      tree = treeM ∧ t = c!"relay" ∧ names = [(c!"j", none)] := by
  obtain ⟨name, level, h1, h2⟩ := h
  have h3 := froms_all h1
  rcases ht with rfl | rfl | rfl | rfl
  · simp [allFroms, occurrences] at h3
  · simp [allFroms, treeC, occurrences] at h3
  · simp [allFroms, treeR, occurrences] at h3
    obtain ⟨rfl, rfl, rfl⟩ := h3
    refine .inl ⟨rfl, ?_, rfl⟩
    cases h2 with
    | absolute => rfl
    | relative _ _ h => cases h
  · simp [allFroms, treeM, occurrences] at h3
    obtain ⟨rfl, rfl, rfl⟩ := h3
    refine .inr ⟨rfl, ?_, rfl⟩
    cases h2 with
    | absolute => rfl
    | relative _ _ h => cases h

/-- What is reached. -/
def Bound : Place → Prop
  | .module x => x = c!"json" ∨ x = c!"compat" ∨ x = c!"relay"
  | .text x pkg tree => pkg = false ∧ (x = c!"json" ∧ tree = .other [] ∨ x = c!"compat" ∧ tree = treeC ∨
      x = c!"relay" ∧ tree = treeR ∨ x = c!"/m" ∧ tree = treeM)

theorem Bound.tree {x pkg tree} (h : Bound (.text x pkg tree)) :
    tree = .other [] ∨ tree = treeC ∨ tree = treeR ∨ tree = treeM := by
  obtain ⟨_, ⟨_, h⟩ | ⟨_, h⟩ | ⟨_, h⟩ | ⟨_, h⟩⟩ := h <;> simp [h]

theorem Bound.dot {x} (h : Bound (.module x)) : '.' ∉ x := by
  rcases h with rfl | rfl | rfl <;> decide

theorem bound {pl} (h : project.Reached conf [] scripts pl) : Bound pl := by
  induction h with
  | asked h => cases h
  | package _ h ih => exact absurd h.dot ih.dot
  | along _ h => exact (no_alias h).elim
  | implied _ _ h => exact (not_implied h).elim
  | text _ h => rcases text_cases h.1 with ⟨rfl, rfl, rfl⟩ | ⟨rfl, rfl, rfl⟩ | ⟨rfl, rfl, rfl⟩ <;> simp [Bound]
  | @script path tree h1 h2 =>
    simp only [scripts, List.mem_singleton] at h1
    subst h1
    simp only [project, if_true, Option.some.injEq] at h2
    exact ⟨rfl, .inr (.inr (.inr ⟨rfl, h2.symm⟩))⟩
  | imports _ h ih => rw [(import_text ih.tree h).2.1]; exact .inl rfl
  | froms _ h ih => rcases from_text ih.tree h with ⟨_, rfl, _⟩ | ⟨_, rfl, _⟩ <;> simp [Bound]
  | names _ _ _ h => exact (not_pkg h).elim

theorem text_bound {x pkg tree} (h : project.Reached conf [] scripts (.text x pkg tree)) :
    (tree = treeC → x = c!"compat") ∧ (tree = treeR → x = c!"relay") ∧ (tree = treeM → x = c!"/m") := by
  have h := bound h
  obtain ⟨_, ⟨rfl, rfl⟩ | ⟨rfl, rfl⟩ | ⟨rfl, rfl⟩ | ⟨rfl, rfl⟩⟩ := h <;> simp [treeC, treeR, treeM]

/-- What is imported by name, and from where. -/
theorem name_bound {x pkg tree way t ns u nm a} (h : project.Reached conf [] scripts (.text x pkg tree))
    (hi : HasFrom x pkg tree way t ns) (hs : project.Source conf t u) (hm : (nm, a) ∈ ns) :
    x = c!"relay" ∧ u = c!"compat" ∧ nm = c!"json" ∧ a = some c!"j" ∨
      x = c!"/m" ∧ u = c!"relay" ∧ nm = c!"j" ∧ a = none := by
  have := source_of hs
  subst this
  rcases from_text (bound h).tree hi with ⟨h1, rfl, rfl⟩ | ⟨h1, rfl, rfl⟩
  · cases List.mem_singleton.mp hm
    exact .inl ⟨(text_bound h).2.1 h1, rfl, rfl, rfl⟩
  · cases List.mem_singleton.mp hm
    exact .inr ⟨(text_bound h).2.2 h1, rfl, rfl, rfl⟩

/-- The edges. -/
theorem edge_bound {x b d} (h : project.Edge conf [] scripts x b d) :
    x = c!"compat" ∧ b = c!"json" ∨ x = c!"relay" ∧ (b = c!"compat" ∧ d.importedAs = none ∨ b = c!"json") ∨
      x = c!"/m" ∧ (b = c!"relay" ∨ b = c!"json") := by
  induction h with
  | @imports x pkg tree way t a d h1 h2 =>
    obtain ⟨h3, h4, _⟩ := import_text (bound h1).tree h2
    exact .inl ⟨(text_bound h1).1 h3, h4⟩
  | froms h1 h2 h3 =>
    rcases from_text (bound h1).tree h2 with ⟨h4, h5, _⟩ | ⟨h4, h5, _⟩
    · exact .inr (.inl ⟨(text_bound h1).2.1 h4, .inl ⟨h5, h3.asname⟩⟩)
    · exact .inr (.inr ⟨(text_bound h1).2.2 h4, .inl h5⟩)
  | outside h1 h2 => exact (no_out (bound h1).tree h2).elim
  | names _ _ _ h => exact (not_pkg h).elim
  | package h1 h2 => exact absurd h2.dot (bound h1).dot
  | along _ h => exact (no_alias h).elim
  | implied _ _ h => exact (not_implied h).elim
  | passedOn h1 h2 h3 h4 h5 h6 h7 _ h8 h9 ih =>
    rcases name_bound h1 h2 h3 h5 with ⟨rfl, rfl, rfl, rfl⟩ | ⟨rfl, rfl, rfl, rfl⟩
    · rcases ih with ⟨_, h⟩ | ⟨h, _⟩ | ⟨h, _⟩
      · exact .inr (.inl ⟨rfl, .inr h⟩)
      · cases h
      · cases h
    · rcases ih with ⟨h, _⟩ | ⟨_, ⟨h, h'⟩ | h⟩ | ⟨h, _⟩
      · cases h
      · subst h
        rcases h8 with h8 | h8
        · rw [h'] at h8
          cases h8
        · cases h8
      · exact .inr (.inr ⟨rfl, .inr h⟩)
      · cases h

theorem draws_top {x y} (hx : '.' ∉ x) (h : project.Draws conf x y) : y = x := by
  induction h with
  | self => rfl
  | package _ h ih =>
    subst ih
    obtain ⟨z, _, rfl | ⟨hb, hd, rfl⟩⟩ := h
    · exact absurd (by simp) hx
    · obtain ⟨c, l, hl⟩ := List.exists_cons_of_ne_nil hb
      refine absurd (List.mem_append_left _ ?_) hx
      rw [← hd c (by simp [hl]), hl]
      exact List.mem_cons_self
  | alias _ h => rcases h with h | h <;> cases (conf_cases h).1
  | extended _ h =>
    unfold Project.nsType at h
    split at h <;> cases h
  | implied _ h => exact (not_implied h).elim

theorem over {c y} (hc : '.' ∉ c) (h : project.Over conf [] scripts c y) : y = c := by
  cases h with
  | self => rfl
  | linked _ h => exact draws_top hc h
  | together h1 h2 h3 h4 =>
    rcases h1 with h1 | ⟨_, _, _, h, _⟩
    · exact absurd (draws_top (bound h1).dot h3).symm h2
    · exact (not_pkg h).elim
  | names _ _ _ h => exact (not_pkg h).elim

theorem leads {x y} (h : project.Leads conf [] scripts x y) : y = x ∨ Bound (.module y) := by
  cases h with
  | here => exact .inl rfl
  | on _ h =>
    rcases edge_reached h with h | ⟨_, _, _, _, _, h1, h2⟩
    · exact .inr (bound h)
    · exact (no_out (bound h1).tree h2).elim

theorem leads_compat {y} (h : project.Leads conf [] scripts c!"compat" y) : y = c!"compat" ∨ y = c!"json" := by
  induction h with
  | here => exact .inl rfl
  | on _ h ih =>
    rcases ih with rfl | rfl <;> rcases edge_bound h with ⟨h, h'⟩ | ⟨h, _⟩ | ⟨h, _⟩ <;> cases h
    exact .inr h'

theorem reached_relay : project.Reached conf [] scripts (.module c!"relay") :=
  .froms (names := [(c!"j", none)]) (.script (List.mem_singleton.mpr rfl) rfl)
    ⟨_, _, .plain (.head _) (.here _), .absolute rfl⟩

theorem text_relay : project.HasText conf c!"relay" false treeR := ⟨rfl, (node_of (by decide) (by decide)).mpr rfl⟩
theorem text_compat : project.HasText conf c!"compat" false treeC := ⟨rfl, (node_of (by decide) (by decide)).mpr rfl⟩

theorem from_relay : HasFrom c!"relay" false treeR [.plain] c!"compat" [(c!"json", some c!"j")] :=
  ⟨_, _, .plain (.head _) (.here _), .absolute rfl⟩
theorem from_m : HasFrom c!"/m" false treeM [.plain] c!"relay" [(c!"j", none)] :=
  ⟨_, _, .plain (.head _) (.here _), .absolute rfl⟩

theorem source {t : Str} (h : Bound (.module t)) : project.Source conf t t := by
  refine .inl ⟨rfl, fun n v hn => ?_⟩
  rw [(node_of h.dot (by rcases h with rfl | rfl | rfl <;> decide)).mp hn]
  exact node_not_alias

theorem reached_text : project.Reached conf [] scripts (.text c!"compat" false treeC) :=
  .text (.froms (.text reached_relay text_relay) from_relay) text_compat

theorem import_compat : HasImport treeC [.plain] c!"json" none :=
  ⟨_, .plain (.head _) (.here _), List.mem_singleton.mpr rfl⟩

theorem by_compat : project.ByText conf [] scripts c!"compat" c!"json" ⟨false, true, false, none⟩ :=
  .imports reached_text import_compat ⟨by decide, by decide, rfl, rfl⟩

theorem edge_compat : project.Edge conf [] scripts c!"compat" c!"json" ⟨false, true, false, none⟩ :=
  .imports reached_text import_compat ⟨by decide, by decide, rfl, rfl⟩

theorem by_relay : project.ByText conf [] scripts c!"relay" c!"json" ⟨false, true, true, some c!"j"⟩ :=
  .passedOn (.text reached_relay text_relay) from_relay (source (.inr (.inl rfl))) text_compat
    (List.mem_singleton.mpr rfl) (by decide) (by simp [Project.globals, project]) edge_compat (.inr rfl)
    ⟨by decide, by decide, rfl, rfl⟩

theorem edge_relay : project.Edge conf [] scripts c!"relay" c!"json" ⟨false, true, true, some c!"j"⟩ :=
  .passedOn (.text reached_relay text_relay) from_relay (source (.inr (.inl rfl))) text_compat
    (List.mem_singleton.mpr rfl) (by decide) (by simp [Project.globals, project]) edge_compat (.inr rfl)
    ⟨by decide, by decide, rfl, rfl⟩

/-- The script gets the module by way of both. -/
theorem edge_m : project.Edge conf [] scripts c!"/m" c!"json" ⟨false, true, true, none⟩ :=
  .passedOn (.script (List.mem_singleton.mpr rfl) rfl) from_m (source (.inr (.inr rfl))) text_relay
    (List.mem_singleton.mpr rfl) (by decide) (by simp [Project.globals, project]) edge_relay (.inl rfl)
    ⟨by decide, by decide, rfl, rfl⟩

theorem clear : project.Clear conf [] scripts where
  mentioned := by
    intro x h
    have hb : Bound (.module x) := by
      cases h with
      | asked h => cases h
      | imports h1 h2 => exact bound (.imports h1 h2)
      | froms h1 h2 => exact bound (.froms h1 h2)
      | along h1 h2 => exact bound (.along h1 h2)
      | implied _ h => exact (not_implied h).elim
    rcases hb with rfl | rfl | rfl
    · exact ⟨[c!"json"], by decide⟩
    · exact ⟨[c!"compat"], by decide⟩
    · exact ⟨[c!"relay"], by decide⟩
  names := by
    refine names_of ?_ ?_
    · intro x pkg tree way name names level h1 h2
      have h3 := froms_all h2
      rcases (bound h1).tree with rfl | rfl | rfl | rfl
      · simp [allFroms, occurrences] at h3
      · simp [allFroms, treeC, occurrences] at h3
      · simp [allFroms, treeR, occurrences] at h3
        obtain ⟨rfl, rfl, rfl⟩ := h3
        exact ⟨_, .absolute rfl⟩
      · simp [allFroms, treeM, occurrences] at h3
        obtain ⟨rfl, rfl, rfl⟩ := h3
        exact ⟨_, .absolute rfl⟩
    · intro x pkg tree way t ns h1 h2
      rcases from_text (bound h1).tree h2 with ⟨_, _, rfl⟩ | ⟨_, _, rfl⟩ <;>
        refine ⟨by simp, fun nm a b h h' => ?_, fun nm a h => ?_⟩ <;> cases List.mem_singleton.mp h <;> decide
  script := by
    intro x h
    simp only [scripts, List.mem_singleton] at h
    subst h
    exact ⟨by simp [project], by decide, by decide⟩
  noEmpty := rfl
  noSix := by simp [project]
  noSwig := by
    intro x h
    rcases bound h with rfl | rfl | rfl <;> simp [Project.globals, project]
  noMypyc := by
    intro x file d _ h
    simp [project] at h
  tried := by
    intro x l h
    cases h with
    | mk _ _ _ h => exact (not_pkg h).elim
  once := fun y p q hy hp => absurd hp.dot (bound hy).dot
  passedOn := by
    intro x pkg tree way t names u nm a h1 h2 h3 h4 h5 h6 b d h7 h8
    rcases name_bound h1 h2 h3 h4 with ⟨rfl, rfl, rfl, rfl⟩ | ⟨rfl, rfl, rfl, rfl⟩
    · rcases edge_bound h7 with ⟨_, rfl⟩ | ⟨h, _⟩ | ⟨h, _⟩
      · refine ⟨⟨_, text_compat⟩, by simp [Project.globals, project], fun b' d' h _ => ?_, ⟨_, by_compat, .inr rfl⟩, ?_⟩
        · rcases edge_bound h with ⟨_, h⟩ | ⟨h, _⟩ | ⟨h, _⟩
          · exact h
          · cases h
          · cases h
        · rintro ⟨y, h, h'⟩
          rw [over (by decide) h] at h'
          rcases leads_compat h' with h | h <;> cases h
      · cases h
      · cases h
    · have key : ∀ {b d}, project.Edge conf [] scripts c!"relay" b d → Setup.Called c!"j" b d → b = c!"json" := by
        intro b d h h'
        rcases edge_bound h with ⟨h, _⟩ | ⟨_, ⟨h, hd⟩ | h⟩ | ⟨h, _⟩
        · cases h
        · subst h
          rcases h' with h' | h'
          · rw [hd] at h'; cases h'
          · cases h'
        · exact h
        · cases h
      have := key h7 h8
      subst this
      refine ⟨⟨_, text_relay⟩, by simp [Project.globals, project], fun b' d' h h' => key h h', ⟨_, by_relay, .inl rfl⟩, ?_⟩
      rintro ⟨y, h, h'⟩
      rw [over (by decide) h] at h'
      rcases leads h' with h | h
      · cases h
      · rcases h with h | h | h <;> cases h
  static := fun _ _ _ h => (not_pkg h).elim
  variables := fun _ _ _ h => (not_pkg h).elim

end Relay

theorem Relay.passes : Relay.project.Passes Relay.conf c!"relay" c!"j" c!"json" :=
  .from Relay.text_relay (by simp [Project.globals, Relay.project]) Relay.from_relay (Relay.source (.inr (.inl rfl)))
    (List.mem_singleton.mpr rfl) (by decide)
    (.imports Relay.text_compat (by simp [Project.globals, Relay.project]) Relay.import_compat (.inr rfl)) (.inl rfl)

/-- The hypotheses of `C66_project` and `C73_passed_on` are met. -/
example : ∃ N, ∀ n, N ≤ n →
    let r := runClient (((projectEnv Relay.project (fun _ => true) ()).withLoaders
        (projectLoaders Relay.project exOrd Relay.trees Relay.codes) 1).withTexts (projectTexts Relay.project exOrd)) n
      (configureThen [] [] (doAll [.addScript c!"/m"])) (initState () [] true)
    r.1 = .ok none ∧ (c!"/m", c!"json", DepInfo.mk false true true none) ∈ r.2.edges ∧
    (c!"relay", c!"json", DepInfo.mk false true true (some c!"j")) ∈ r.2.edges := by
  have hS := project_shows (I := fun _ : Unit => True) (there := fun _ => true) (away := ()) (ord := exOrd) (ord' := exOrd)
    Relay.compiled fun _ _ => rfl
  have hdom : ∀ x, Relay.project.item x ≠ none → x ∈ [c!"json", c!"compat", c!"relay"] := by
    intro x h
    simp only [Relay.project] at h
    repeat' split at h
    all_goals simp_all
  have hA : Adding [] Relay.scripts [.addScript c!"/m"] := ⟨by simp, by simp [Relay.scripts], by simp, by simp [ScriptsOnce]⟩
  obtain ⟨N, h⟩ := C66_project Relay.project [] [] [] [] Relay.scripts Relay.clear _ hdom
    (fun _ => True) (projectEnv Relay.project (fun _ => true) ())
    (projectLoaders Relay.project exOrd Relay.trees Relay.codes) (projectTexts Relay.project exOrd)
    hS exOrd_ok exOrd_ok 0 (fun _ _ _ => Iff.rfl) [.addScript c!"/m"] hA () trivial true
  obtain ⟨N', h'⟩ := C73_passed_on Relay.project [] [] [] [] Relay.scripts Relay.clear _ hdom
    (fun _ => True) (projectEnv Relay.project (fun _ => true) ())
    (projectLoaders Relay.project exOrd Relay.trees Relay.codes) (projectTexts Relay.project exOrd)
    hS exOrd_ok exOrd_ok 0 (fun _ _ _ => Iff.rfl) [.addScript c!"/m"] hA () trivial true
  refine ⟨max N N', fun n hn => ?_⟩
  obtain ⟨h1, _, _, h2, h3, _⟩ := h n (by omega)
  exact ⟨h1, (h' n (by omega)).1 _ _ _ _ _ _ _ _ _ _ _ (.script (List.mem_singleton.mpr rfl) rfl) Relay.from_m
    (Relay.source (.inr (.inr rfl))) (List.mem_singleton.mpr rfl) (by decide) Relay.passes ⟨by decide, by decide, rfl, rfl⟩,
    (h3 _ _ _).mpr Relay.edge_relay⟩

end Verif.Props
