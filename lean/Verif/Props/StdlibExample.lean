import Verif.Props.ProjectExample
import Verif.Props.StdlibTable
/-!
# C65: an example

The extension module `_json` and the package `json` with the built-in table, which says that `_json`
implies `json.decoder`.
-/
namespace Verif.Props
open Verif Spec Proj

namespace Json

def project : Project where
  item x :=
    if x = c!"_json" then some (.extension c!"/_json.so")
    else if x = c!"json" then some (.package c!"/json/__init__.py" [] (.other []) [] [] [c!"/json"] false)
    else if x = c!"json.decoder" then some (.source c!"/json/decoder.py" [] (.other []) [] [])
    else none
  script := fun _ => none
  parent := fun _ => c!"/json"
  resolve := fun p => p
  dist := fun _ => none

def table : List (Str × Implies) := stdlibImplies c!"posixpath" c!"_sysconfigdata" false
def mods : List Str := [c!"_json"]
def trees (_ _ : Str) : Ast := .other []
def codes (_ : Str) : Code := .mk 0 [] [] .nil

theorem code_empty (x) : extractBytecodeInfo true (codes x) = .ok ([], [], []) := by
  show extractBytecodeInfo true (.mk 0 [] [] .nil) = _
  decide +kernel

theorem compiled : Compiled project trees codes where
  source := by
    intro x file text tree g r h
    rcases h with h | ⟨path, data, h⟩
    all_goals
      simp only [project] at h
      repeat' split at h
      all_goals simp at h
    · obtain ⟨rfl, rfl, rfl, rfl, rfl⟩ := h
      exact ⟨rfl, [], code_empty x⟩
    · obtain ⟨rfl, rfl, rfl, rfl, rfl, _⟩ := h
      exact ⟨rfl, [], code_empty x⟩
  package := by
    intro x file text tree g r path data h
    simp only [project] at h
    repeat' split at h
    all_goals simp at h
    obtain ⟨rfl, rfl, rfl, rfl, rfl, rfl, rfl⟩ := h
    exact ⟨by simp, rfl⟩
  other := by
    intro x it h
    simp only [project] at h
    repeat' split at h
    all_goals first | cases h; trivial | cases h

theorem text_empty {x pkg tree} (h : project.text x = some (pkg, tree)) : tree = .other [] := by
  simp only [Project.text] at h
  split at h
  all_goals
    rename_i hi
    simp only [project] at hi
    repeat' split at hi
  all_goals simp_all

theorem conf_of {x : Str} (h1 : ¬ x = c!"__main__") (h2 : ¬ (x, Implies.excluded) ∈ table) :
    configured [] table x = (table.reverse.find? fun p => p.1 = x).map Prod.snd := by
  unfold configured
  rw [if_neg (by simp [h1, h2])]

theorem conf_json : configured [] table c!"_json" = some (.refs [c!"json.decoder"]) := by
  rw [conf_of (by decide) (by decide +kernel)]
  decide +kernel

theorem conf_other {x} (h : x = c!"json" ∨ x = c!"json.decoder") : configured [] table x = none := by
  rcases h with rfl | rfl
  · rw [conf_of (by decide) (by decide +kernel)]
    decide +kernel
  · rw [conf_of (by decide) (by decide +kernel)]
    decide +kernel

def Bound : Place → Prop
  | .module x => x = c!"_json" ∨ x = c!"json" ∨ x = c!"json.decoder"
  | .text _ _ tree => tree = .other []

theorem empty_nested {way x} (h : Nested (.other []) way x) : x = .other [] := by
  cases h with
  | here => rfl
  | plain h _ => cases h

theorem no_import {way t a} (h : HasImport (.other []) way t a) : False := by
  obtain ⟨_, h, _⟩ := h
  cases empty_nested h
theorem no_from {x pkg way t names} (h : HasFrom x pkg (.other []) way t names) : False := by
  obtain ⟨_, _, h, _⟩ := h
  cases empty_nested h

theorem implied_json {x r} (hx : Bound (.module x)) (h : Project.Implied (configured [] table) x r) : x = c!"_json" ∧ r = c!"json.decoder" := by
  obtain ⟨l, h1, h2⟩ := h
  rcases hx with rfl | hx
  · rw [conf_json] at h1
    cases h1
    exact ⟨rfl, List.mem_singleton.mp h2⟩
  · rw [conf_other hx] at h1
    cases h1

theorem no_alias {x t} (hx : Bound (.module x)) (h : project.Along (configured [] table) x t) : False := by
  have h := alias_conf (along_alias (fun _ => rfl) h)
  rcases hx with rfl | hx
  · rw [conf_json] at h
    simp at h
  · rw [conf_other hx] at h
    simp at h

theorem package_json {x p : Str} (h : Bound (.module x)) (hp : HasPackage x p) : p = c!"json" := by
  rcases h with rfl | rfl | rfl
  · exact absurd hp.dot (by decide)
  · exact absurd hp.dot (by decide)
  · exact hp.unique ⟨c!"decoder", rfl, by decide⟩

theorem bound {pl} (h : project.Reached (configured [] table) mods [] pl) : Bound pl := by
  induction h with
  | asked h => exact .inl (List.mem_singleton.mp h)
  | package _ h ih => exact .inr (.inl (package_json ih h))
  | along _ h ih => exact (no_alias ih h).elim
  | implied _ _ h ih => exact .inr (.inr (implied_json ih h).2)
  | text _ h => exact text_empty h.1
  | script h => cases h
  | imports _ h ih => cases ih; exact (no_import h).elim
  | froms _ h ih => cases ih; exact (no_from h).elim
  | names _ h _ _ _ _ _ ih => cases ih; exact (no_from h).elim

theorem wanted {t nm} (h : project.Wanted (configured [] table) mods [] t nm) : False := by
  obtain ⟨x, pkg, tree, way, t', names, a, h1, h2, h3⟩ := h
  cases bound h1
  exact no_from h2

theorem node_json {n} : project.NodeOf (configured [] table) c!"json" n ↔ n = project.node c!"json" := by
  rw [of_top (by decide), own_plain (.inl (conf_other (.inl rfl)))]

theorem in_place {x p q} (h : Bound (.module x)) (hp : HasPackage x p) (hq : project.NodeOf (configured [] table) p q) :
    q.isMissing = false ∧ q.isExcluded = false := by
  rw [package_json h hp] at hq
  rw [node_json.mp hq]
  exact ⟨rfl, rfl⟩

theorem clear : project.Clear (configured [] table) mods [] where
  mentioned := by
    intro x h
    have : Bound (.module x) := by
      cases h with
      | asked h => exact .inl (List.mem_singleton.mp h)
      | imports h1 h2 => cases bound h1; exact (no_import h2).elim
      | froms h1 h2 => cases bound h1; exact (no_from h2).elim
      | along h1 h => exact (no_alias (bound h1) h).elim
      | implied h1 h => exact .inr (.inr (implied_json (bound h1) h).2)
    rcases this with rfl | rfl | rfl
    · exact ⟨[c!"_json"], by decide⟩
    · exact ⟨[c!"json"], by decide⟩
    · exact ⟨[c!"json", c!"decoder"], by decide⟩
  names := by
    intro x pkg tree way name names level h1 h2
    cases bound h1
    cases empty_nested h2
  script := by
    intro x h
    cases h
  noEmpty := rfl
  noSix := by simp [project]
  noSwig := by
    intro x h
    rcases bound h with rfl | rfl | rfl <;> simp [Project.globals, project]
  noMypyc := by
    intro x file d _ h
    simp [project] at h
  tried := by
    intro x l h
    cases h with
    | mk h1 h2 => cases bound h1; exact (no_from h2).elim
  once := by
    intro y p q hy hp hq hb
    obtain ⟨h1, h2⟩ := in_place (bound hy) hp hq
    rw [h1, h2] at hb
    simp at hb
  passedOn := fun _ _ _ _ _ _ _ _ _ h1 h2 h3 h4 h5 => (wanted ⟨_, _, _, _, _, _, _, h1, h2, h3, h4, h5⟩).elim
  static := fun _ _ h => (wanted h).elim
  variables := fun _ _ h => (wanted h).elim

end Json

/-- The hypotheses of `C65_table_partial` are met. -/
example (n : Nat) :
    let r := runClient (world (projectEnv Json.project (fun _ => true) ()) (projectLoaders Json.project exOrd Json.trees Json.codes)
      (projectTexts Json.project exOrd) 0) (n + 1) (configureThen [] [] (doAll [.addModule c!"_json"]))
      (initState () (stdlibImplies c!"posixpath" c!"_sysconfigdata" false) true)
    r.1 ≠ .error .fuel → (∃ x, r.1 = .ok x) ∧ Event.failed ∉ r.2.log := by
  have hS := project_shows (I := fun _ => True) (ord := exOrd) (ord' := exOrd) (there := fun _ => true) (away := ())
    Json.compiled fun _ _ => rfl
  have hn : ∀ x, Json.project.item x = none → ∀ w, ((projectEnv Json.project (fun _ => true) ()).findSpec x w).1 = .ok none := by
    intro x hx w
    simp [projectEnv, hx]
  let L : Loaders Unit := projectLoaders Json.project exOrd Json.trees Json.codes
  have hc : Scan Json.project (records Json.project L) := scan exOrd_ok hS
  have hs := safe Json.clear hc exOrd_ok
  have hmy := no_mypyc Json.clear hc exOrd_ok
  refine C65_table_partial (setup Json.project (records Json.project L) exOrd (configured [] Json.table) Json.mods []) (tame Json.clear hc exOrd_ok)
    ⟨by decide, by decide, rfl, ?_, ?_⟩ hs.names hs.noCode _ (describes hS hn (fun path w _ => ⟨.osError, by simp [projectTexts, Json.project]⟩)
      (fun x w d h => by simp [projectEnv, h]) (fun src w l h => by simp [projectTexts, h, Json.project]) 0 hmy) (works Json.clear hS hn 0 hmy) (fun _ _ _ => Iff.rfl)
    [.addModule c!"_json"] ⟨by simp [setup, Json.mods], by simp [setup], by simp [setup], by simp [Setup.Adds]⟩ (by simp [ScriptsOnce]) () true n
  · intro x m infos h
    obtain ⟨_, rfl, _⟩ := mods_iff.mp h
    exact node_ident
  · intro x hx h
    exfalso
    have : Json.Bound (.module x) := by
      rcases (needs_iff Json.clear hc exOrd_ok).mp h with h | h
      · exact Json.bound h
      · cases h with
        | mk h1 h2 => cases Json.bound h1; exact (Json.no_from h2).elim
    rcases hx with rfl | rfl <;> simp [Json.Bound] at this

end Verif.Props
