import Verif.Props.Names
import Verif.Props.Api
/-!
# C56: names that are no module names
-/
namespace Verif.Props
open Verif Spec

variable {W : Type}

/-- Not the name of a module: no text besides dots, two dots in a row, or a dot at the start. -/
def BadName (name : Str) : Prop :=
  (∀ c ∈ name, c = '.') ∨ c!".." <:+: name ∨ ∃ r, name = '.' :: r

/-- No node is called by a name that starts with a dot (such nodes stand for invalid relative
imports), or by `name`. -/
def NoDotNodes (s : St W) (name : Str) : Prop :=
  ∀ x ∈ s.nodes, x.ident ≠ name ∧ ∀ r, x.ident ≠ '.' :: r

theorem dropWhile_infix {name : Str} (h : c!".." <:+: name) (hd : ∀ r, name ≠ '.' :: r) :
    name.dropWhile (· == '.') = name := by
  cases name with
  | nil => rfl
  | cons a l =>
    have : a ≠ '.' := fun e => hd l (by rw [e])
    rw [List.dropWhile_cons_of_neg (by simpa using this)]

/-- Such names are rejected by `_find_or_load_module`, and nothing happens. -/
theorem findOrLoad_bad (env : Env W) (k : Nat) : ∀ (n : Nat) (name : Str) (s : St W) (imp : Option Node)
    (b : Bool), name.length < k → k ≤ n → BadName name → NoDotNodes s name →
    (calls env (n + 1)).findOrLoad imp name b s = (.error (.valueError false), s) := by
  induction k with
  | zero => intro n name s imp b h; omega
  | succ k ih =>
    intro n name s imp b hl hn hb hs
    have hf : s.find name = none := by
      cases h : s.find name with
      | none => rfl
      | some x => exact absurd (find_some h).2 (hs x (find_some h).1).1
    show findOrLoadBody (calls env n) imp name b s = _
    unfold findOrLoadBody
    rw [M.bind_findModule_none _ hf]
    simp only []
    cases hsp : splitPackage name with
    | error e =>
      rw [C25_error_is_value_error name e hsp]
      rfl
    | ok r =>
      obtain ⟨pkg, last⟩ := r
      obtain ⟨⟨c, hc, hc'⟩, hacc⟩ := (C25_accepted_iff name).mp ⟨_, hsp⟩
      -- the name starts with a dot
      have hdot : ∃ r, name = '.' :: r := by
        rcases hb with h | h | h
        · exact absurd (h c hc) hc'
        · refine Classical.byContradiction fun hd => hacc ?_
          rw [dropWhile_infix h fun r hr => hd ⟨r, hr⟩]
          exact h
        · exact h
      obtain ⟨r1, hr1⟩ := hdot
      have hsplit : ∃ d pre last, IsSplit name d pre last := by
        refine Classical.byContradiction fun hn => ?_
        rw [splitPackage_error_iff.mpr hn] at hsp; cases hsp
      obtain ⟨d, pre, last', hsplit⟩ := hsplit
      have hok := C25_split_package_ok name d pre last' hsplit
      obtain ⟨heq, hcomps, hlast, hne⟩ := hsplit
      have hd : d ≠ 0 := by
        rintro rfl
        rw [hr1] at heq
        cases pre with
        | nil =>
          cases last' with
          | nil => exact hne rfl rfl
          | cons a l =>
            simp only [List.replicate_zero, List.nil_append, dotted, List.cons.injEq] at heq
            exact hlast (by rw [← heq.1]; exact List.mem_cons_self ..)
        | cons q qs =>
          obtain ⟨hq1, hq2⟩ := hcomps q (List.mem_cons_self ..)
          cases q with
          | nil => exact hq2 rfl
          | cons a l =>
            cases hqs : qs ++ [last'] with
            | nil => simp at hqs
            | cons u v =>
              simp only [List.replicate_zero, List.nil_append, List.cons_append, hqs, dotted,
                List.cons.injEq] at heq
              exact hq1 (by rw [← heq.1]; exact List.mem_cons_self ..)
      rw [hsp] at hok
      simp only [hd, false_and, if_false, Except.ok.injEq, Prod.mk.injEq] at hok
      obtain ⟨rfl, -⟩ := hok
      rw [M.bind_ofExcept]
      simp only []
      have hlen : (List.replicate d '.' ++ dotted pre).length < name.length := by
        rw [heq]
        cases pre with
        | nil =>
          have := List.length_pos_iff.mpr (hne rfl)
          simp only [dotted, List.nil_append, List.length_append, List.append_nil]
          omega
        | cons q qs =>
          rw [dotted_snoc last' (List.cons_ne_nil q qs)]
          simp only [List.length_append, List.length_cons]
          omega
      have hstart : ∃ r, List.replicate d '.' ++ dotted pre = '.' :: r := by
        cases d with
        | zero => exact absurd rfl hd
        | succ d => exact ⟨List.replicate d '.' ++ dotted pre, by simp [List.replicate_succ]⟩
      obtain ⟨n, rfl⟩ : ∃ m, n = m + 1 := ⟨n - 1, by omega⟩
      rw [M.bind_assoc, M.bind_of_error (ih n _ s imp true (by omega) (by omega) (.inr (.inr hstart)) ?_)]
      intro x hx
      refine ⟨fun he => ?_, (hs x hx).2⟩
      obtain ⟨r, hr⟩ := hstart
      exact (hs x hx).2 r (he.trans hr)

/-- C56: `add_module` raises `ValueError` for names that are no module names, and the graph is as
before. -/
theorem C56_add_module (env : Env W) (n : Nat) (name : Str) (s : St W) (hn : name.length + 2 < n)
    (hb : BadName name) (hs : NoDotNodes s name) :
    (calls env n).op (.addModule name) s = (.error (.valueError false), s.event .failed) := by
  obtain ⟨n, rfl⟩ : ∃ m, n = m + 2 := ⟨n - 2, by omega⟩
  have hf : s.find name = none := by
    cases h : s.find name with
    | none => rfl
    | some x => exact absurd (find_some h).2 (hs x (find_some h).1).1
  show opBody env (calls env (n + 1)) (.addModule name) s = _
  have : apiBody env (calls env (n + 1)) (.addModule name) s = (.error (.valueError false), s) := by
    show M.bind (addModule (calls env (n + 1)) name) _ s = _
    unfold addModule
    rw [M.bind_assoc, M.bind_findModule_none _ hf]
    simp only []
    rw [M.bind_assoc, M.bind_of_error (findOrLoad_bad env n n name s none true (by omega)
      (Nat.le_refl _) hb hs)]
  unfold opBody
  rw [this]

/-- C56: the same for `import_module`. -/
theorem C56_import_module (env : Env W) (n : Nat) (imp : Node) (name : Str) (s : St W)
    (hn : name.length + 2 < n) (hb : BadName name) (hs : NoDotNodes s name) :
    (calls env n).op (.importModule imp name) s = (.error (.valueError false), s.event .failed) := by
  obtain ⟨n, rfl⟩ : ∃ m, n = m + 2 := ⟨n - 2, by omega⟩
  have hf : s.find name = none := by
    cases h : s.find name with
    | none => rfl
    | some x => exact absurd (find_some h).2 (hs x (find_some h).1).1
  show opBody env (calls env (n + 1)) (.importModule imp name) s = _
  have : apiBody env (calls env (n + 1)) (.importModule imp name) s = (.error (.valueError false), s) := by
    show M.bind (importModule (calls env (n + 1)) imp name) _ s = _
    unfold importModule
    rw [M.bind_assoc, M.bind_findModule_none _ hf]
    simp only []
    rw [M.bind_assoc, M.bind_of_error (findOrLoad_bad env n n name s (some imp) true (by omega)
      (Nat.le_refl _) hb hs)]
  unfold opBody
  rw [this]

/-- `t` imports `..x`, which is no relative import that can work. -/
def dotsTable : Demo.Table := { mods := [(c!"t", Demo.src c!"t", [Demo.fromImp 2 c!"x" [c!"y"]])] }

/-- The hypotheses of the theorems are met, also in a graph with nodes. -/
example :
    BadName c!"..x" ∧ BadName c!"a..b" ∧ BadName c!"" ∧ BadName c!"..." ∧
    (∀ x ∈ (Demo.run Demo.small [.addModule c!"a"]).2.nodes,
      x.ident ≠ c!"a..b" ∧ ∀ r, x.ident ≠ '.' :: r) ∧
    ((calls (Demo.env Demo.small) 10).op (.addModule c!"a..b")
      (Demo.run Demo.small [.addModule c!"a"]).2).1 = .error (.valueError false) := by
  have h : (Demo.run Demo.small [.addModule c!"a"]).2.nodes.all
      (fun x => x.ident != c!"a..b" && x.ident.head? != some '.') = true := by decide +kernel
  refine ⟨.inr (.inr ⟨_, rfl⟩), .inr (.inl ⟨c!"a", c!"b", rfl⟩), .inl (by simp), .inl (by decide),
    fun x hx => ?_, by decide +kernel⟩
  have := List.all_eq_true.mp h x hx
  simp only [Bool.and_eq_true, bne_iff_ne, ne_eq] at this
  exact ⟨this.1, fun r hr => this.2 (by rw [hr]; rfl)⟩

/-- A surprise, and why `NoDotNodes` is needed: once a module with an invalid relative import was
processed, `add_module("..x")` no longer raises but makes the node for the invalid import a root. -/
theorem C56_invalid_becomes_root :
    (Demo.run dotsTable [.addModule c!"..x"]).2.nodes = [] ∧
    (Demo.run dotsTable [.addModule c!"..x"]).2.roots = [] ∧
    (Demo.run dotsTable [.addModule c!"t", .addModule c!"..x"]).2.roots = [c!"t", c!"..x"] ∧
    (Demo.run dotsTable [.addModule c!"t", .addModule c!"..x"]).2.find c!"..x" =
      some (invalidRelNode c!"..x") := by
  decide +kernel

/-- The text in front of the last dot of a name with leading dots (for names with no other dots: the leading dots). -/
theorem C56_split {name : Str} {d : Nat} {pre : List Str} {last : Str} (h : IsSplit name (d + 1) pre last) :
    splitPackage name = .ok (some (List.replicate (d + 1) '.' ++ dotted pre), last) := by
  rw [C25_split_package_ok name _ _ _ h]
  simp

/-- C56: a name below an invalid relative import that is in the graph: `add_module` raises `AssertionError` instead, and
the graph is as before. -/
theorem C56_below_invalid (env : Env W) (n : Nat) (name : Str) (d : Nat) (pre : List Str) (last : Str) (s : St W)
    (hname : IsSplit name (d + 1) pre last) (hnew : ∀ x ∈ s.nodes, x.ident ≠ name)
    (hin : ∃ q ∈ s.nodes, q.ident = List.replicate (d + 1) '.' ++ dotted pre)
    (hinv : ∀ q ∈ s.nodes, q.ident = List.replicate (d + 1) '.' ++ dotted pre → q.kind = .invalidRel)
    (hlazy : s.lazy name = none) :
    (calls env (n + 3)).op (.addModule name) s = (.error .assertion, s.event .failed) := by
  have hf : s.find name = none := by
    cases h : s.find name with
    | none => rfl
    | some x => exact absurd (find_some h).2 (hnew x (find_some h).1)
  obtain ⟨q, hq⟩ : ∃ q, s.find (List.replicate (d + 1) '.' ++ dotted pre) = some q := by
    obtain ⟨q, hq, hi⟩ := hin
    cases h : s.find (List.replicate (d + 1) '.' ++ dotted pre) with
    | some x => exact ⟨x, rfl⟩
    | none =>
      have h2 := List.find?_eq_none.mp (show s.nodes.find? _ = none from h) q hq
      simp [hi] at h2
  have hk := hinv q (find_some hq).1 (find_some hq).2
  have hpkg : ∀ imp b, (calls env (n + 1)).findOrLoad imp (List.replicate (d + 1) '.' ++ dotted pre) b s = (.ok q, s) := by
    intro imp b
    show findOrLoadBody (calls env n) imp _ b s = _
    unfold findOrLoadBody
    rw [M.bind_findModule_some _ hq (by simp [Node.isBaseNode, hk])]
    rfl
  have himp : ∀ imp, (calls env (n + 1)).implied imp name s = (.ok none, s) := by
    intro imp
    show impliedBody (calls env n) imp name s = _
    unfold impliedBody
    rw [M.bind_findNode, hf]
    simp only []
    rw [M.bind_get, hlazy]
    rfl
  have hload : ∀ imp, (calls env (n + 1)).loadModule imp name s = (.error .assertion, s) := by
    intro imp
    show loadModuleBody env (calls env n) imp name s = _
    unfold loadModuleBody
    rw [if_pos]
    · rfl
    · rw [hname.1]
      simp [startsWith, List.replicate_succ]
  show opBody env (calls env (n + 2)) (.addModule name) s = _
  have : apiBody env (calls env (n + 2)) (.addModule name) s = (.error .assertion, s) := by
    show M.bind (addModule (calls env (n + 2)) name) _ s = _
    unfold addModule
    rw [M.bind_assoc, M.bind_findModule_none _ hf]
    simp only []
    have h : (calls env (n + 2)).findOrLoad none name true s = (.error .assertion, s) := by
      show findOrLoadBody (calls env (n + 1)) none name true s = _
      unfold findOrLoadBody
      rw [M.bind_findModule_none _ hf, C56_split hname]
      simp only []
      rw [M.bind_ofExcept]
      simp only []
      rw [M.bind_assoc, M.bind_of_ok (hpkg none true)]
      rw [if_neg (by simp [Node.isMissing, hk]), if_neg (by simp [Node.isExcluded, hk]), M.bind_pure]
      simp only []
      rw [M.bind_assoc, M.bind_of_ok (himp none)]
      simp only []
      rw [M.bind_of_error (hload none)]
    rw [M.bind_assoc, M.bind_of_error h]
  unfold opBody
  rw [this]

/-- After `t` the graph has the invalid relative import `..x`; `..x.y` is below it. -/
example :
    let s := (Demo.run dotsTable [.addModule c!"t"]).2
    IsSplit c!"..x.y" 2 [c!"x"] c!"y" ∧ s.nodes.map (fun q => (q.ident, q.isInvalidRel)) = [(c!"t", false), (c!"..x", true)] ∧
    s.lazy c!"..x.y" = none ∧
    ((calls (Demo.env dotsTable) 10).op (.addModule c!"..x.y") s).1 = .error .assertion := by
  refine ⟨⟨rfl, by decide, by decide, by decide⟩, by decide +kernel, by decide +kernel, by decide +kernel⟩

/-- Two scripts that say `from .b import f`. -/
def relScripts : Demo.Table :=
  { scripts := [(c!"./s.py", [Demo.fromImp 1 c!"b" [c!"f"]]), (c!"/s.py", [Demo.fromImp 1 c!"b" [c!"f"]])] }

/-- C08 is about modules.  What happens for scripts, whose "name" is a path: with an absolute path the
import is taken to be of a module `/s.b`; with a relative path `add_script` fails with `AssertionError`,
and the script stays in the graph without its imports. -/
theorem C08_script_in_graph :
    (Demo.run relScripts [.addScript c!"/s.py"]).2.nodes.map (·.ident) = [c!"/s.py", c!"/s", c!"/s.b"] ∧
    ((calls (Demo.env relScripts) 30).op (.addScript c!"./s.py") (initState () [] true)).1 =
      .error .assertion ∧
    (Demo.run relScripts [.addScript c!"./s.py"]).2.nodes.map (·.ident) = [c!"./s.py"] ∧
    (Demo.run relScripts [.addScript c!"./s.py"]).2.edges = [] := by
  decide +kernel

end Verif.Props
