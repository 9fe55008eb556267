import Verif.Spec.LocateSpec
import Verif.Proofs.Search
import Verif.Props.Api
import Verif.Proofs.Fuel
import Verif.Spec.Demo
/-!
# C72: searching for a module
-/
namespace Verif.Props
open Verif Spec

variable {W : Type} {env : Env W} {x : Str}

theorem _root_.Verif.M.Le.of_ok {α} {m m' : M W α} (h : M.Le m m') {s s' : St W} {a}
    (h' : m s = (.ok a, s')) : m' s = (.ok a, s') := by
  rcases h s with h | h
  · rw [h'] at h; cases h
  · exact h.trans h'

theorem startsWith_false (h : x.head? ≠ some '.') : startsWith c!"." x = false := by
  cases x with
  | nil => rfl
  | cons a l =>
    have : a ≠ '.' := by rintro rfl; exact h rfl
    simp [startsWith, List.isPrefixOf, this.symm]

theorem find_of_has {s : St W} (h : s.has x = false) : s.find x = none := by
  cases hf : s.find x with
  | none => rfl
  | some n => rw [has_of_find hf] at h; cases h

section
variable {rec : Calls W} {imp : Option Node} {s : St W}

/-- After a search that failed. -/
theorem load_failed {e w'} (hdot : startsWith c!"." x = false) (hnew : s.has x = false)
    (h : Search env x s.world (.error e) w') (he : IsException e) :
    loadModuleBody env rec imp x s = loadFallback env rec imp x e { s with world := w' } := by
  have he := (isException_iff e).mpr he
  unfold loadModuleBody
  rw [if_neg (by rw [hdot]; simp), M.bind_findNode, find_of_has hnew]
  simp only []
  rw [M.bind_of_ok (a := .error e) (s' := { s with world := w' })]
  · simp only [he, if_true]
  · unfold M.attempt
    rw [M.bind_of_error (e := e) (s' := { s with world := w' })]
    · cases e <;> first | rfl | cases he
    · unfold M.ext
      rw [search_eq h]

theorem load_found {spec w'} (hdot : startsWith c!"." x = false) (hnew : s.has x = false)
    (h : Search env x s.world (.ok (some spec)) w') :
    loadModuleBody env rec imp x s = addLoaded env rec x spec { s with world := w' } := by
  unfold loadModuleBody
  rw [if_neg (by rw [hdot]; simp), M.bind_findNode, find_of_has hnew]
  simp only []
  rw [M.bind_of_ok (a := .ok (.inr spec)) (s' := { s with world := w' })]
  unfold M.attempt
  rw [M.bind_ext _ (search_eq h)]
  rfl

theorem rpartition_eq {c : Char} {a b : Str} (h : c ∉ b) : rpartition c (a ++ c :: b) = (a, [c], b) := by
  unfold rpartition
  rw [rfindSplit_some.mpr ⟨rfl, h⟩]

theorem rstrip_slashes {d : Str} (h : d.getLast? ≠ some '/') (k : Nat) : rstrip '/' (d ++ List.replicate k '/') = d := by
  unfold rstrip
  rw [List.reverse_append, List.reverse_replicate]
  have : lstrip '/' d.reverse = d.reverse := by
    cases hr : d.reverse with
    | nil => rfl
    | cons a l =>
      have : a ≠ '/' := by
        rintro rfl
        apply h
        rw [← List.reverse_reverse d, hr]
        simp
      simp [lstrip, this]
  have key : ∀ k, lstrip '/' (List.replicate k '/' ++ d.reverse) = d.reverse := by
    intro k
    induction k with
    | zero => exact this
    | succ k ih => simpa [List.replicate_succ, lstrip] using ih
  rw [key, List.reverse_reverse]

theorem dirname_fileIn {dir name file : Str} (h : FileIn dir name file) :
    dirname file = dir ∧ (rpartition '/' file).2.2 = name := by
  obtain ⟨hn, k, ⟨h1, h2, rfl⟩ | ⟨rfl, rfl⟩⟩ := h
  · have e : dir ++ List.replicate (k + 1) '/' ++ name = (dir ++ List.replicate k '/') ++ '/' :: name := by
      rw [List.replicate_succ']
      simp
    rw [e]
    refine ⟨?_, by rw [rpartition_eq hn]⟩
    unfold dirname
    rw [rfindSplit_some.mpr ⟨rfl, hn⟩]
    simp only []
    rw [if_neg, List.append_assoc, ← List.replicate_succ', rstrip_slashes h2]
    intro hall
    rw [List.all_eq_true] at hall
    obtain ⟨l, a, rfl⟩ : ∃ l a, dir = l ++ [a] := ⟨_, _, (List.dropLast_concat_getLast h1).symm⟩
    have : a = '/' := by simpa using hall a (by simp)
    simp [this] at h2
  · have e : List.replicate (k + 1) '/' ++ name = List.replicate k '/' ++ '/' :: name := by
      rw [List.replicate_succ']
      simp
    rw [e]
    refine ⟨?_, by rw [rpartition_eq hn]⟩
    unfold dirname
    rw [rfindSplit_some.mpr ⟨rfl, hn⟩]
    simp only []
    rw [if_pos, ← List.replicate_succ']
    rw [List.all_eq_true]
    intro x hx
    rw [← List.replicate_succ'] at hx
    simp [List.eq_of_mem_replicate hx]

/-- After the second search, for the package. -/
theorem load_second {p : Str} {b : Bool} {spec w'} (hdot : startsWith c!"." x = false) (hnew : s.has x = false)
    (h : Second env x p s.world b spec w') :
    loadModuleBody env rec imp x s =
      (if b then
        match spec.origin with
        | none => M.throw .assertion
        | some path =>
          if !startsWith c!"__init__." (rpartition '/' path).2.2 then M.throw .assertion
          else
            M.bind (M.modify fun s => { s with world := env.setFake p (dirname path) s.world }) fun _ =>
            rec.loadModule imp x
      else rec.createMissing imp x) { s with world := w' } := by
  obtain ⟨⟨c, hc, rfl⟩, e, w1, w2, h1, h2, h3, h4, h5, h6, h7⟩ := h
  rw [load_failed hdot hnew h1 h2]
  unfold loadFallback
  rw [if_pos h3, rpartition_eq hc]
  simp only []
  rw [M.bind_get, if_neg (by simp [h4]), M.bind_ext _ h5]
  simp only []
  rw [M.bind_get, if_neg (by simp [h6]), M.bind_ext _ h7]
  rfl

theorem load_missing {n s' w'} (hdot : startsWith c!"." x = false) (hnew : s.has x = false)
    (h : Misses env x s.world w') (hc : rec.createMissing imp x { s with world := w' } = (.ok n, s')) :
    loadModuleBody env rec imp x s = (.ok n, s') := by
  rcases h with h | h | ⟨p, spec, h⟩
  · unfold loadModuleBody
    rw [if_neg (by rw [hdot]; simp), M.bind_findNode, find_of_has hnew]
    simp only []
    rw [M.bind_of_ok (a := .ok (.inl n)) (s' := s')]
    · rfl
    · unfold M.attempt
      rw [M.bind_ext _ (search_eq h)]
      simp only []
      rw [M.bind_of_ok hc]
      rfl
  · rw [load_failed hdot hnew h (by simp [IsException])]
    unfold loadFallback
    rw [if_neg (by simp)]
    exact hc
  · rw [load_second hdot hnew h]
    exact hc

theorem load_retry {w1} (hdot : startsWith c!"." x = false) (hnew : s.has x = false) (h : Retry env x s.world w1) :
    loadModuleBody env rec imp x s = rec.loadModule imp x { s with world := w1 } := by
  obtain ⟨p, spec, w2, dir, ext, file, h1, h2, h3, rfl⟩ := h
  rw [load_second hdot hnew h1]
  obtain ⟨hd, hb⟩ := dirname_fileIn h2
  simp only [if_true, h3, hd, hb]
  rw [if_neg (by simp [startsWith, List.isPrefixOf])]
  rfl

/-- The node of a module that was found. -/
theorem add_found {spec node imports w'} (hnew : s.has x = false)
    (h : env.nodeForSpec spec s.world = (.ok (node, imports), w')) (hid : node.ident = x)
    (hns : ∀ f i l d ns, node.kind ≠ .package f i l d (some ns)) :
    ∃ s', addLoaded env rec x spec s = (.ok node, s') ∧ s'.nodes = s.nodes ++ [node] ∧ s'.edges = s.edges ∧
      s'.roots = s.roots ∧ s'.world = w' ∧ (∀ it ∈ s.stack, it ∈ s'.stack) ∧
      ∀ i ∈ imports, .imp node i ∈ s'.stack := by
  unfold addLoaded
  rw [M.bind_ext _ h]
  simp only []
  rw [if_neg (by simp [hid]), M.bind_addNode _ (by rw [hid]; exact hnew)]
  rw [M.bind_pure, M.bind_schedule]
  refine ⟨_, rfl, ?_⟩
  unfold St.schedule
  simp only [St.addNode]
  split
  · refine ⟨rfl, rfl, rfl, rfl, fun it h => by simp [h], fun i h => ?_⟩
    simp only [List.mem_append, List.mem_map]
    exact .inr ⟨i, h, rfl⟩
  · refine ⟨rfl, rfl, rfl, rfl, fun it h => by simp [h], fun i h => ?_⟩
    simp only [List.mem_append, List.mem_map]
    exact .inr ⟨i, h, rfl⟩

end

/-- C72: a module that is found by the import system, at once or with an object in place of its package, which cannot
be imported, gets the node that goes with its specification, and its imports are queued. -/
theorem C72_found (n : Nat) (imp : Option Node) (s : St W) {spec node imports w1 w2} (hdot : x.head? ≠ some '.')
    (hnew : ∀ m ∈ s.nodes, m.ident ≠ x) (hf : Finds env x s.world spec w1)
    (h : env.nodeForSpec spec w1 = (.ok (node, imports), w2)) (hid : node.ident = x)
    (hns : ∀ f i l d ns, node.kind ≠ .package f i l d (some ns)) :
    ∃ s', (calls env (n + 2)).loadModule imp x s = (.ok node, s') ∧ s'.nodes = s.nodes ++ [node] ∧
      s'.edges = s.edges ∧ s'.roots = s.roots ∧ s'.world = w2 ∧ (∀ it ∈ s.stack, it ∈ s'.stack) ∧
      ∀ i ∈ imports, .imp node i ∈ s'.stack := by
  have hdot' := startsWith_false hdot
  have hnew' : s.has x = false := by
    cases h : s.has x with
    | false => rfl
    | true => obtain ⟨m, hm, hi⟩ := Has_of_has h; exact absurd hi (hnew m hm)
  rcases hf with hf | ⟨w', hr, hf⟩
  · show ∃ s', loadModuleBody env (calls env (n + 1)) imp x s = _ ∧ _
    rw [load_found hdot' hnew' hf]
    exact add_found (s := { s with world := w1 }) hnew' h hid hns
  · show ∃ s', loadModuleBody env (calls env (n + 1)) imp x s = _ ∧ _
    rw [load_retry hdot' hnew' hr]
    show ∃ s', loadModuleBody env (calls env n) imp x { s with world := w' } = _ ∧ _
    rw [load_found (s := { s with world := w' }) hdot' hnew' hf]
    exact add_found (s := { s with world := w1 }) hnew' h hid hns

/-- C72: a module that is not there is treated as missing, in the world after the search. -/
theorem C72_missing (n : Nat) (imp : Option Node) (s : St W) {m s' w'} (hdot : x.head? ≠ some '.')
    (hnew : ∀ m ∈ s.nodes, m.ident ≠ x) (hf : NotThere env x s.world w')
    (hc : (calls env n).createMissing imp x { s with world := w' } = (.ok m, s')) :
    (calls env (n + 2)).loadModule imp x s = (.ok m, s') := by
  have hdot' := startsWith_false hdot
  have hnew' : s.has x = false := by
    cases h : s.has x with
    | false => rfl
    | true => obtain ⟨m, hm, hi⟩ := Has_of_has h; exact absurd hi (hnew m hm)
  rcases hf with hf | ⟨w1, hr, hf⟩
  · exact load_missing hdot' hnew' hf (((calls_le env (Nat.le_succ n)).createMissing _ _).of_ok hc)
  · show loadModuleBody env (calls env (n + 1)) imp x s = _
    rw [load_retry hdot' hnew' hr]
    exact load_missing (s := { s with world := w1 }) hdot' hnew' hf hc

/-- C72: when the search for a top-level module fails with an exception, the call does not report it: the code searches
for the package of the module, with the empty name, and the exception for that is raised. -/
theorem C72_masked (n : Nat) (imp : Option Node) (s : St W) {e e' w1 w2} (hx : '.' ∉ x) (hnew : ∀ m ∈ s.nodes, m.ident ≠ x)
    (hf : Search env x s.world (.error e) w1) (he : IsException e) (hm : e ≠ .moduleNotFound false)
    (hin : env.inSysModules [] w1 = false) (h0 : env.findSpec [] w1 = (.error e', w2)) :
    (calls env (n + 1)).loadModule imp x s = (.error e', { s with world := w2 }) := by
  have hdot' : startsWith c!"." x = false := startsWith_false fun h => hx (List.mem_of_mem_head? h)
  have hnew' : s.has x = false := by
    cases h : s.has x with
    | false => rfl
    | true => obtain ⟨m, hm, hi⟩ := Has_of_has h; exact absurd hi (hnew m hm)
  show loadModuleBody env (calls env n) imp x s = _
  rw [load_failed hdot' hnew' hf he]
  unfold loadFallback
  have hp : rpartition '.' x = ([], [], x) := by
    unfold rpartition
    rw [rfindSplit_none.mpr hx]
  rw [if_pos hm, hp]
  simp only []
  rw [M.bind_get, if_neg (by simp [hin])]
  rw [M.bind_of_error (e := e') (s' := { s with world := w2 })]
  unfold M.ext
  rw [h0]

/-- C72: nor is it reported when the package of the module has been imported: `AssertionError`. -/
theorem C72_asserts (n : Nat) (imp : Option Node) (s : St W) {p b e w1} (hx : x = p ++ '.' :: b) (hb : '.' ∉ b)
    (hdot : x.head? ≠ some '.') (hnew : ∀ m ∈ s.nodes, m.ident ≠ x) (hf : Search env x s.world (.error e) w1)
    (he : IsException e) (hm : e ≠ .moduleNotFound false) (hin : env.inSysModules p w1 = true) :
    (calls env (n + 1)).loadModule imp x s = (.error .assertion, { s with world := w1 }) := by
  have hnew' : s.has x = false := by
    cases h : s.has x with
    | false => rfl
    | true => obtain ⟨m, hm, hi⟩ := Has_of_has h; exact absurd hi (hnew m hm)
  show loadModuleBody env (calls env n) imp x s = _
  rw [load_failed (startsWith_false hdot) hnew' hf he]
  unfold loadFallback
  subst hx
  rw [if_pos hm, rpartition_eq hb]
  simp only []
  rw [M.bind_get, if_pos hin]
  rfl

/-- C72: an interrupt (`KeyboardInterrupt`, `SystemExit`) during the search is reported, and leaves the graph alone. -/
theorem C72_interrupted (n : Nat) (imp : Option Node) (s : St W) {k w1} (hdot : x.head? ≠ some '.')
    (hnew : ∀ m ∈ s.nodes, m.ident ≠ x) (hf : Search env x s.world (.error (.base k)) w1) :
    (calls env (n + 1)).loadModule imp x s = (.error (.base k), { s with world := w1 }) := by
  have hnew' : s.has x = false := by
    cases h : s.has x with
    | false => rfl
    | true => obtain ⟨m, hm, hi⟩ := Has_of_has h; exact absurd hi (hnew m hm)
  show loadModuleBody env (calls env n) imp x s = _
  unfold loadModuleBody
  rw [if_neg (by rw [startsWith_false hdot]; simp), M.bind_findNode, find_of_has hnew']
  simp only []
  rw [M.bind_of_ok (a := .error (.base k)) (s' := { s with world := w1 })]
  · simp [Exc.isException, M.throw]
  · unfold M.attempt
    rw [M.bind_of_error (e := .base k) (s' := { s with world := w1 })]
    unfold M.ext
    rw [search_eq hf]

/-! ## An example -/

/-- A world with names in `sys.modules`: the package `b` (in `/b`) cannot be imported, the module `m` neither, the entry
for `o` has no `__spec__`, and `n` has no `__path__`. -/
def wreck : Env (List Str) where
  findSpec name w :=
    if name = c!"b" then (.ok (some { name := name, loader := .inspect, origin := some c!"/b/__init__.py" }), w)
    else if name = c!"b.x" then
      if c!"b" ∈ w then (.ok (some { name := name, loader := .inspect, origin := some c!"/b/x.py" }), w)
      else (.error .runtimeError, w)
    else if name = c!"b.y" then if c!"b" ∈ w then (.ok none, w) else (.error .syntaxError, w)
    else if name = c!"m" then (.ok (some { name := name, loader := .inspect, origin := some c!"/m.py" }), w)
    else if name = c!"m.y" then (.error (.other 0), w)
    else if name = c!"o" then
      if c!"o" ∈ w then (.error (.valueError true), w)
      else (.ok (some { name := name, loader := .inspect, origin := some c!"/o.py" }), w)
    else if name = c!"n.y" then (.error (.attributeError true), w)
    else if name = c!"i" then (.error (.base 0), w)
    else if name = [] then (.error (.valueError false), w)
    else (.error .osError, w)
  findSpecRel _ _ w := (.ok none, w)
  inSysModules x w := decide (x ∈ w)
  popModule x w := if x ∈ w then (.ok 0, w.filter (· ≠ x)) else (.error .keyError, w)
  setModule x _ w := x :: w
  setFake x _ w := x :: w
  delModule x w := (.ok (), w.filter (· ≠ x))
  isInspectLoader _ _ := true
  isPackage sp w := (.ok (decide (sp.name = c!"b")), w)
  nodeForSpec sp w := (.ok ({ ident := sp.name, kind := .module .source, filename := sp.origin }, []), w)
  loadScript _ w := (.error .osError, w)
  parseSource _ w := (.error .osError, w)
  distributionNamed _ w := (.ok none, w)
  globPy _ w := (.ok [], w)
  subdirs _ w := (.ok [], w)
  isIdentifier n := !n.isEmpty
  outOrder _ l := l
  isFile _ w := (.ok false, w)
  readBytes p w := (.ok p, w)
  compileAst _ w := (.error .osError, w)
  userPost _ _ := .ret none
  userMissing _ _ _ := .ret none

/-- `b.x` is found, although `b` cannot be imported. -/
example : ∃ spec w, Finds wreck c!"b.x" [] spec w ∧ spec.origin = some c!"/b/x.py" := by
  refine ⟨_, _, .inr ⟨_, ⟨c!"b", _, _, c!"/b", c!"py", c!"/b/__init__.py", ⟨⟨c!"x", by decide, rfl⟩, .runtimeError, [], [], ?_, by simp [IsException], by simp, rfl,
    rfl, rfl, rfl⟩, ⟨by decide, 0, .inl ⟨by decide, by decide, rfl⟩⟩, rfl, rfl⟩, .plain rfl⟩, rfl⟩
  exact .failed rfl (by simp) (by simp)

/-- `b.y`, `m.y` and `n.y` are not there. -/
example : (∃ w, NotThere wreck c!"b.y" [] w) ∧ (∃ w, NotThere wreck c!"m.y" [] w) ∧ ∃ w, NotThere wreck c!"n.y" [] w := by
  refine ⟨⟨_, .inr ⟨_, ⟨c!"b", _, _, c!"/b", c!"py", c!"/b/__init__.py", ⟨⟨c!"y", by decide, rfl⟩, .syntaxError, [], [], ?_, by simp [IsException], by simp, rfl,
      rfl, rfl, rfl⟩, ⟨by decide, 0, .inl ⟨by decide, by decide, rfl⟩⟩, rfl, rfl⟩, .inl (.plain rfl)⟩⟩,
    ⟨_, .inl (.inr (.inr ⟨c!"m", _, ⟨c!"y", by decide, rfl⟩, .other 0, [], [], ?_, by simp [IsException], by simp, rfl, rfl, rfl, rfl⟩))⟩,
    ⟨_, .inl (.inl (.noPath rfl))⟩⟩
  · exact .failed rfl (by simp) (by simp)
  · exact .failed rfl (by simp) (by simp)

/-- `o` is found, and its entry is put back. -/
example : ∃ spec, Finds wreck c!"o" [c!"o"] spec [c!"o"] :=
  ⟨_, .inl (.odd rfl rfl rfl rfl)⟩

/-- With `m` in `sys.modules`, the exception for `m.y` is replaced. -/
example : ((calls wreck 5).loadModule none c!"m.y" (initState [c!"m"] [] false)).1 = .error .assertion := by
  rw [C72_asserts (env := wreck) (x := c!"m.y") (p := c!"m") (b := c!"y") (e := .other 0) (w1 := [c!"m"]) 4 none _ rfl (by decide)
    (by decide) (by intro m hm; cases hm) (.failed rfl (by simp) (by simp)) (by simp [IsException]) (by simp) rfl]

/-- For `z` the exception is lost. -/
example : ((calls wreck 5).loadModule none c!"z" (initState [] [] false)).1 = .error (.valueError false) := by
  rw [C72_masked (env := wreck) (e := .osError) (w1 := []) 4 none _ (by decide) (by intro m hm; cases hm)
    (.failed rfl (by simp) (by simp)) (by simp [IsException]) (by simp) rfl rfl]

/-- The search for `i` is interrupted. -/
example : ((calls wreck 5).loadModule none c!"i" (initState [] [] false)).1 = .error (.base 0) := by
  rw [C72_interrupted (env := wreck) (w1 := []) 4 none _ (by decide) (by intro m hm; cases hm)
    (.failed rfl (by simp) (by simp))]

end Verif.Props
