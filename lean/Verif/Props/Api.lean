import Verif.Props.Nodes
import Verif.Proofs.Results
import Verif.Proofs.DistLinks
/-!
# C09, C13, C16–C19: what single calls do

Each theorem describes one call in an arbitrary state `s` of the graph (reachable or not).
-/
namespace Verif.Props
open Verif Spec

variable {W : Type}

/-! ## C09 -/

/-- C09: processing a relative import that points outside of its top-level package.  Whatever the
other methods (`rec`) do, they are not used: the outside world is not asked, there is at most one
new node, the `InvalidRelativeImport` with the right name; exactly one edge; the names of the
import list are not queued (the only new work item is the post-processing of the new node).  The
hypothesis `hk` says that a node with that name, made of dots and text, is not of another kind;
else the code's assertion fails. -/
theorem C09_invalid_relative (env : Env W) (rec : Calls W) (m : Node) (i : ImportInfo) (s : St W)
    (ho : PointsOutside m i) (hm : ∃ x ∈ s.nodes, x.ident = m.ident)
    (hk : ∀ x ∈ s.nodes, x.ident = List.replicate i.importLevel '.' ++ i.importModule.name →
      x.isInvalidRel = true) :
    let name := List.replicate i.importLevel '.' ++ i.importModule.name
    ∃ s', runItem env rec (.imp m i) s = (.ok (), s') ∧
      s'.world = s.world ∧ s'.roots = s.roots ∧
      (∃ x ∈ s'.nodes, x.ident = name ∧ x.kind = .invalidRel) ∧
      (s'.nodes = s.nodes ∨
        ((∀ x ∈ s.nodes, x.ident ≠ name) ∧ s'.nodes = s.nodes ++ [invalidRelNode name])) ∧
      (∀ e, e ∈ s'.edges ↔ e ∈ s.edges ∨ e = (m.ident, name, fromImportInfo i false none)) ∧
      (s'.stack = s.stack ∨ s'.stack = s.stack ++ [.pp (invalidRelNode name)]) := by
  intro name
  have hm' : s.has m.ident = true := has_of_Has hm
  have hinv : ∀ x : Node, x.isInvalidRel = true → x.kind = .invalidRel := by
    intro x hx
    unfold Node.isInvalidRel at hx
    split at hx <;> simp_all
  show ∃ s', processImport rec m i s = _ ∧ _
  unfold processImport
  rw [absoluteName_of_outside ho, M.bind_ofExcept]
  simp only []
  change ∃ s', M.bind (M.findModule name) _ s = _ ∧ _
  cases hf : s.find name with
  | some x =>
    obtain ⟨hx, hxi⟩ := find_some hf
    have hxk := hk x hx hxi
    have hb : x.isBaseNode = true := by simp [Node.isBaseNode, hinv x hxk]
    rw [M.bind_findModule_some _ hf hb]
    simp only [M.bind_assoc]
    rw [M.bind_assert _ hxk, M.bind_pure, M.bind_addEdge _ hm' (has_of_Has ⟨x, hx, rfl⟩)]
    refine ⟨_, rfl, ?_⟩
    simp only [St.event, addEdge_nodes, addEdge_roots, addEdge_world, addEdge_stack, mem_addEdge,
      hxi, true_and, true_or, and_true]
    exact ⟨⟨x, hx, hxi, hinv x hxk⟩, fun _ => trivial⟩
  | none =>
    have hh := find_none hf
    rw [M.bind_findModule_none _ hf]
    simp only [M.bind_assoc]
    rw [M.bind_addNode _ hh, M.bind_schedule, M.bind_pure, M.bind_addEdge]
    · refine ⟨_, rfl, ?_⟩
      simp only [St.event, addEdge_nodes, addEdge_roots, addEdge_world, addEdge_stack, mem_addEdge,
        schedule_nodes, schedule_roots, schedule_world, schedule_edges]
      refine ⟨rfl, rfl, ⟨invalidRelNode name, List.mem_append_right _ (List.mem_singleton.mpr rfl), rfl, rfl⟩, .inr ⟨?_, rfl⟩,
        fun _ => Iff.rfl, schedule_stack (s.addNode _) _⟩
      intro x hx hxi
      have : s.has name = true := has_of_Has ⟨x, hx, hxi⟩
      rw [hh] at this; cases this
    · rw [has_schedule, has_addNode, hm']; rfl
    · rw [has_schedule, has_addNode]; simp

/-- `from ..x import y` in the module `p.m`: one level too many. -/
example :
    let m := Demo.src c!"p.m"
    let i := Demo.fromImp 2 c!"x" [c!"y"]
    let s := (Demo.run { mods := [(c!"p", Demo.pkg c!"p", []), (c!"p.m", m, [])] }
      [.addModule c!"p.m"]).2
    PointsOutside m i ∧ (∃ x ∈ s.nodes, x.ident = m.ident) ∧
    (∀ x ∈ s.nodes, x.ident = List.replicate i.importLevel '.' ++ i.importModule.name →
      x.isInvalidRel = true) := by
  refine ⟨⟨by decide, [c!"p", c!"m"], by decide +kernel⟩, by decide +kernel, by decide +kernel⟩

/-! ## C13 -/

/-- The package of a name of several components. -/
theorem split_dotted {cs : List Str} {x : Str} (hne : cs ≠ []) (hc : ∀ c ∈ cs, Comp c ∧ c ≠ [])
    (hx : Comp x) : splitPackage (dotted (cs ++ [x])) = .ok (some (dotted cs), x) := by
  have h : IsSplit (dotted (cs ++ [x])) 0 cs x := ⟨by simp, hc, hx, fun h => absurd h hne⟩
  rw [splitPackage_of_isSplit h]
  simp [hne]

/-- C13, one level, excluded package: the other methods (`rec`) are only used to get at the package,
which is in the graph; the submodule itself is not looked up. -/
theorem C13_excluded_step (rec : Calls W) (importing : Option Node) (name pkg b : Str) (lm : Bool)
    (parent : Node) (s s1 : St W) (hn : ∀ x ∈ s1.nodes, x.ident ≠ name)
    (hn0 : ∀ x ∈ s.nodes, x.ident ≠ name)
    (hs : splitPackage name = .ok (some pkg, b))
    (hp : rec.findOrLoad importing pkg true s = (.ok parent, s1)) (hpn : parent ∈ s1.nodes)
    (hx : parent.isExcluded = true) :
    findOrLoadBody rec importing name lm s = (.ok (excludedNode name),
      ((s1.addNode (excludedNode name)).schedule (excludedNode name) []).addEdge name parent.ident
        defaultDep) := by
  have nohas : ∀ {t : St W}, (∀ x ∈ t.nodes, x.ident ≠ name) → t.has name = false := by
    intro t ht
    cases h : t.has name with
    | false => rfl
    | true => obtain ⟨x, hx, hi⟩ := Has_of_has h; exact absurd hi (ht x hx)
  have hf : s.find name = none := by
    cases h : s.find name with
    | none => rfl
    | some x => exact absurd (find_some h).2 (hn0 x (find_some h).1)
  have hnm : parent.isMissing = false := by
    unfold Node.isExcluded at hx
    unfold Node.isMissing
    cases hk : parent.kind <;> simp_all
  unfold findOrLoadBody
  rw [M.bind_findModule_none _ hf]
  simp only []
  rw [hs, M.bind_ofExcept]
  simp only [M.bind_assoc]
  rw [M.bind_of_ok hp]
  simp only [hnm, hx, if_true, if_false, M.bind_assoc, Bool.false_eq_true]
  rw [M.bind_addNode _ (nohas hn), M.bind_schedule, M.bind_pure]
  rw [M.bind_pure]
  have : (lm || !(excludedNode name).isMissing) = true := by simp [excludedNode, Node.isMissing]
  simp only [this, if_true]
  rw [M.bind_addEdge]
  · rfl
  · rw [has_schedule, has_addNode]; simp
  · rw [has_schedule, has_addNode, has_of_Has ⟨parent, hpn, rfl⟩]; rfl

/-- C13, one level, missing package: what happens is that `_create_missing_module` is called (the
missing hooks decide), and the node is linked to the package, unless it is missing and this was a
name of a `from` import (`lm = false`; there the caller adds the edge). -/
theorem C13_missing_step (rec : Calls W) (importing : Option Node) (name pkg b : Str) (lm : Bool)
    (parent m : Node) (s s1 s2 : St W) (hn0 : ∀ x ∈ s.nodes, x.ident ≠ name)
    (hs : splitPackage name = .ok (some pkg, b))
    (hp : rec.findOrLoad importing pkg true s = (.ok parent, s1)) (hx : parent.isMissing = true)
    (hm : rec.createMissing importing name s1 = (.ok m, s2)) (hmn : m ∈ s2.nodes)
    (hpn : parent ∈ s2.nodes) :
    findOrLoadBody rec importing name lm s =
      (.ok m, if lm || !m.isMissing then s2.addEdge m.ident parent.ident defaultDep else s2) := by
  have hf : s.find name = none := by
    cases h : s.find name with
    | none => rfl
    | some x => exact absurd (find_some h).2 (hn0 x (find_some h).1)
  unfold findOrLoadBody
  rw [M.bind_findModule_none _ hf]
  simp only []
  rw [hs, M.bind_ofExcept]
  simp only [M.bind_assoc]
  rw [M.bind_of_ok hp]
  simp only [hx, if_true, M.bind_assoc]
  rw [M.bind_of_ok hm, M.bind_pure]
  simp only []
  rw [M.bind_pure]
  split
  · rw [M.bind_addEdge _ (has_of_Has ⟨m, hmn, rfl⟩) (has_of_Has ⟨parent, hpn, rfl⟩)]; rfl
  · rfl

/-- The nodes at or below the package called `dotted cs` on the way to `dotted (cs ++ rest)` are all
of one class. -/
def AllBelow (K : Node → Bool) (cs rest : List Str) (nodes : List Node) : Prop :=
  ∀ x ∈ nodes, ∀ r, r <+: rest → x.ident = dotted (cs ++ r) → K x = true

/-- What an import of a name below an excluded or missing package leads to: a node with that name,
of the same class; no use of the outside world; no new nodes except for names between the package
and the imported name; a link to the package (`l`). -/
structure Blocked (K : Node → Bool) (cs rest : List Str) (l : Bool) (s : St W) (m : Node)
    (s' : St W) : Prop where
  ident : m.ident = dotted (cs ++ rest)
  mem : m ∈ s'.nodes
  kind : K m = true
  world : s'.world = s.world
  hooks : s'.missHooks = s.missHooks
  old : ∀ x ∈ s.nodes, x ∈ s'.nodes
  new : ∀ x ∈ s'.nodes, x ∈ s.nodes ∨
    (K x = true ∧ ∃ r, r ≠ [] ∧ r <+: rest ∧ x.ident = dotted (cs ++ r))
  link : l = true → m ∈ s.nodes ∨ (m.ident, dotted (cs ++ rest.dropLast), defaultDep) ∈ s'.edges

theorem dotted_inj {cs ds : List Str} (hc : ∀ c ∈ cs, Comp c) (hd : ∀ c ∈ ds, Comp c)
    (hcn : cs ≠ []) (hdn : ds ≠ []) (h : dotted cs = dotted ds) : cs = ds := by
  have h1 := rsplit_dotted hcn hc cs.length
  have h2 := rsplit_dotted hdn hd cs.length
  have h3 := rsplit_dotted hcn hc ds.length
  have h4 := rsplit_dotted hdn hd ds.length
  rw [if_neg (by omega)] at h1
  rw [if_neg (by omega)] at h4
  rw [h] at h1 h3
  by_cases hl : ds.length < cs.length
  · rw [if_neg (by omega)] at h2
    exact h1.symm.trans h2
  · rw [if_neg hl] at h3
    exact h3.symm.trans h4

/-- The induction behind `C13_excluded` and `C13_missing`: if one level works, all levels do. -/
theorem blocked_of_step {K : Node → Bool} (hKb : ∀ x : Node, K x = true → x.isBaseNode = true)
    {H : List MissHook → Prop} {L : Bool → Bool} {N : Nat} {env : Env W} {importing : Option Node}
    (mk : Str → Node) (hmk : ∀ name, (mk name).ident = name ∧ K (mk name) = true)
    (step : ∀ n name pkg b lm s s1 parent, N ≤ n → H s1.missHooks →
      (∀ x ∈ s.nodes, x.ident ≠ name) → (∀ x ∈ s1.nodes, x.ident ≠ name) →
      splitPackage name = .ok (some pkg, b) →
      (calls env n).findOrLoad importing pkg true s = (.ok parent, s1) → parent ∈ s1.nodes →
      K parent = true → ∃ s', findOrLoadBody (calls env n) importing name lm s = (.ok (mk name), s') ∧
        s'.nodes = s1.nodes ++ [mk name] ∧ s'.world = s1.world ∧ s'.missHooks = s1.missHooks ∧
        (L lm = true → (name, parent.ident, defaultDep) ∈ s'.edges))
    (n : Nat) (cs rest : List Str) (lm : Bool) (s : St W) (hH : H s.missHooks) (hne : cs ≠ [])
    (hc : ∀ c ∈ cs ++ rest, Comp c ∧ c ≠ []) (hp : ∃ p ∈ s.nodes, p.ident = dotted cs)
    (hb : AllBelow K cs rest s.nodes) (hfuel : rest.length + 1 + N ≤ n) :
    ∃ m s', (calls env n).findOrLoad importing (dotted (cs ++ rest)) lm s = (.ok m, s') ∧
      Blocked K cs rest (L lm) s m s' := by
  have found : ∀ (n : Nat) (rest : List Str) (lm : Bool) (s : St W) (x : Node),
      AllBelow K cs rest s.nodes → s.find (dotted (cs ++ rest)) = some x →
      ∃ m s', (calls env (n + 1)).findOrLoad importing (dotted (cs ++ rest)) lm s = (.ok m, s') ∧
        Blocked K cs rest (L lm) s m s' := by
    intro n rest lm s x hb hx
    have hxk := hb x (find_some hx).1 rest (List.prefix_refl _) (find_some hx).2
    refine ⟨x, s, ?_, (find_some hx).2, (find_some hx).1, hxk, rfl, rfl, fun _ h => h,
      fun _ h => .inl h, fun _ => .inl (find_some hx).1⟩
    show findOrLoadBody (calls env n) _ _ _ _ = _
    unfold findOrLoadBody
    rw [M.bind_findModule_some _ hx (hKb x hxk)]
    rfl
  generalize hk : rest.length = k at hfuel
  induction k generalizing rest n s lm with
  | zero =>
    obtain ⟨p, hpn, hpi⟩ := hp
    have hr : rest = [] := by simpa using hk
    subst hr
    obtain ⟨n, rfl⟩ : ∃ n', n = n' + 1 := ⟨n - 1, by omega⟩
    obtain ⟨x, hx⟩ : ∃ x, s.find (dotted (cs ++ [])) = some x := by
      cases h : s.find (dotted (cs ++ [])) with
      | some x => exact ⟨x, rfl⟩
      | none =>
        have := find_none h
        rw [List.append_nil, ← hpi, has_of_Has ⟨p, hpn, rfl⟩] at this
        cases this
    exact found n [] lm s x hb hx
  | succ k ih =>
    have hrn : rest ≠ [] := by intro h; rw [h] at hk; simp at hk
    obtain ⟨r, x, rfl⟩ : ∃ r x, rest = r ++ [x] :=
      ⟨rest.dropLast, rest.getLast hrn, (List.dropLast_concat_getLast hrn).symm⟩
    obtain ⟨n, rfl⟩ : ∃ n', n = n' + 1 := ⟨n - 1, by omega⟩
    have hcr : ∀ c ∈ cs ++ r, Comp c ∧ c ≠ [] := fun c h => hc c (by
      rw [← List.append_assoc]; exact List.mem_append_left _ h)
    have hbr : AllBelow K cs r s.nodes := fun y hy q hq he =>
      hb y hy q (hq.trans (List.prefix_append _ _)) he
    cases hf : s.find (dotted (cs ++ (r ++ [x]))) with
    | some y => exact found n _ lm s y hb hf
    | none =>
      have hn0 : ∀ y ∈ s.nodes, y.ident ≠ dotted (cs ++ (r ++ [x])) := by
        intro y hy he
        have := find_none hf
        rw [has_of_Has ⟨y, hy, he⟩] at this
        cases this
      obtain ⟨parent, s1, h1, hB⟩ := ih n r true s hH hcr hp hbr (by simp at hk; exact hk) (by omega)
      have hn1 : ∀ y ∈ s1.nodes, y.ident ≠ dotted (cs ++ (r ++ [x])) := by
        intro y hy he
        rcases hB.new y hy with h | ⟨_, q, hqn, hq, hqe⟩
        · exact hn0 y h he
        · have hpre : cs ++ q <+: cs ++ r := by
            obtain ⟨t, ht⟩ := hq
            exact ⟨t, by simp [ht]⟩
          have := dotted_inj (fun c h => (hcr c (hpre.subset h)).1) (fun c h => (hc c h).1)
            (by simp [hne]) (by simp [hne]) (hqe.symm.trans he)
          have := congrArg List.length this
          have := hq.length_le
          simp at *
          omega
      have hs : splitPackage (dotted (cs ++ (r ++ [x]))) = .ok (some (dotted (cs ++ r)), x) := by
        rw [← List.append_assoc]
        exact split_dotted (by simp [hne]) hcr (hc x (by simp)).1
      obtain ⟨s', h2, h3, h4, h5, h6⟩ := step n _ _ _ lm s s1 parent (by omega)
        (hB.hooks ▸ hH) hn0 hn1 hs h1 hB.mem hB.kind
      refine ⟨_, s', h2, (hmk _).1, by rw [h3]; simp, (hmk _).2, h4.trans hB.world,
        h5.trans hB.hooks, fun y hy => by rw [h3]; exact List.mem_append_left _ (hB.old y hy), ?_, ?_⟩
      · intro y hy
        rw [h3] at hy
        rcases List.mem_append.mp hy with hy | hy
        · rcases hB.new y hy with h | ⟨h, q, hqn, hq, hqe⟩
          · exact .inl h
          · exact .inr ⟨h, q, hqn, hq.trans (List.prefix_append _ _), hqe⟩
        · have := List.mem_singleton.mp hy
          subst this
          exact .inr ⟨(hmk _).2, r ++ [x], by simp, List.prefix_refl _, (hmk _).1⟩
      · intro hl
        refine .inr ?_
        rw [(hmk _).1, List.dropLast_concat, ← hB.ident]
        exact h6 hl

/-- C13: importing a name at any depth below an excluded package gives an excluded node that is
linked to its package, without asking the outside world.  `hb`: names below the package that are
already in the graph are excluded too. -/
theorem C13_excluded (env : Env W) (n : Nat) (importing : Option Node) (cs rest : List Str)
    (lm : Bool) (s : St W) (hne : cs ≠ []) (hc : ∀ c ∈ cs ++ rest, Comp c ∧ c ≠ [])
    (hp : ∃ p ∈ s.nodes, p.ident = dotted cs)
    (hb : AllBelow Node.isExcluded cs rest s.nodes) (hfuel : rest.length + 1 ≤ n) :
    ∃ m s', (calls env n).findOrLoad importing (dotted (cs ++ rest)) lm s = (.ok m, s') ∧
      Blocked Node.isExcluded cs rest true s m s' := by
  refine blocked_of_step (H := fun _ => True) (L := fun _ => true) (N := 0) (env := env) ?_
    excludedNode (fun _ => ⟨rfl, rfl⟩) ?_ n cs rest lm s trivial hne hc hp hb hfuel
  · intro x hx
    unfold Node.isExcluded at hx; unfold Node.isBaseNode
    split at hx <;> simp_all
  · intro n name pkg b lm s s1 parent _ _ h0 h1 hs h hm hk
    refine ⟨_, C13_excluded_step _ importing name pkg b lm parent s s1 h1 h0 hs h hm hk, ?_, ?_, ?_, ?_⟩
    · rw [addEdge_nodes, schedule_nodes]; rfl
    · rw [addEdge_world, schedule_world]; rfl
    · rw [addEdge_missHooks, schedule_missHooks]; rfl
    · intro _; exact addEdge_mem ..

/-- C13: the same for missing packages, when no missing hooks are installed; `C13_missing_step` is
the version with hooks.  For names of a `from` import (`lm = false`) the link is made by the
caller (see `C40`). -/
theorem C13_missing (env : Env W) (n : Nat) (importing : Option Node) (cs rest : List Str)
    (lm : Bool) (s : St W) (hne : cs ≠ []) (hc : ∀ c ∈ cs ++ rest, Comp c ∧ c ≠ [])
    (hp : ∃ p ∈ s.nodes, p.ident = dotted cs) (hh : s.missHooks = [])
    (hb : AllBelow Node.isMissing cs rest s.nodes) (hfuel : rest.length + 3 ≤ n) :
    ∃ m s', (calls env n).findOrLoad importing (dotted (cs ++ rest)) lm s = (.ok m, s') ∧
      Blocked Node.isMissing cs rest lm s m s' := by
  refine blocked_of_step (H := fun h => h = []) (L := id) (N := 2) (env := env) ?_
    missingNode (fun _ => ⟨rfl, rfl⟩) ?_ n cs rest lm s hh hne hc hp hb (by omega)
  · intro x hx
    unfold Node.isMissing at hx; unfold Node.isBaseNode
    split at hx <;> simp_all
  · intro n name pkg b lm s s1 parent hn hhk h0 h1 hs h hm hk
    obtain ⟨n, rfl⟩ : ∃ n', n = n' + 2 := ⟨n - 2, by omega⟩
    have hnm : s1.has name = false := by
      cases h : s1.has name with
      | false => rfl
      | true => obtain ⟨x, hx, hi⟩ := Has_of_has h; exact absurd hi (h1 x hx)
    have hcm : (calls env (n + 2)).createMissing importing name s1 = (.ok (missingNode name),
        (s1.addNode (missingNode name)).schedule (missingNode name) []) := by
      show createMissingBody (calls env (n + 1)) importing name s1 = _
      unfold createMissingBody
      rw [M.bind_of_ok (a := none) (s' := s1) (by
        show callMissingBody env (calls env n) 0 importing name s1 = _
        unfold callMissingBody
        rw [M.bind_get, hhk]
        rfl)]
      simp only []
      rw [M.bind_addNode _ hnm, M.bind_schedule]
      rfl
    refine ⟨_, C13_missing_step _ importing name pkg b lm parent _ s s1 _ h0 hs h hk hcm
      (by rw [schedule_nodes]; simp [St.addNode])
      (by rw [schedule_nodes]; simp [St.addNode, hm]), ?_, ?_, ?_, ?_⟩
    · split
      · rw [addEdge_nodes, schedule_nodes]; rfl
      · rw [schedule_nodes]; rfl
    · split
      · rw [addEdge_world, schedule_world]; rfl
      · rw [schedule_world]; rfl
    · split
      · rw [addEdge_missHooks, schedule_missHooks]; rfl
      · rw [schedule_missHooks]; rfl
    · intro hl
      simp only [id] at hl
      rw [if_pos (by simp [hl])]
      exact addEdge_mem ..

/-- `add_excludes(["p"])`, `add_module("p")`: the hypotheses for `p.a.b`, although `p.a` exists. -/
example :
    let t : Demo.Table := { mods := [(c!"p", Demo.pkg c!"p", []), (c!"p.a", Demo.pkg c!"p.a", [])] }
    let s := (Demo.run t [.addExcludes [c!"p"], .addModule c!"p"]).2
    let cs := [c!"p"]
    let rest := [c!"a", c!"b"]
    (∀ c ∈ cs ++ rest, Comp c ∧ c ≠ []) ∧ (∃ p ∈ s.nodes, p.ident = dotted cs) ∧
      (∀ x ∈ s.nodes, x.isExcluded = true) ∧
      (((calls (Demo.env t) 5).findOrLoad none (dotted (cs ++ rest)) true s).2.nodes.map Node.ident =
        [c!"p", c!"p.a", c!"p.a.b"]) := by decide +kernel

/-- The same for a package that does not exist, without missing hooks. -/
example :
    let s := (runClient (Demo.env {}) 10 (Demo.client [.addModule c!"p"]) (initState () [] false)).2
    let cs := [c!"p"]
    let rest := [c!"a", c!"b"]
    (∀ c ∈ cs ++ rest, Comp c ∧ c ≠ []) ∧ (∃ p ∈ s.nodes, p.ident = dotted cs) ∧
      (∀ x ∈ s.nodes, x.isMissing = true) ∧ s.missHooks = [] := by decide +kernel

/-! ## C16 -/

theorem op_ok {env : Env W} {n : Nat} {o : ApiOp} {s s' : St W} {r}
    (h : (calls env (n + 1)).op o s = (.ok r, s')) : apiBody env (calls env n) o s = (.ok r, s') := by
  have h : opBody env (calls env n) o s = (.ok r, s') := h
  unfold opBody at h
  split at h <;> simp_all

/-- C16: when `add_module(name)` returns, it returns the node called `name`, which is a root.  The
missing hooks of the user supply no nodes; everything else is arbitrary. -/
theorem C16_result (env : Env W) (hM : ∀ k i n, (env.userMissing k i n).Passive) (n : Nat)
    (name : Str) (s s' : St W) (r : Option Node)
    (h : (calls env n).op (.addModule name) s = (.ok r, s')) :
    ∃ m, r = some m ∧ m.ident = name ∧ m ∈ s'.nodes ∧ name ∈ s'.roots ∧ s'.stack = [] := by
  cases n with
  | zero => simp [calls, callsZero, M.throw] at h
  | succ n =>
    have hop := (calls_triv env hM (n + 1)).opModule name s r s' trivial trivial h
    obtain ⟨m, s1, h1, h2⟩ := M.bind_ok (op_ok h)
    obtain ⟨hm, rfl⟩ := M.pure_ok h2
    subst hm
    obtain ⟨hi, hn⟩ := hop m rfl
    refine ⟨m, rfl, hi, hn, ?_, addModule_drains env n h1⟩
    obtain ⟨f, s2, _, h1⟩ := M.bind_ok h1
    obtain ⟨nd, s3, _, h1⟩ := M.bind_ok h1
    obtain ⟨_, s4, hr, h1⟩ := M.bind_ok h1
    obtain ⟨_, s5, hst, h1⟩ := M.bind_ok h1
    obtain ⟨rfl, rfl⟩ := M.pure_ok h1
    obtain ⟨_, rfl⟩ := M.addRoot_ok hr
    have := (runStack_grows env n (s3.addRoot nd.ident)).roots nd.ident
      ((roots_addRoot _ _ _).mpr (.inr rfl))
    rw [hst] at this
    rw [← hi]; exact this

/-- C16: calling `add_module(name)` again, when nothing is queued, returns the same node and changes
nothing at all, not even the outside world.  `hu`: identifiers are unique (`C01`). -/
theorem C16_again (env : Env W) (hN : env.MakesModules)
    (hM : ∀ k i n, (env.userMissing k i n).Passive) (n k : Nat)
    (name : Str) (s s' : St W) (r : Option Node)
    (h : (calls env n).op (.addModule name) s = (.ok r, s')) (hu : UniqueIds (view s')) :
    (calls env (k + 2)).op (.addModule name) s' = (.ok r, s') := by
  obtain ⟨m, rfl, hi, hmem, hroot, hst⟩ := C16_result env hM n name s s' r h
  have hfind : s'.find name = some m := by
    cases hf : s'.find name with
    | none => have := find_none hf; rw [has_of_Has ⟨m, hmem, hi⟩] at this; cases this
    | some x =>
      obtain ⟨hx, hxi⟩ := find_some hf
      obtain ⟨i, hil, rfl⟩ := List.mem_iff_getElem.mp hx
      obtain ⟨j, hjl, rfl⟩ := List.mem_iff_getElem.mp hmem
      have := hu i j hil hjl (by show s'.nodes[i].ident = s'.nodes[j].ident; rw [hi, hxi])
      subst this; rfl
  have hbase : m.isBaseNode = true := by
    cases n with
    | zero => simp [calls, callsZero, M.throw] at h
    | succ n =>
      obtain ⟨m', s1, h1, h2⟩ := M.bind_ok (op_ok h)
      obtain ⟨hm, rfl⟩ := M.pure_ok h2
      simp at hm; subst hm
      obtain ⟨f, s2, hfm, h1⟩ := M.bind_ok h1
      obtain ⟨rfl, rfl, hb⟩ := M.findModule_ok hfm
      obtain ⟨nd, s3, hl, h1⟩ := M.bind_ok h1
      obtain ⟨_, s4, hr, h1⟩ := M.bind_ok h1
      obtain ⟨_, s5, _, h1⟩ := M.bind_ok h1
      obtain ⟨rfl, rfl⟩ := M.pure_ok h1
      cases hf : s2.find name with
      | some x => rw [hf] at hl; rw [← (M.pure_ok hl).1]; exact hb x hf
      | none =>
        rw [hf] at hl
        have h0 : BaseAt name s2 := by
          intro y hy hyi
          have := find_none hf
          rw [has_of_Has ⟨y, hy, hyi⟩] at this; cases this
        have := ((calls_base hN hM n).findOrLoad none name true s2 h0).2 nd (by
          simp only [] at hl; rw [hl])
        exact this hi
  show opBody env (calls env (k + 1)) (.addModule name) s' = _
  have : apiBody env (calls env (k + 1)) (.addModule name) s' = (.ok (some m), s') := by
    show M.bind (addModule (calls env (k + 1)) name) _ s' = _
    unfold addModule
    simp only [M.bind_assoc]
    rw [M.bind_findModule_some _ hfind hbase]
    simp only []
    rw [M.bind_pure, M.bind_addRoot _ (has_of_Has ⟨m, hmem, rfl⟩)]
    have hr : s'.addRoot m.ident = s' := by unfold St.addRoot; rw [hi, if_pos hroot]
    rw [hr, M.bind_of_ok (a := ()) (s' := s')]
    · rfl
    · show runStackBody env (calls env k) s' = _
      unfold runStackBody
      rw [M.bind_of_ok (a := none) (s' := s') (by unfold popItem; rw [hst]; rfl)]
      rfl
  unfold opBody
  rw [this]

/-- `add_module` of a package whose modules import each other returns. -/
example :
    let t : Demo.Table := { mods := [(c!"p", Demo.pkg c!"p", [Demo.imp c!"p.a"]),
      (c!"p.a", Demo.src c!"p.a", [Demo.imp c!"p", Demo.imp c!"x"])] }
    (Demo.env t).MakesModules ∧ (∀ k i n, ((Demo.env t).userMissing k i n).Passive) ∧
    ∃ s', (calls (Demo.env t) 30).op (.addModule c!"p.a") (initState () [] true) =
      (.ok (some (Demo.src c!"p.a")), s') ∧ (s'.nodes.map Node.ident).Nodup ∧ s'.nodes.length = 3 :=
  ⟨(demo_loads _ (by decide +kernel)).makes, fun _ _ _ => .ret, _, Prod.ext (by decide +kernel) rfl,
    by decide +kernel⟩

/-! ## C17 -/

/-- C17: the script is already in the graph: `ValueError`, and the graph is as before (the ghost log
records the failure). -/
theorem C17_known (env : Env W) (n : Nat) (path : Str) (s : St W) (x : Node)
    (hx : s.find path = some x) (hb : x.isBaseNode = true) :
    (calls env (n + 1)).op (.addScript path) s = (.error (.valueError false), s.event .failed) := by
  show opBody env (calls env n) (.addScript path) s = _
  have : apiBody env (calls env n) (.addScript path) s = (.error (.valueError false), s) := by
    show M.bind (addScript env (calls env n) path) _ s = _
    unfold addScript
    rw [M.bind_assoc, M.bind_findModule_some _ hx hb]
    rfl
  unfold opBody
  rw [this]

/-- C17: the script cannot be read or parsed: the exception is passed on and the graph is as
before (only the outside world was used). -/
theorem C17_unreadable (env : Env W) (n : Nat) (path : Str) (s : St W) (e : Exc)
    (hx : s.find path = none) (he : (env.loadScript path s.world).1 = .error e) :
    ∃ w, (calls env (n + 1)).op (.addScript path) s =
      (.error e, ({ s with world := w } : St W).event .failed) := by
  refine ⟨(env.loadScript path s.world).2, ?_⟩
  show opBody env (calls env n) (.addScript path) s = _
  have : apiBody env (calls env n) (.addScript path) s =
      (.error e, { s with world := (env.loadScript path s.world).2 }) := by
    show M.bind (addScript env (calls env n) path) _ s = _
    unfold addScript
    rw [M.bind_assoc, M.bind_findModule_none _ hx]
    simp only []
    rw [M.bind_assoc, M.bind_of_error (e := e)
      (s' := { s with world := (env.loadScript path s.world).2 }) (by unfold M.ext; rw [he])]
  unfold opBody
  rw [this]

/-- C17: when `add_script` returns, there is a new node, a `Script` called like the given path, and it
is a root. -/
theorem C17_added (env : Env W) (n : Nat) (path : Str) (s s' : St W) (r : Option Node)
    (h : (calls env n).op (.addScript path) s = (.ok r, s')) :
    (∀ x ∈ s.nodes, x.ident ≠ path) ∧ ∃ m, r = some m ∧ m.ident = path ∧ m.kind = .script ∧
      m ∈ s'.nodes ∧ path ∈ s'.roots := by
  cases n with
  | zero => simp [calls, callsZero, M.throw] at h
  | succ n =>
    obtain ⟨m, s1, h1, h2⟩ := M.bind_ok (op_ok h)
    obtain ⟨hm, rfl⟩ := M.pure_ok h2
    subst hm
    obtain ⟨f, s2, hf, h1⟩ := M.bind_ok h1
    obtain ⟨rfl, rfl, hb⟩ := M.findModule_ok hf
    cases hff : s2.find path with
    | some x => rw [hff] at h1; simp [M.throw] at h1
    | none =>
      rw [hff] at h1
      obtain ⟨p, s3, h3, h1⟩ := M.bind_ok h1
      obtain ⟨_, s4, h4, h1⟩ := M.bind_ok h1
      obtain ⟨_, rfl⟩ := M.addNode_ok h4
      obtain ⟨_, s5, h5, h1⟩ := M.bind_ok h1
      obtain ⟨_, s6, h6, h1⟩ := M.bind_ok h1
      obtain ⟨_, rfl⟩ := M.addRoot_ok h6
      obtain ⟨_, s7, h7, h1⟩ := M.bind_ok h1
      obtain ⟨rfl, rfl⟩ := M.pure_ok h1
      refine ⟨?_, _, rfl, rfl, rfl, ?_, ?_⟩
      · intro x hx hxi
        have := find_none hff
        rw [has_of_Has ⟨x, hx, hxi⟩] at this; cases this
      · have hg := (runStack_prefix env n (s5.addRoot path)).subset
        rw [h7] at hg
        refine hg ?_
        have : (Except.ok (), St.schedule _ _ _) = _ := h5
        rw [← (Prod.mk.inj this).2]
        unfold St.addRoot
        split <;> simp [schedule_nodes, St.addNode]
      · have hg := (runStack_grows env n (s5.addRoot path)).roots path
          ((roots_addRoot _ _ _).mpr (.inr rfl))
        rw [h7] at hg
        exact hg

/-- The three cases occur. -/
example :
    let s := (Demo.run Demo.small [.addScript c!"/s.py"]).2
    (∃ x, s.find c!"/s.py" = some x ∧ x.isBaseNode = true) ∧
    s.find c!"/t.py" = none ∧ ((Demo.env Demo.small).loadScript c!"/t.py" s.world).1 = .error .osError ∧
    ((calls (Demo.env Demo.small) 30).op (.addScript c!"/s.py") (initState () [] true)).1 =
      .ok (some { ident := c!"/s.py", kind := .script, filename := some c!"/s.py" }) := by
  refine ⟨⟨{ ident := c!"/s.py", kind := .script, filename := some c!"/s.py" }, ?_⟩, ?_⟩ <;>
    decide +kernel

/-! ## C19 -/

/-- C19: when `add_distribution` returns for a distribution that was not in the graph, the
distribution is a root and has an edge to the node of each of its importable names. -/
theorem C19_linked (env : Env W) (hM : ∀ k i n, (env.userMissing k i n).Passive) (n : Nat)
    (d : Dist) (s s' : St W) (r : Option Node) (hnew : ∀ x ∈ s.nodes, x.ident ≠ d.identifier)
    (h : (calls env n).op (.addDistribution d) s = (.ok r, s')) :
    r = some (distNode d) ∧ distNode d ∈ s'.nodes ∧ d.identifier ∈ s'.roots ∧
      ∀ name ∈ d.importNames, (∃ x ∈ s'.nodes, x.ident = name) ∧
        (d.identifier, name, defaultDep) ∈ s'.edges := by
  cases n with
  | zero => simp [calls, callsZero, M.throw] at h
  | succ n =>
    obtain ⟨m, s1, h1, h2⟩ := M.bind_ok (op_ok h)
    obtain ⟨hm, rfl⟩ := M.pure_ok h2
    subst hm
    have hff : s.find d.identifier = none := by
      cases hf : s.find d.identifier with
      | none => rfl
      | some x => exact absurd (find_some hf).2 (hnew x (find_some hf).1)
    unfold addDistribution at h1
    rw [M.bind_findNode, hff] at h1
    obtain ⟨_, s2, h2, h1⟩ := M.bind_ok h1
    obtain ⟨_, rfl⟩ := M.addNode_ok h2
    obtain ⟨_, s3, h3, h1⟩ := M.bind_ok h1
    obtain ⟨_, rfl⟩ := M.addRoot_ok h3
    obtain ⟨_, s4, h4, h1⟩ := M.bind_ok h1
    obtain ⟨_, s5, h5, h1⟩ := M.bind_ok h1
    obtain ⟨rfl, rfl⟩ := M.pure_ok h1
    have hg := runStack_grows env n s4
    rw [h5] at hg
    -- the loop over the names
    have loop : ∀ (l : List Str) (s s' : St W), M.forEach l (fun name =>
        M.bind ((calls env n).findOrLoad none name true) fun node =>
        M.addEdge d.identifier node.ident defaultDep) s = (.ok (), s') →
        Grows (view s) (view s') ∧ ∀ name ∈ l, (∃ x ∈ s'.nodes, x.ident = name) ∧
          (d.identifier, name, defaultDep) ∈ s'.edges := by
      intro l
      induction l with
      | nil =>
        intro s s' h
        obtain ⟨_, rfl⟩ := M.pure_ok h
        exact ⟨⟨fun _ h => h, fun _ h => h, fun _ h => h⟩, by simp⟩
      | cons a l ih =>
        intro s s' h
        obtain ⟨_, s1, h1, h⟩ := M.bind_ok h
        obtain ⟨nd, s2, h2, h1⟩ := M.bind_ok h1
        obtain ⟨_, hh, rfl⟩ := M.addEdge_ok h1
        have hg1 : Grows (view s) (view s2) := by
          have := ((growsClosed1 (view s)).good env n).findOrLoad none a true [] s
            ⟨fun _ h => h, fun _ h => h, fun _ h => h⟩
          rw [h2] at this
          exact this.2
        have his : nd.ident = a := by
          have := (calls_triv env hM n).findOrLoad none a true [] s trivial (.inl rfl)
          rw [h2] at this
          exact this.2.2.1
        obtain ⟨hg2, hl⟩ := ih _ _ h
        have hg3 : Grows (view s2) (view s') := ⟨fun x hx => hg2.nodes x (by
            show x ∈ (s2.addEdge _ _ _).nodes; rw [addEdge_nodes]; exact hx),
          fun x hx => hg2.edges x ((mem_addEdge _ _ _ _ _).mpr (.inl hx)),
          fun x hx => hg2.roots x (by show x ∈ (s2.addEdge _ _ _).roots; rw [addEdge_roots]; exact hx)⟩
        refine ⟨⟨fun x hx => hg3.nodes x (hg1.nodes x hx), fun x hx => hg3.edges x (hg1.edges x hx),
          fun x hx => hg3.roots x (hg1.roots x hx)⟩, ?_⟩
        intro name hname
        rcases List.mem_cons.mp hname with rfl | hname
        · obtain ⟨x, hx, hxi⟩ := Has_of_has hh
          exact ⟨⟨x, hg3.nodes x hx, hxi.trans his⟩,
            hg2.edges _ ((mem_addEdge _ _ _ _ _).mpr (.inr (by rw [his])))⟩
        · exact hl name hname
    obtain ⟨hg4, hl⟩ := loop _ _ _ h4
    refine ⟨rfl, ?_, ?_, ?_⟩
    · refine hg.nodes _ (hg4.nodes _ ?_)
      show distNode d ∈ (St.addRoot _ _).nodes
      unfold St.addRoot; split <;> simp [St.addNode]
    · exact hg.roots _ (hg4.roots _ ((roots_addRoot _ _ _).mpr (.inr rfl)))
    · intro name hname
      obtain ⟨⟨x, hx, hxi⟩, he⟩ := hl name hname
      exact ⟨⟨x, hg.nodes x hx, hxi⟩, hg.edges _ he⟩

/-- C19: adding a distribution again returns the node that is in the graph and changes nothing. -/
theorem C19_again (env : Env W) (n : Nat) (d : Dist) (s : St W) (x : Node)
    (hx : s.find d.identifier = some x) (hd : x.isBaseNode = false) :
    (calls env (n + 1)).op (.addDistribution d) s = (.ok (some x), s) := by
  show opBody env (calls env n) (.addDistribution d) s = _
  have : apiBody env (calls env n) (.addDistribution d) s = (.ok (some x), s) := by
    show M.bind (addDistribution (calls env n) d) _ s = _
    unfold addDistribution
    rw [M.bind_assoc, M.bind_findNode, hx]
    simp only []
    rw [M.bind_assoc, M.bind_assert _ (by simp [hd])]
    rfl
  unfold opBody
  rw [this]

/-- C19: for a name no distribution has, `add_distribution` raises `ValueError` and the graph is as
before (only the outside world was used). -/
theorem C19_unknown (env : Env W) (n : Nat) (name : Str) (s : St W)
    (hx : (env.distributionNamed name s.world).1 = .ok none) :
    ∃ w, (calls env (n + 1)).op (.addDistributionNamed name) s =
      (.error (.valueError false), ({ s with world := w } : St W).event .failed) := by
  refine ⟨(env.distributionNamed name s.world).2, ?_⟩
  show opBody env (calls env n) (.addDistributionNamed name) s = _
  have : apiBody env (calls env n) (.addDistributionNamed name) s =
      (.error (.valueError false), { s with world := (env.distributionNamed name s.world).2 }) := by
    show M.bind (addDistributionNamed env (calls env n) name) _ s = _
    unfold addDistributionNamed
    rw [M.bind_assoc, M.bind_of_ok (a := none)
      (s' := { s with world := (env.distributionNamed name s.world).2 }) (by unfold M.ext; rw [hx])]
    rfl
  unfold opBody
  rw [this]

/-- C19: adding a distribution by name is adding the distribution that is found. -/
theorem C19_named (env : Env W) (n : Nat) (name : Str) (s : St W) (d : Dist) (w : W)
    (hx : env.distributionNamed name s.world = (.ok (some d), w)) :
    (calls env (n + 1)).op (.addDistributionNamed name) s =
      (calls env (n + 1)).op (.addDistribution d) { s with world := w } := by
  show opBody env (calls env n) (.addDistributionNamed name) s =
    opBody env (calls env n) (.addDistribution d) { s with world := w }
  have : apiBody env (calls env n) (.addDistributionNamed name) s =
      apiBody env (calls env n) (.addDistribution d) { s with world := w } := by
    show M.bind (addDistributionNamed env (calls env n) name) _ s = _
    unfold addDistributionNamed
    rw [M.bind_assoc, M.bind_of_ok (a := some d) (s' := { s with world := w })
      (by unfold M.ext; rw [hx])]
    rfl
  unfold opBody
  rw [this]

/-- A distribution with two importable names, one of them in a package. -/
def sampleDist : Dist :=
  { identifier := c!"/lib/d-1.dist-info", name := c!"d", importNames := [c!"p.q", c!"m"] }

example :
    ((calls (Demo.env Demo.small) 30).op (.addDistribution sampleDist) (initState () [] true)).1 =
      .ok (some (distNode sampleDist)) ∧
    (Demo.run Demo.small [.addDistribution sampleDist]).2.find sampleDist.identifier =
      some (distNode sampleDist) := by decide +kernel

/-- Both cases of adding by name occur. -/
example :
    let env := Demo.env { Demo.small with dists := [sampleDist] }
    env.distributionNamed c!"e" () = (.ok none, ()) ∧
    env.distributionNamed c!"d" () = (.ok (some sampleDist), ()) := by decide +kernel

/-- C19: after any run of a client without a failed call, every distribution in the graph is a root with an edge
to each of its importable names. -/
theorem C19_all_linked (env : Env W) (hL : env.MakesModules) (hP : ∀ k n, (env.userPost k n).Only ApiOp.NoAddNode)
    (hM : ∀ k i n, (env.userMissing k i n).Passive) (n : Nat) {p : Hook W}
    (hp : p.Only ApiOp.NoAddNode) (w : W) (stdlib : List (Str × Implies)) (builtin : Bool) :
    let s := (runClient env n p (initState w stdlib builtin)).2
    Event.failed ∉ s.log → ∀ d, distNode d ∈ s.nodes → d.identifier ∈ s.roots ∧
      ∀ x ∈ d.importNames, (d.identifier, x, defaultDep) ∈ s.edges :=
  client_distLinks env hL hP hM n hp w stdlib builtin

/-- A run with a distribution, a script, and the distribution once more. -/
example :
    let l : List ApiOp := [.addDistributionNamed c!"d", .addScript c!"/s.py", .addDistribution sampleDist]
    let t : Demo.Table := { Demo.small with dists := [sampleDist] }
    (Demo.env t).MakesModules ∧ (Demo.client l).Only ApiOp.NoAddNode ∧
    let s := (Demo.run t l).2
    Event.failed ∉ s.log ∧ distNode sampleDist ∈ s.nodes := by
  refine ⟨(demo_loads _ (by decide +kernel)).makes, demo_client_only _ _ (by simp [ApiOp.NoAddNode]), ?_⟩
  decide +kernel

/-- A surprise: when one of the names cannot be an import name (a file `bin/../x.py` listed in RECORD
leads to such names), `add_distribution` raises but the distribution stays in the graph as a root,
without the edges for the remaining names; calling it again does nothing and reports success. -/
theorem C19_half_done :
    let d : Dist := { identifier := c!"/d", name := c!"d", importNames := [c!"......bin.jp", c!"m"] }
    let s := (Demo.run Demo.small [.addDistribution d]).2
    ((calls (Demo.env Demo.small) 30).op (.addDistribution d) (initState () [] true)).1 =
      .error (.valueError false) ∧ s.roots = [c!"/d"] ∧ s.edges = [] ∧
    ((calls (Demo.env Demo.small) 30).op (.addDistribution d) s).1 = .ok (some (distNode d)) := by
  decide +kernel

end Verif.Props
