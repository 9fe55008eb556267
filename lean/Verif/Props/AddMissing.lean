import Verif.Props.Locate
/-!
# C18: `add_module` of a module that does not exist
-/
namespace Verif.Props
open Verif Spec

variable {W : Type}

/-- Only the hooks that are always installed. -/
structure BuiltinHooks (s : St W) : Prop where
  miss : ∀ h ∈ s.missHooks, h = .swig
  post : ∀ h ∈ s.postHooks, h = .mypyc

/-- `s'` is `s` with some missing modules added, which may be queued for post-processing. -/
structure Adds (names : List Str) (s s' : St W) : Prop where
  nodes : s'.nodes = s.nodes ++ names.map missingNode
  miss : s'.missHooks = s.missHooks
  post : s'.postHooks = s.postHooks
  lazy : s'.lazy = s.lazy
  stack : ∀ it ∈ s'.stack, it ∈ s.stack ∨ ∃ x, it = .pp (missingNode x)

theorem schedule_lazy (s : St W) (n i) : (s.schedule n i).lazy = s.lazy := by
  unfold St.schedule; simp only []; split <;> rfl
theorem addEdge_lazy (s : St W) (a b d) : (s.addEdge a b d).lazy = s.lazy := by
  unfold St.addEdge; split <;> rfl

theorem Adds.refl (s : St W) : Adds [] s s := ⟨by simp, rfl, rfl, rfl, fun _ h => .inl h⟩

theorem Adds.trans {a b} {s s1 s2 : St W} (h : Adds a s s1) (h' : Adds b s1 s2) :
    Adds (a ++ b) s s2 := by
  refine ⟨by rw [h'.nodes, h.nodes]; simp, h'.miss.trans h.miss, h'.post.trans h.post,
    h'.lazy.trans h.lazy, fun it hit => ?_⟩
  rcases h'.stack it hit with hh | hh
  · exact h.stack it hh
  · exact .inr hh

theorem Adds.edge {a} {s s1 : St W} (h : Adds a s s1) (x y d) : Adds a s (s1.addEdge x y d) :=
  ⟨by rw [addEdge_nodes, h.nodes], by rw [addEdge_missHooks, h.miss],
    by rw [addEdge_postHooks, h.post], by rw [addEdge_lazy, h.lazy],
    by rw [addEdge_stack]; exact h.stack⟩

/-- With the built-in hooks only, nobody supplies a node for a name that no module imports. -/
theorem callMissing_builtin (env : Env W) (name : Str) (k i n : Nat) (s : St W)
    (hb : BuiltinHooks s) (hk : i + k = s.missHooks.length) (hn : k + 1 ≤ n) :
    ∃ s', (calls env n).callMissing i none name s = (.ok none, s') ∧ Adds [] s s' := by
  induction k generalizing i n s with
  | zero =>
    obtain ⟨n, rfl⟩ : ∃ n', n = n' + 1 := ⟨n - 1, by omega⟩
    show ∃ s', callMissingBody env (calls env n) i none name s = _ ∧ _
    unfold callMissingBody
    rw [M.bind_get]
    have : s.missHooks[i]? = none := by simp; omega
    rw [this]
    exact ⟨s, rfl, .refl s⟩
  | succ k ih =>
    have hi : i < s.missHooks.length := by omega
    have hsw : s.missHooks[i]? = some .swig := by
      rw [List.getElem?_eq_getElem hi, hb.miss _ (List.getElem_mem hi)]
    obtain ⟨n, rfl⟩ : ∃ n', n = n' + 1 := ⟨n - 1, by omega⟩
    show ∃ s', callMissingBody env (calls env n) i none name s = _ ∧ _
    unfold callMissingBody
    rw [M.bind_get, hsw]
    obtain ⟨s', h1, h2⟩ := ih (i + 1) n (s.event (.asked .swig name none)) ⟨hb.miss, hb.post⟩
      (by show _ = s.missHooks.length; omega) (by omega)
    refine ⟨s', ?_, ⟨h2.nodes, h2.miss, h2.post, h2.lazy, h2.stack⟩⟩
    rw [← h1]
    rfl

theorem createMissing_builtin (env : Env W) (name : Str) (n : Nat) (s : St W)
    (hb : BuiltinHooks s) (hnew : s.has name = false) (hn : s.missHooks.length + 2 ≤ n) :
    ∃ s', (calls env n).createMissing none name s = (.ok (missingNode name), s') ∧
      Adds [name] s s' := by
  obtain ⟨n, rfl⟩ : ∃ n', n = n' + 1 := ⟨n - 1, by omega⟩
  show ∃ s', createMissingBody (calls env n) none name s = _ ∧ _
  unfold createMissingBody
  obtain ⟨s1, h1, h2⟩ := callMissing_builtin env name s.missHooks.length 0 n s hb (by omega)
    (by omega)
  rw [M.bind_of_ok h1]
  have hnew1 : s1.has (missingNode name).ident = false := by
    unfold St.has at *
    rw [h2.nodes, List.map_nil, List.append_nil]; exact hnew
  simp only []
  rw [M.bind_addNode _ hnew1, M.bind_schedule]
  refine ⟨_, rfl, h2.trans (b := [name]) ⟨?_, ?_, ?_, ?_, ?_⟩⟩
  · rw [schedule_nodes]; simp [St.addNode]
  · rw [schedule_missHooks]; rfl
  · rw [schedule_postHooks]; rfl
  · rw [schedule_lazy]; rfl
  · intro it hit
    rcases schedule_stack (s1.addNode (missingNode name)) (missingNode name) with h | h
    · rw [h] at hit; exact .inl hit
    · rw [h] at hit
      rcases List.mem_append.mp hit with h | h
      · exact .inl h
      · exact .inr ⟨name, List.mem_singleton.mp h⟩

theorem loadModule_missing (env : Env W) (name : Str) (n : Nat) (s : St W)
    (hb : BuiltinHooks s) (hnew : s.has name = false) (hdot : startsWith c!"." name = false)
    (hnf : ∃ w', NotThere env name s.world w') (hn : s.missHooks.length + 4 ≤ n) :
    ∃ s', (calls env n).loadModule none name s = (.ok (missingNode name), s') ∧
      Adds [name] s s' := by
  obtain ⟨n, rfl⟩ : ∃ n', n = n' + 2 := ⟨n - 2, by omega⟩
  obtain ⟨w', hw⟩ := hnf
  obtain ⟨s1, h1, h2⟩ := createMissing_builtin env name n { s with world := w' } ⟨hb.miss, hb.post⟩ hnew
    (by show s.missHooks.length + 2 ≤ n; omega)
  refine ⟨s1, C72_missing n none s (fun h => ?_) (fun m hm he => ?_) hw h1, ⟨h2.nodes, h2.miss, h2.post, h2.lazy, h2.stack⟩⟩
  · obtain ⟨t, rfl⟩ : ∃ t, name = '.' :: t := by cases name <;> simp_all
    simp [startsWith, List.isPrefixOf] at hdot
  · rw [has_of_Has ⟨m, hm, he⟩] at hnew
    cases hnew

theorem startsWith_dot {c : Str} {r : List Str} (hc : Comp c) (hne : c ≠ []) :
    startsWith c!"." (dotted (c :: r)) = false := by
  cases c with
  | nil => exact absurd rfl hne
  | cons x xs =>
    have hx : x ≠ '.' := by rintro rfl; exact hc (by simp)
    cases r <;> simp [dotted, startsWith, List.isPrefixOf, hx.symm]

/-- Every name on the way down from a known package (or from the top) is created as missing module,
once the first of them is not found. -/
theorem miss_chain (env : Env W) (cs : List Str) (d : Str) (r : List Str) (s : St W)
    (hc : ∀ c ∈ cs ++ d :: r, Comp c ∧ c ≠ []) (hb : BuiltinHooks s)
    (hp : cs = [] ∨ ∃ p, s.find (dotted cs) = some p ∧ p.isBaseNode = true ∧ p.isExcluded = false)
    (hnew : ∀ q, q <+: r → s.has (dotted (cs ++ d :: q)) = false)
    (hl : s.lazy (dotted (cs ++ [d])) = none) (hnf : ∃ w', NotThere env (dotted (cs ++ [d])) s.world w')
    (n : Nat) (hn : r.length + s.missHooks.length + 5 ≤ n) :
    ∃ s' names, (calls env n).findOrLoad none (dotted (cs ++ d :: r)) true s =
        (.ok (missingNode (dotted (cs ++ d :: r))), s') ∧ Adds names s s' ∧
      (∀ x ∈ names, ∃ q, q <+: r ∧ x = dotted (cs ++ d :: q)) ∧ dotted (cs ++ d :: r) ∈ names := by
  generalize hk : r.length = k at hn
  induction k generalizing r n with
  | zero =>
    have hr : r = [] := by simpa using hk
    subst hr
    have hnew := hnew [] (List.prefix_refl _)
    have hdot : startsWith c!"." (dotted (cs ++ [d])) = false := by
      cases cs with
      | nil => exact startsWith_dot (hc d (by simp)).1 (hc d (by simp)).2
      | cons c cs => exact startsWith_dot (hc c (by simp)).1 (hc c (by simp)).2
    have hf : s.find (dotted (cs ++ [d])) = none := by
      cases h : s.find (dotted (cs ++ [d])) with
      | none => rfl
      | some x => rw [has_of_find h] at hnew; cases hnew
    obtain ⟨n, rfl⟩ : ∃ n', n = n' + 1 := ⟨n - 1, by omega⟩
    have himp : (calls env n).implied none (dotted (cs ++ [d])) s = (.ok none, s) := by
      obtain ⟨n, rfl⟩ : ∃ n', n = n' + 1 := ⟨n - 1, by omega⟩
      show impliedBody (calls env n) none _ s = _
      unfold impliedBody
      rw [M.bind_findNode, hf]
      simp only []
      rw [M.bind_get, hl]
      rfl
    obtain ⟨s1, h1, h2⟩ := loadModule_missing env (dotted (cs ++ [d])) n s hb hnew hdot hnf
      (by omega)
    have hs1 : s1.has (missingNode (dotted (cs ++ [d]))).ident = true := by
      unfold St.has; rw [h2.nodes]; simp
    by_cases hcs : cs = []
    · subst hcs
      refine ⟨s1, [_], ?_, h2, by simp, by simp⟩
      show findOrLoadBody (calls env n) none _ true s = _
      unfold findOrLoadBody
      rw [M.bind_findModule_none _ hf]
      simp only []
      have hs : splitPackage (dotted ([] ++ [d])) = .ok (none, d) := by
        have h : IsSplit (dotted ([] ++ [d])) 0 [] d :=
          ⟨by simp, by simp, (hc d (by simp)).1, fun _ => (hc d (by simp)).2⟩
        rw [splitPackage_of_isSplit h]
        simp
      rw [hs, M.bind_ofExcept]
      simp only []
      rw [M.bind_pure]
      simp only [M.bind_assoc]
      rw [M.bind_of_ok himp]
      simp only []
      rw [M.bind_of_ok h1]
      rfl
    · obtain ⟨p, hpf, hpb, hpx⟩ := hp.resolve_left hcs
      have hs := split_dotted (x := d) hcs (fun c h => hc c (List.mem_append_left _ h))
        (hc d (by simp)).1
      have hpl : (calls env n).findOrLoad none (dotted cs) true s = (.ok p, s) := by
        obtain ⟨n, rfl⟩ : ∃ n', n = n' + 1 := ⟨n - 1, by omega⟩
        show findOrLoadBody (calls env n) none _ true s = _
        unfold findOrLoadBody
        rw [M.bind_findModule_some _ hpf hpb]
        rfl
      by_cases hpm : p.isMissing = true
      · obtain ⟨s1, h1, h2⟩ := createMissing_builtin env (dotted (cs ++ [d])) n s hb hnew (by omega)
        refine ⟨_, [dotted (cs ++ [d])], C13_missing_step _ none _ _ _ true p _ s s s1
          (fun x hx he => by rw [has_of_Has ⟨x, hx, he⟩] at hnew; cases hnew) hs hpl hpm h1
          (by rw [h2.nodes]; simp)
          (by rw [h2.nodes]; exact List.mem_append_left _ (find_some hpf).1), ?_, by simp, by simp⟩
        simp only [Bool.true_or, if_true]
        exact h2.edge _ _ _
      · refine ⟨_, [_], ?_, h2.edge (missingNode (dotted (cs ++ [d]))).ident p.ident defaultDep,
          by simp, by simp⟩
        show findOrLoadBody (calls env n) none _ true s = _
        unfold findOrLoadBody
        rw [M.bind_findModule_none _ hf]
        simp only []
        rw [hs, M.bind_ofExcept]
        simp only [M.bind_assoc]
        rw [M.bind_of_ok hpl, if_neg hpm, if_neg (by rw [hpx]; simp)]
        rw [M.bind_pure]
        simp only [M.bind_assoc]
        rw [M.bind_of_ok himp]
        simp only []
        rw [M.bind_of_ok h1]
        simp only [Bool.true_or, if_true]
        rw [M.bind_addEdge _ hs1 (by
          unfold St.has; rw [h2.nodes]
          simp only [List.any_append, Bool.or_eq_true]
          exact .inl (List.any_eq_true.mpr ⟨p, (find_some hpf).1, by simp⟩))]
        rfl
  | succ k ih =>
    have hrn : r ≠ [] := by intro h; rw [h] at hk; simp at hk
    obtain ⟨q, x, rfl⟩ : ∃ q x, r = q ++ [x] :=
      ⟨r.dropLast, r.getLast hrn, (List.dropLast_concat_getLast hrn).symm⟩
    obtain ⟨n, rfl⟩ : ∃ n', n = n' + 1 := ⟨n - 1, by omega⟩
    have hcq : ∀ c ∈ cs ++ d :: q, Comp c ∧ c ≠ [] := fun c h => hc c (by
      simp at h ⊢; grind)
    obtain ⟨s1, names, h1, h2, h3, h4⟩ := ih q hcq (fun t ht => hnew t (ht.trans (List.prefix_append _ _)))
      n (by simpa using hk) (by omega)
    have hx := hnew (q ++ [x]) (List.prefix_refl _)
    have hs : splitPackage (dotted (cs ++ d :: (q ++ [x]))) = .ok (some (dotted (cs ++ d :: q)), x) := by
      have := split_dotted (cs := cs ++ d :: q) (x := x) (by simp) hcq (hc x (by simp)).1
      simpa using this
    have hx1 : s1.has (dotted (cs ++ d :: (q ++ [x]))) = false := by
      cases h : s1.has (dotted (cs ++ d :: (q ++ [x]))) with
      | false => rfl
      | true =>
        obtain ⟨y, hy, hyi⟩ := Has_of_has h
        rw [h2.nodes] at hy
        rcases List.mem_append.mp hy with hy | hy
        · rw [has_of_Has ⟨y, hy, hyi⟩] at hx; cases hx
        · obtain ⟨z, hz, rfl⟩ := List.mem_map.mp hy
          obtain ⟨t, ht, rfl⟩ := h3 z hz
          have hsub : ∀ c ∈ cs ++ d :: t, c ∈ cs ++ d :: q := by
            intro c hc; have := ht.subset (a := c); simp at hc ⊢; grind
          have := dotted_inj (fun c h => (hcq c (hsub c h)).1) (fun c h => (hc c h).1)
            (by simp) (by simp) hyi
          have := congrArg List.length this
          have := ht.length_le
          simp at *
          omega
    obtain ⟨s2, h5, h6⟩ := createMissing_builtin env (dotted (cs ++ d :: (q ++ [x]))) n s1
      ⟨h2.miss ▸ hb.miss, h2.post ▸ hb.post⟩ hx1 (by rw [h2.miss]; omega)
    refine ⟨_, names ++ [dotted (cs ++ d :: (q ++ [x]))], C13_missing_step _ none _ _ _ true _ _ s s1 s2
      (fun y hy he => by rw [has_of_Has ⟨y, hy, he⟩] at hx; cases hx) hs h1 rfl h5
      (by rw [h6.nodes]; simp)
      (by
        rw [h6.nodes, h2.nodes]
        exact List.mem_append_left _ (List.mem_append_right _ (List.mem_map_of_mem h4))), ?_, ?_, by simp⟩
    · simp only [Bool.true_or, if_true]
      exact (h2.trans h6).edge _ _ _
    · intro y hy
      rcases List.mem_append.mp hy with hy | hy
      · obtain ⟨t, ht, rfl⟩ := h3 y hy
        exact ⟨t, ht.trans (List.prefix_append _ _), rfl⟩
      · exact ⟨q ++ [x], List.prefix_refl _, List.mem_singleton.mp hy⟩

theorem callPost_missing (env : Env W) (x : Str) (k i n : Nat) (s : St W)
    (hb : BuiltinHooks s) (hk : i + k = s.postHooks.length) (hn : k + 1 ≤ n) :
    ∃ s', (calls env n).callPost i (missingNode x) s = (.ok (), s') ∧ s'.nodes = s.nodes ∧
      s'.stack = s.stack ∧ BuiltinHooks s' ∧ s'.postHooks = s.postHooks ∧ s'.roots = s.roots := by
  induction k generalizing i n s with
  | zero =>
    obtain ⟨n, rfl⟩ : ∃ n', n = n' + 1 := ⟨n - 1, by omega⟩
    show ∃ s', callPostBody env (calls env n) i _ s = _ ∧ _
    unfold callPostBody
    rw [M.bind_get]
    have : s.postHooks[i]? = none := by simp; omega
    rw [this]
    exact ⟨s, rfl, rfl, rfl, hb, rfl, rfl⟩
  | succ k ih =>
    have hi : i < s.postHooks.length := by omega
    have hsw : s.postHooks[i]? = some .mypyc := by
      rw [List.getElem?_eq_getElem hi, hb.post _ (List.getElem_mem hi)]
    obtain ⟨n, rfl⟩ : ∃ n', n = n' + 1 := ⟨n - 1, by omega⟩
    show ∃ s', callPostBody env (calls env n) i _ s = _ ∧ _
    unfold callPostBody
    rw [M.bind_get, hsw]
    obtain ⟨s', h1, h2⟩ := ih (i + 1) n (s.event (.called .mypyc x)) ⟨hb.miss, hb.post⟩
      (by show _ = s.postHooks.length; omega) (by omega)
    refine ⟨s', ?_, h2⟩
    rw [← h1]
    rfl

theorem runStack_missing (env : Env W) (k : Nat) (s : St W) (hb : BuiltinHooks s)
    (hs : ∀ it ∈ s.stack, ∃ x, it = .pp (missingNode x)) (hk : s.stack.length = k) (n : Nat)
    (hn : k + s.postHooks.length + 2 ≤ n) :
    ∃ s', (calls env n).runStack s = (.ok (), s') ∧ s'.nodes = s.nodes ∧ s'.roots = s.roots := by
  induction k generalizing n s with
  | zero =>
    obtain ⟨n, rfl⟩ : ∃ n', n = n' + 1 := ⟨n - 1, by omega⟩
    refine ⟨s, ?_, rfl, rfl⟩
    show runStackBody env (calls env n) s = _
    unfold runStackBody
    have : s.stack = [] := by simpa using hk
    rw [M.bind_of_ok (a := none) (s' := s) (by unfold popItem; rw [this]; rfl)]
    rfl
  | succ k ih =>
    have hrn : s.stack ≠ [] := by intro h; rw [h] at hk; simp at hk
    obtain ⟨q, it, hq⟩ : ∃ q it, s.stack = q ++ [it] :=
      ⟨s.stack.dropLast, s.stack.getLast hrn, (List.dropLast_concat_getLast hrn).symm⟩
    obtain ⟨x, rfl⟩ := hs it (by rw [hq]; simp)
    obtain ⟨n, rfl⟩ : ∃ n', n = n' + 1 := ⟨n - 1, by omega⟩
    obtain ⟨s1, h1, h2, h3, h4, h5, h6⟩ := callPost_missing env x s.postHooks.length 0 n
      { s with stack := q, log := s.log ++ [.started (.pp (missingNode x))] } ⟨hb.miss, hb.post⟩
      (by simp) (by omega)
    obtain ⟨s2, h7, h8, h9⟩ := ih s1 h4
      (by rw [h3]; intro it hit; exact hs it (by rw [hq]; exact List.mem_append_left _ hit))
      (by rw [h3]; rw [hq] at hk; simpa using hk) n
      (by rw [h5]; show k + s.postHooks.length + 2 ≤ n; omega)
    refine ⟨s2, ?_, h8.trans h2, h9.trans h6⟩
    show runStackBody env (calls env n) s = _
    unfold runStackBody
    rw [M.bind_of_ok (a := some (.pp (missingNode x)))
      (s' := { s with stack := q, log := s.log ++ [.started (.pp (missingNode x))] })
      (by unfold popItem; rw [hq]; simp)]
    simp only []
    exact (M.bind_of_ok (a := ()) (s' := s1) h1).trans h7

/-- C18: `add_module` of a name below a package that is already in the graph (or of a top-level
name), when the first unknown name on the way is not there (C72): the call returns the `MissingModule`
for the name, which is a root, and adds nothing but `MissingModule` nodes for the names on the way.
The graph may contain anything; nothing is queued and only the built-in hooks are installed.
Partial: a name of the way that is in the table of implied nodes is not covered (`hl`);
`C18_implied_missing` shows that the call does fail for some such tables. -/
theorem C18_missing_partial (env : Env W) (cs : List Str) (d : Str) (r : List Str) (s : St W)
    (hc : ∀ c ∈ cs ++ d :: r, Comp c ∧ c ≠ []) (hb : BuiltinHooks s) (hst : s.stack = [])
    (hp : cs = [] ∨ ∃ p, s.find (dotted cs) = some p ∧ p.isBaseNode = true ∧ p.isExcluded = false)
    (hnew : ∀ q, q <+: r → ∀ x ∈ s.nodes, x.ident ≠ dotted (cs ++ d :: q))
    (hl : s.lazy (dotted (cs ++ [d])) = none) (hnf : ∃ w', NotThere env (dotted (cs ++ [d])) s.world w') :
    ∃ N, ∀ n, N ≤ n → ∃ s', (calls env n).op (.addModule (dotted (cs ++ d :: r))) s =
        (.ok (some (missingNode (dotted (cs ++ d :: r)))), s') ∧
      missingNode (dotted (cs ++ d :: r)) ∈ s'.nodes ∧ dotted (cs ++ d :: r) ∈ s'.roots ∧
      ∀ x ∈ s'.nodes, x ∈ s.nodes ∨ ∃ q, q <+: r ∧ x = missingNode (dotted (cs ++ d :: q)) := by
  have hnew' : ∀ q, q <+: r → s.has (dotted (cs ++ d :: q)) = false := by
    intro q hq
    cases h : s.has (dotted (cs ++ d :: q)) with
    | false => rfl
    | true => obtain ⟨x, hx, hi⟩ := Has_of_has h; exact absurd hi (hnew q hq x hx)
  have hf : s.find (dotted (cs ++ d :: r)) = none := by
    cases h : s.find (dotted (cs ++ d :: r)) with
    | none => rfl
    | some x =>
      have := hnew' r (List.prefix_refl _)
      rw [has_of_find h] at this; cases this
  obtain ⟨s1, names, h1, h2, h3, h4⟩ := miss_chain env cs d r s hc hb hp hnew' hl hnf
    (r.length + s.missHooks.length + 5) (Nat.le_refl _)
  obtain ⟨s2, h5, h6, h7⟩ := runStack_missing env (s1.addRoot (dotted (cs ++ d :: r))).stack.length
    (s1.addRoot (dotted (cs ++ d :: r)))
    (by
      refine ⟨?_, ?_⟩
      · have : (s1.addRoot (dotted (cs ++ d :: r))).missHooks = s1.missHooks := by
          unfold St.addRoot; split <;> rfl
        rw [this, h2.miss]; exact hb.miss
      · have : (s1.addRoot (dotted (cs ++ d :: r))).postHooks = s1.postHooks := by
          unfold St.addRoot; split <;> rfl
        rw [this, h2.post]; exact hb.post)
    (by
      have : (s1.addRoot (dotted (cs ++ d :: r))).stack = s1.stack := by
        unfold St.addRoot; split <;> rfl
      rw [this]
      intro it hit
      rcases h2.stack it hit with h | h
      · rw [hst] at h; cases h
      · exact h) rfl _ (Nat.le_refl _)
  have hnodes : s2.nodes = s.nodes ++ names.map missingNode := by
    rw [h6]
    have : (s1.addRoot (dotted (cs ++ d :: r))).nodes = s1.nodes := by
      unfold St.addRoot; split <;> rfl
    rw [this, h2.nodes]
  refine ⟨r.length + s.missHooks.length + 5 + ((s1.addRoot (dotted (cs ++ d :: r))).stack.length +
    (s1.addRoot (dotted (cs ++ d :: r))).postHooks.length + 2) + 1, fun n hn => ⟨s2, ?_, ?_, ?_, ?_⟩⟩
  rotate_left
  · rw [hnodes]; exact List.mem_append_right _ (List.mem_map_of_mem h4)
  · rw [h7]; exact (roots_addRoot _ _ _).mpr (.inr rfl)
  · intro x hx
    rw [hnodes] at hx
    rcases List.mem_append.mp hx with hx | hx
    · exact .inl hx
    · obtain ⟨z, hz, rfl⟩ := List.mem_map.mp hx
      obtain ⟨q, hq, rfl⟩ := h3 z hz
      exact .inr ⟨q, hq, rfl⟩
  obtain ⟨n, rfl⟩ : ∃ n', n = n' + 1 := ⟨n - 1, by omega⟩
  have h1' := ((calls_le env (show _ ≤ n by omega)).findOrLoad _ _ _).of_ok h1
  have h5' := (calls_le env (show _ ≤ n by omega)).runStack.of_ok h5
  have : apiBody env (calls env n) (.addModule (dotted (cs ++ d :: r))) s =
      (.ok (some (missingNode (dotted (cs ++ d :: r)))), s2) := by
    show M.bind (addModule (calls env n) (dotted (cs ++ d :: r))) _ s = _
    unfold addModule
    simp only [M.bind_assoc]
    rw [M.bind_findModule_none _ hf]
    simp only []
    rw [M.bind_of_ok h1', M.bind_addRoot _ (by
      unfold St.has; rw [h2.nodes]
      simp only [List.any_append, Bool.or_eq_true]
      exact .inr (List.any_eq_true.mpr ⟨_, List.mem_map_of_mem h4, by simp⟩))]
    exact (M.bind_of_ok h5').trans rfl
  show opBody env (calls env n) _ s = _
  unfold opBody
  rw [this]

/-- The hypotheses are satisfiable: `p` is a package in the graph, neither `p.x` nor `y` exist. -/
example :
    let t : Demo.Table := { mods := [(c!"p", Demo.pkg c!"p", [])] }
    let s := (Demo.run t [.addModule c!"p"]).2
    BuiltinHooks s ∧ s.stack = [] ∧
      (s.find (dotted [c!"p"])).map (fun p => (p.isBaseNode, p.isExcluded)) = some (true, false) ∧
      (∀ q, q <+: [c!"z"] → ∀ x ∈ s.nodes, x.ident ≠ dotted ([c!"p"] ++ c!"x" :: q)) ∧
      s.lazy (dotted [c!"p", c!"x"]) = none ∧
      (∃ w', NotThere (Demo.env t) (dotted [c!"p", c!"x"]) s.world w') ∧
      ∃ w', NotThere (Demo.env t) (dotted [c!"y"]) s.world w' := by
  refine ⟨⟨by decide +kernel, by decide +kernel⟩, by decide +kernel, by decide +kernel, ?_,
    by decide +kernel, ⟨_, .inl (.inl (.plain rfl))⟩, ⟨_, .inl (.inl (.plain rfl))⟩⟩
  intro q hq
  have : ∀ q ∈ [[], [c!"z"]], ∀ x ∈
    (Demo.run { mods := [(c!"p", Demo.pkg c!"p", [])] } [.addModule c!"p"]).2.nodes,
      x.ident ≠ dotted ([c!"p"] ++ c!"x" :: q) := by decide +kernel
  exact this q (by
    rcases q with _ | ⟨a, q⟩
    · simp
    · obtain ⟨r, hr⟩ := hq
      simp at hr
      obtain ⟨rfl, rfl, rfl⟩ := hr
      simp)

/-- The implies table of the standard library contains lists such as
`"turtledemo": ("turtledemo.nim", ...)`.  If such a module is missing, the names below it are
created while the list is processed. -/
def turtle : List (Str × Implies) := [(c!"t", .refs [c!"t.nim"])]

/-- C18 fails for such a name: `add_module("t.nim")` raises `ValueError`, because the node `t.nim`
is created twice; `_find_or_load_module` does not look again after having dealt with the package. -/
theorem C18_implied_missing :
    ((Demo.run {} [.addImplies turtle]).1 = .ok none) ∧
      ((calls (Demo.env {}) 30).op (.addModule c!"t.nim")
        (Demo.run {} [.addImplies turtle]).2).1 = .error (.valueError false) := by
  decide +kernel

end Verif.Props
