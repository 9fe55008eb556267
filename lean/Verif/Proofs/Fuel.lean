import Verif.Proofs.Exec
/-!
# More recursion depth does not change outcomes

`calls env n` and `calls env m` with `n ≤ m` agree on every call that does not exceed depth `n`.
-/
namespace Verif
variable {W : Type} {α β : Type}

/-- `m'` does what `m` does, except where `m` exceeds the recursion depth. -/
def M.Le (m m' : M W α) : Prop := ∀ s, (m s).1 = .error .fuel ∨ m' s = m s

namespace M.Le

theorem refl (m : M W α) : M.Le m m := fun _ => .inr rfl

theorem trans {a b c : M W α} (h : M.Le a b) (h' : M.Le b c) : M.Le a c := by
  intro s
  rcases h s with h | h
  · exact .inl h
  · rcases h' s with h' | h'
    · rw [h] at h'; exact .inl h'
    · exact .inr (h'.trans h)

theorem fuel (m : M W α) : M.Le (M.throw .fuel) m := fun _ => .inl rfl

theorem bind {m m' : M W α} {f f' : α → M W β} (h : M.Le m m') (h' : ∀ a, M.Le (f a) (f' a)) :
    M.Le (M.bind m f) (M.bind m' f') := by
  intro s
  rcases h s with h | h
  · left
    unfold M.bind
    cases hm : m s with
    | mk r s' =>
      rw [hm] at h
      simp only at h
      subst h
      rfl
  · unfold M.bind
    rw [h]
    cases hm : m s with
    | mk r s' =>
      cases r with
      | ok a => exact h' a s'
      | error e => exact .inr rfl

theorem attempt {m m' : M W α} (h : M.Le m m') : M.Le (M.attempt m) (M.attempt m') := by
  intro s
  rcases h s with h | h
  · left
    unfold M.attempt
    cases hm : m s with
    | mk r s' =>
      rw [hm] at h
      simp only at h
      subst h
      rfl
  · right; unfold M.attempt; rw [h]

theorem savedStack {m m' : M W α} (h : M.Le m m') : M.Le (M.savedStack m) (M.savedStack m') := by
  intro s
  rcases h { s with stack := [], hidden := s.hidden ++ s.stack } with h | h
  · exact .inl h
  · right; unfold M.savedStack; rw [h]

theorem forEach {l : List α} {f f' : α → M W Unit} (h : ∀ a, M.Le (f a) (f' a)) :
    M.Le (M.forEach l f) (M.forEach l f') := by
  induction l with
  | nil => exact refl _
  | cons x xs ih => exact bind (h x) fun _ => ih

theorem ite {c : Prop} [Decidable c] {a b a' b' : M W α} (h : M.Le a a') (h' : M.Le b b') :
    M.Le (if c then a else b) (if c then a' else b') := by split <;> assumption

end M.Le

/-- All methods of `r'` do what those of `r` do, except where these exceed the depth. -/
structure Calls.Le (r r' : Calls W) : Prop where
  findOrLoad : ∀ i n b, M.Le (r.findOrLoad i n b) (r'.findOrLoad i n b)
  implied : ∀ i n, M.Le (r.implied i n) (r'.implied i n)
  loadModule : ∀ i n, M.Le (r.loadModule i n) (r'.loadModule i n)
  createMissing : ∀ i n, M.Le (r.createMissing i n) (r'.createMissing i n)
  importPackage : ∀ i n, M.Le (r.importPackage i n) (r'.importPackage i n)
  runStack : M.Le r.runStack r'.runStack
  callPost : ∀ k n, M.Le (r.callPost k n) (r'.callPost k n)
  callMissing : ∀ k i n, M.Le (r.callMissing k i n) (r'.callMissing k i n)
  op : ∀ o, M.Le (r.op o) (r'.op o)

section
variable {r r' : Calls W} (h : Calls.Le r r') (env : Env W)
include h

theorem interp_le (p : Hook W) : M.Le (interp r p) (interp r' p) := by
  induction p with
  | ret x => exact .refl _
  | raise e => exact .refl _
  | look k ih => exact fun s => ih s (s.event _)
  | setWorld w k ih => exact fun s => ih { s with world := w }
  | call o k ih => exact .bind (.attempt (h.op o)) fun a => ih a

theorem mypycHook_le (n : Node) : M.Le (mypycHook env r n) (mypycHook env r' n) := by
  unfold mypycHook
  split
  · exact .refl _
  · split
    · exact .refl _
    · split
      · exact .refl _
      · simp only []
        split
        · exact .refl _
        · refine .bind (.refl _) fun b => .ite (.refl _) (.bind (h.op _) fun x => ?_)
          split
          · exact .refl _
          · refine .bind (.refl _) fun _ => .bind (.refl _) fun _ => .bind (.refl _) fun q => ?_
            split
            · exact .refl _
            · exact .refl _
            · exact .ite (.refl _) (.bind (.refl _) fun _ => h.runStack)

theorem callPost_le (k n) : M.Le (callPostBody env r k n) (callPostBody env r' k n) := by
  unfold callPostBody
  refine .bind (.refl _) fun s => ?_
  split
  · exact .refl _
  · refine .bind (.refl _) fun _ => .bind ?_ fun _ => h.callPost _ _
    split
    · exact mypycHook_le h env n
    · exact .bind (interp_le h _) fun _ => .refl _

theorem callMissing_le (k i n) : M.Le (callMissingBody env r k i n) (callMissingBody env r' k i n) := by
  unfold callMissingBody
  refine .bind (.refl _) fun s => ?_
  split
  · exact .refl _
  · refine .bind (.refl _) fun _ => .bind ?_ fun a => ?_
    · split
      · exact .refl _
      · exact interp_le h _
    · split
      · exact .refl _
      · exact h.callMissing _ _ _

theorem createMissing_le (i n) : M.Le (createMissingBody r i n) (createMissingBody r' i n) := by
  unfold createMissingBody
  refine .bind (h.callMissing _ _ _) fun a => ?_
  split <;> exact .refl _

theorem implied_le (i n) : M.Le (impliedBody r i n) (impliedBody r' i n) := by
  unfold impliedBody
  refine .bind (.refl _) fun a => ?_
  split
  · exact .refl _
  · refine .bind (.refl _) fun s => ?_
    split
    · exact .refl _
    · refine .bind (.refl _) fun _ => ?_
      split
      · exact .refl _
      · exact .bind (.refl _) fun _ => .bind (.refl _) fun _ => .bind (h.findOrLoad _ _ _) fun _ =>
          .refl _
      · exact .bind (.refl _) fun _ => .bind (.refl _) fun _ => .bind (h.findOrLoad _ _ _) fun _ =>
          .refl _
      · exact .bind (h.findOrLoad _ _ _) fun _ => .bind (.forEach fun _ =>
          .bind (h.findOrLoad _ _ _) fun _ => .refl _) fun _ => .refl _

theorem loadFallback_le (i n e) : M.Le (loadFallback env r i n e) (loadFallback env r' i n e) := by
  unfold loadFallback
  simp only []
  refine .ite (.bind (.refl _) fun s => .ite (.refl _) (.bind (.refl _) fun sp => ?_))
    (h.createMissing _ _)
  split
  · exact .refl _
  · refine .bind (.refl _) fun s => .ite (.refl _) (.bind (.refl _) fun b =>
      .ite ?_ (h.createMissing _ _))
    split
    · exact .refl _
    · exact .ite (.refl _) (.bind (.refl _) fun _ => h.loadModule _ _)

theorem addLoaded_le (n sp) : M.Le (addLoaded env r n sp) (addLoaded env r' n sp) := by
  unfold addLoaded
  refine .bind (.refl _) fun p => ?_
  simp only []
  refine .ite (.bind (.refl _) fun _ => .bind (.refl _) fun _ => .bind (.refl _) fun f =>
    .bind ?_ fun _ => .refl _) (.bind (.refl _) fun _ => .bind ?_ fun _ => .refl _)
  · split
    · exact .refl _
    · refine .bind (.refl _) fun _ => .bind (.refl _) fun _ => .bind (.refl _) fun q => ?_
      split
      · exact .refl _
      · exact .bind (h.findOrLoad _ _ _) fun _ => .refl _
  · split
    · exact .bind (h.findOrLoad _ _ _) fun _ => .refl _
    · exact .refl _

theorem loadModule_le (i n) : M.Le (loadModuleBody env r i n) (loadModuleBody env r' i n) := by
  unfold loadModuleBody
  refine .ite (.refl _) (.bind (.refl _) fun f => ?_)
  split
  · exact .refl _
  · refine .bind (.attempt (.bind (.refl _) fun sp => ?_)) fun q => ?_
    · split
      · exact .bind (h.createMissing _ _) fun _ => .refl _
      · exact .refl _
    · split
      · exact .refl _
      · exact addLoaded_le h env _ _
      · exact .ite (loadFallback_le h env _ _ _) (.refl _)

theorem findOrLoad_le (i n b) : M.Le (findOrLoadBody r i n b) (findOrLoadBody r' i n b) := by
  unfold findOrLoadBody
  refine .bind (.refl _) fun f => ?_
  split
  · exact .refl _
  · refine .bind (.refl _) fun sp => .bind ?_ fun pn => .bind ?_ fun nd => ?_
    · split
      · exact .refl _
      · exact .bind (h.findOrLoad _ _ _) fun _ =>
          .ite (.bind (h.createMissing _ _) fun _ => .refl _) (.refl _)
    · split
      · exact .refl _
      · refine .bind (h.implied _ _) fun x => ?_
        split
        · exact .refl _
        · exact h.loadModule _ _
    · exact .refl _

theorem processImport_le (n i) : M.Le (processImport r n i) (processImport r' n i) := by
  unfold processImport
  refine .bind (.refl _) fun a => ?_
  split
  · exact .refl _
  · exact .bind (.refl _) fun s => .bind (h.findOrLoad _ _ _) fun _ => .refl _

theorem processName_le (a b i nm) : M.Le (processName env r a b i nm) (processName env r' a b i nm) := by
  unfold processName
  refine .bind (.refl _) fun s => ?_
  simp only []
  have hsub : M.Le
      (M.bind (r.findOrLoad (some a) (b.ident ++ '.' :: nm.name) false) fun sub =>
        M.bind M.get fun s =>
        if sub.isMissing then
          match b.kind with
          | .package _ init _ _ _ =>
            if init.name = c!"@@SIX_MOVES@@" then
              match sixMove nm.name with
              | some target =>
                M.bind (r.findOrLoad (some a) target true) fun depNode =>
                M.addEdge a.ident depNode.ident defaultDep
              | none => M.bind (M.addEdge sub.ident b.ident defaultDep) fun _ =>
                  M.addEdge a.ident sub.ident (fromImportInfo i true nm.asname)
            else if (s.globalsWritten b).contains nm.name then M.pure ()
            else M.bind (M.addEdge sub.ident b.ident defaultDep) fun _ =>
                  M.addEdge a.ident sub.ident (fromImportInfo i true nm.asname)
          | _ => M.bind (M.addEdge sub.ident b.ident defaultDep) fun _ =>
                  M.addEdge a.ident sub.ident (fromImportInfo i true nm.asname)
        else M.bind (M.addEdge sub.ident b.ident defaultDep) fun _ =>
                  M.addEdge a.ident sub.ident (fromImportInfo i true nm.asname))
      (M.bind (r'.findOrLoad (some a) (b.ident ++ '.' :: nm.name) false) fun sub =>
        M.bind M.get fun s =>
        if sub.isMissing then
          match b.kind with
          | .package _ init _ _ _ =>
            if init.name = c!"@@SIX_MOVES@@" then
              match sixMove nm.name with
              | some target =>
                M.bind (r'.findOrLoad (some a) target true) fun depNode =>
                M.addEdge a.ident depNode.ident defaultDep
              | none => M.bind (M.addEdge sub.ident b.ident defaultDep) fun _ =>
                  M.addEdge a.ident sub.ident (fromImportInfo i true nm.asname)
            else if (s.globalsWritten b).contains nm.name then M.pure ()
            else M.bind (M.addEdge sub.ident b.ident defaultDep) fun _ =>
                  M.addEdge a.ident sub.ident (fromImportInfo i true nm.asname)
          | _ => M.bind (M.addEdge sub.ident b.ident defaultDep) fun _ =>
                  M.addEdge a.ident sub.ident (fromImportInfo i true nm.asname)
        else M.bind (M.addEdge sub.ident b.ident defaultDep) fun _ =>
                  M.addEdge a.ident sub.ident (fromImportInfo i true nm.asname)) := by
    refine .bind (h.findOrLoad _ _ _) fun sub => .bind (.refl _) fun s => .ite ?_ (.refl _)
    split
    · refine .ite ?_ (.refl _)
      split
      · exact .bind (h.findOrLoad _ _ _) fun _ => .refl _
      · exact .refl _
    · exact .refl _
  refine .ite ?_ (.ite (.refl _) hsub)
  split
  · exact .refl _
  · exact .ite (.refl _) hsub

theorem processNames_le (a b i) : M.Le (processNames env r a b i) (processNames env r' a b i) :=
  .bind (.refl _) fun _ => .forEach fun nm => processName_le h env a b i nm

theorem processNamelist_le (a b i) :
    M.Le (processNamelist env r a b i) (processNamelist env r' a b i) := by
  unfold processNamelist
  refine .bind (.refl _) fun _ => .ite (.refl _) (.ite ?_ (.refl _))
  split
  · refine .bind (.refl _) fun _ => .bind (.refl _) fun q => ?_
    split
    · exact .refl _
    · exact .ite (processNames_le h env _ _ _) (.refl _)
  · exact processNames_le h env _ _ _

theorem importPackage_le (i n) : M.Le (importPackageBody env r i n) (importPackageBody env r' i n) := by
  unfold importPackageBody
  refine .bind (.refl _) fun f => .bind (.savedStack (.bind ?_ fun nd => .bind h.runStack fun _ =>
    .refl _)) fun nd => .bind (.refl _) fun _ => .ite (.refl _) (.bind (.refl _) fun sp => ?_)
  · split
    · exact .refl _
    · exact h.findOrLoad _ _ _
  · split
    · exact .refl _
    · refine .bind (.forEach fun path => .bind (.refl _) fun stems => .bind (.forEach fun stem =>
        .ite (.refl _) (.bind (h.findOrLoad _ _ _) fun _ => .refl _)) fun _ => .refl _) fun _ =>
        .refl _

theorem runItem_le (it) : M.Le (runItem env r it) (runItem env r' it) := by
  cases it with
  | pp n => exact h.callPost _ _
  | imp n i => exact processImport_le h n i
  | nl a b i => exact processNamelist_le h env a b i
  | pkg n name => exact .bind (h.importPackage _ _) fun _ => .refl _

theorem runStack_le : M.Le (runStackBody env r) (runStackBody env r') := by
  unfold runStackBody
  refine .bind (.refl _) fun it => ?_
  split
  · exact .refl _
  · exact .bind (runItem_le h env _) fun _ => h.runStack

theorem addModule_le (n) : M.Le (addModule r n) (addModule r' n) := by
  unfold addModule
  refine .bind (.refl _) fun f => .bind ?_ fun _ => .bind (.refl _) fun _ =>
    .bind h.runStack fun _ => .refl _
  split
  · exact .refl _
  · exact h.findOrLoad _ _ _

theorem addDistribution_le (d) : M.Le (addDistribution r d) (addDistribution r' d) := by
  unfold addDistribution
  refine .bind (.refl _) fun f => ?_
  split
  · exact .refl _
  · exact .bind (.refl _) fun _ => .bind (.refl _) fun _ => .bind (.forEach fun _ =>
      .bind (h.findOrLoad _ _ _) fun _ => .refl _) fun _ => .bind h.runStack fun _ => .refl _

theorem apiBody_le (o) : M.Le (apiBody env r o) (apiBody env r' o) := by
  cases o with
  | addScript p =>
    refine .bind ?_ fun _ => .refl _
    unfold addScript
    refine .bind (.refl _) fun f => ?_
    split
    · exact .refl _
    · exact .bind (.refl _) fun _ => .bind (.refl _) fun _ => .bind (.refl _) fun _ =>
        .bind (.refl _) fun _ => .bind h.runStack fun _ => .refl _
  | addModule n => exact .bind (addModule_le h n) fun _ => .refl _
  | addDependenciesForSource p =>
    refine .bind ?_ fun _ => .refl _
    unfold addDependenciesForSource
    exact .bind (.refl _) fun _ => .forEach fun _ => .bind (addModule_le h _) fun _ =>
      .forEach fun _ => .bind (addModule_le h _) fun _ => .refl _
  | addDistribution d => exact .bind (addDistribution_le h d) fun _ => .refl _
  | addDistributionNamed n =>
    refine .bind ?_ fun _ => .refl _
    unfold addDistributionNamed
    refine .bind (.refl _) fun d => ?_
    split
    · exact .refl _
    · exact addDistribution_le h _
  | importModule i n =>
    refine .bind ?_ fun _ => .refl _
    unfold importModule
    refine .bind (.refl _) fun f => .bind ?_ fun _ => .refl _
    split
    · exact .refl _
    · exact h.findOrLoad _ _ _
  | importPackage i n => exact .bind (h.importPackage _ _) fun _ => .refl _
  | runStack => exact .bind h.runStack fun _ => .refl _
  | _ => exact .refl _

theorem op_le (o) : M.Le (opBody env r o) (opBody env r' o) := by
  intro s
  rcases apiBody_le h env o s with hh | hh
  · left
    unfold opBody
    cases hm : apiBody env r o s with
    | mk q s' =>
      rw [hm] at hh
      simp only at hh
      subst hh
      rfl
  · right; unfold opBody; rw [hh]

theorem callsStep_le : Calls.Le (callsStep env r) (callsStep env r') :=
  ⟨findOrLoad_le h, implied_le h, loadModule_le h env, createMissing_le h, importPackage_le h env,
    runStack_le h env, callPost_le h env, callMissing_le h env, op_le h env⟩

end

theorem callsZero_le (r : Calls W) : Calls.Le (callsZero W) r :=
  ⟨fun _ _ _ => .fuel _, fun _ _ => .fuel _, fun _ _ => .fuel _, fun _ _ => .fuel _,
    fun _ _ => .fuel _, .fuel _, fun _ _ => .fuel _, fun _ _ _ => .fuel _, fun _ => .fuel _⟩

theorem calls_le_succ (env : Env W) (n : Nat) : Calls.Le (calls env n) (calls env (n + 1)) := by
  induction n with
  | zero => exact callsZero_le _
  | succ n ih => exact callsStep_le ih env

theorem Calls.Le.refl (r : Calls W) : Calls.Le r r :=
  ⟨fun _ _ _ => .refl _, fun _ _ => .refl _, fun _ _ => .refl _, fun _ _ => .refl _,
    fun _ _ => .refl _, .refl _, fun _ _ => .refl _, fun _ _ _ => .refl _, fun _ => .refl _⟩

theorem Calls.Le.trans {a b c : Calls W} (h : Calls.Le a b) (h' : Calls.Le b c) : Calls.Le a c :=
  ⟨fun _ _ _ => (h.findOrLoad _ _ _).trans (h'.findOrLoad _ _ _),
    fun _ _ => (h.implied _ _).trans (h'.implied _ _),
    fun _ _ => (h.loadModule _ _).trans (h'.loadModule _ _),
    fun _ _ => (h.createMissing _ _).trans (h'.createMissing _ _),
    fun _ _ => (h.importPackage _ _).trans (h'.importPackage _ _),
    h.runStack.trans h'.runStack, fun _ _ => (h.callPost _ _).trans (h'.callPost _ _),
    fun _ _ _ => (h.callMissing _ _ _).trans (h'.callMissing _ _ _),
    fun _ => (h.op _).trans (h'.op _)⟩

/-- Depth is only a bound: what a call does within depth `n` it does with any larger depth. -/
theorem calls_le (env : Env W) {n m : Nat} (h : n ≤ m) : Calls.Le (calls env n) (calls env m) := by
  induction h with
  | refl => exact .refl _
  | step _ ih => exact ih.trans (calls_le_succ env _)

end Verif
