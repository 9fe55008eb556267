import Verif.Proofs.Exec
/-!
# Runs in two worlds

`env'` (with worlds `V`) and `env` (with worlds `W`) do the same as long as the world of the former is
`good`; once it is not, it stays so.  Then a run with `env'` that ends in a good world is a run with `env`.
-/
namespace Verif
open M
variable {V W : Type} {α β : Type}

/-- The same state, in another world. -/
def St.via (f : V → W) (s : St V) : St W :=
  { nodes := s.nodes, edges := s.edges, roots := s.roots, gw := s.gw, lazy := s.lazy, seen := s.seen, stack := s.stack,
    postHooks := s.postHooks, missHooks := s.missHooks, world := f s.world, hidden := s.hidden, log := s.log }

section
variable (f : V → W) (good : V → Prop)

/-- Operations of the outside worlds that do the same. -/
def ESim (x' : Ext V α) (x : Ext W α) : Prop :=
  ∀ v, good (x' v).2 → good v ∧ x (f v) = ((x' v).1, f (x' v).2)

/-- Methods that do the same. -/
def MSim (m' : M V α) (m : M W α) : Prop :=
  ∀ s, good (m' s).2.world → good s.world ∧ m (s.via f) = ((m' s).1, (m' s).2.via f)

/-- Outside worlds that do the same, without hooks of the user. -/
structure EnvSim (env' : Env V) (env : Env W) : Prop where
  findSpec : ∀ n, ESim f good (env'.findSpec n) (env.findSpec n)
  findSpecRel : ∀ n p, ESim f good (env'.findSpecRel n p) (env.findSpecRel n p)
  inSysModules : ∀ n v, good v → env'.inSysModules n v = env.inSysModules n (f v)
  popModule : ∀ n, ESim f good (env'.popModule n) (env.popModule n)
  setModule : ∀ n k v, good (env'.setModule n k v) → good v ∧ f (env'.setModule n k v) = env.setModule n k (f v)
  setFake : ∀ n p v, good (env'.setFake n p v) → good v ∧ f (env'.setFake n p v) = env.setFake n p (f v)
  delModule : ∀ n, ESim f good (env'.delModule n) (env.delModule n)
  isInspectLoader : ∀ l v, env'.isInspectLoader l v = env.isInspectLoader l (f v)
  isPackage : ∀ sp, ESim f good (env'.isPackage sp) (env.isPackage sp)
  nodeForSpec : ∀ sp, ESim f good (env'.nodeForSpec sp) (env.nodeForSpec sp)
  loadScript : ∀ p, ESim f good (env'.loadScript p) (env.loadScript p)
  parseSource : ∀ p, ESim f good (env'.parseSource p) (env.parseSource p)
  distributionNamed : ∀ p, ESim f good (env'.distributionNamed p) (env.distributionNamed p)
  globPy : ∀ p, ESim f good (env'.globPy p) (env.globPy p)
  subdirs : ∀ p, ESim f good (env'.subdirs p) (env.subdirs p)
  isIdentifier : env'.isIdentifier = env.isIdentifier
  outOrder : ∀ v l, env'.outOrder v l = env.outOrder (f v) l
  isFile : ∀ p, ESim f good (env'.isFile p) (env.isFile p)
  readBytes : ∀ p, ESim f good (env'.readBytes p) (env.readBytes p)
  compileAst : ∀ p, ESim f good (env'.compileAst p) (env.compileAst p)
  userPost : ∀ k n, ∃ v r, ¬ good v ∧ env'.userPost k n = .setWorld v (.ret r)
  userMissing : ∀ k i n, ∃ v r, ¬ good v ∧ env'.userMissing k i n = .setWorld v (.ret r)

/-- Methods that call each other. -/
structure CallsSim (r' : Calls V) (r : Calls W) : Prop where
  findOrLoad : ∀ i n b, MSim f good (r'.findOrLoad i n b) (r.findOrLoad i n b)
  implied : ∀ i n, MSim f good (r'.implied i n) (r.implied i n)
  loadModule : ∀ i n, MSim f good (r'.loadModule i n) (r.loadModule i n)
  createMissing : ∀ i n, MSim f good (r'.createMissing i n) (r.createMissing i n)
  importPackage : ∀ i n, MSim f good (r'.importPackage i n) (r.importPackage i n)
  runStack : MSim f good r'.runStack r.runStack
  callPost : ∀ k n, MSim f good (r'.callPost k n) (r.callPost k n)
  callMissing : ∀ k i n, MSim f good (r'.callMissing k i n) (r.callMissing k i n)
  op : ∀ o, MSim f good (r'.op o) (r.op o)

end

section
variable {f : V → W} {good : V → Prop}

namespace MSim

theorem pure (a : α) : MSim f good (M.pure a) (M.pure a) := fun _ h => ⟨h, rfl⟩
theorem throw (e : Exc) : MSim f good (M.throw e : M V α) (M.throw e) := fun _ h => ⟨h, rfl⟩
theorem ofExcept (e : Except Exc α) : MSim f good (M.ofExcept e) (M.ofExcept e) := fun _ h => ⟨h, rfl⟩

theorem assert (b : Bool) : MSim f good (M.assert b) (M.assert b) := by
  unfold M.assert
  split
  · exact pure _
  · exact throw _

theorem bind {m' : M V α} {m : M W α} {g' : α → M V β} {g : α → M W β} (h : MSim f good m' m)
    (hg : ∀ a, MSim f good (g' a) (g a)) : MSim f good (M.bind m' g') (M.bind m g) := by
  intro s hs
  unfold M.bind at hs ⊢
  cases hm : m' s with
  | mk r s1 =>
    rw [hm] at hs
    cases r with
    | ok a =>
      obtain ⟨h1, h2⟩ := hg a s1 hs
      obtain ⟨h3, h4⟩ := h s (by rw [hm]; exact h1)
      rw [h4, hm]
      exact ⟨h3, h2⟩
    | error e =>
      obtain ⟨h3, h4⟩ := h s (by rw [hm]; exact hs)
      rw [h4, hm]
      exact ⟨h3, rfl⟩

theorem bindGet {g' : St V → M V β} {g : St W → M W β} (hg : ∀ s, MSim f good (g' s) (g (s.via f))) :
    MSim f good (M.bind M.get g') (M.bind M.get g) := fun s hs => hg s s hs

theorem attempt {m' : M V α} {m : M W α} (h : MSim f good m' m) : MSim f good (M.attempt m') (M.attempt m) := by
  intro s hs
  have hw : (M.attempt m' s).2 = (m' s).2 := by
    unfold M.attempt
    split <;> simp_all
  rw [hw] at hs
  obtain ⟨h1, h2⟩ := h s hs
  refine ⟨h1, ?_⟩
  unfold M.attempt
  rw [h2]
  cases hm : m' s with
  | mk r s1 =>
    cases r with
    | ok a => rfl
    | error e => cases e <;> rfl

theorem modify {g' : St V → St V} {g : St W → St W}
    (h : ∀ s, good (g' s).world → good s.world ∧ g (s.via f) = (g' s).via f) :
    MSim f good (M.modify g') (M.modify g) := by
  intro s hs
  obtain ⟨h1, h2⟩ := h s hs
  exact ⟨h1, by unfold M.modify; rw [h2]⟩

theorem ext {x' : Ext V α} {x : Ext W α} (h : ESim f good x' x) : MSim f good (M.ext x') (M.ext x) := by
  intro s hs
  obtain ⟨h1, h2⟩ := h s.world hs
  refine ⟨h1, ?_⟩
  unfold M.ext
  rw [show (s.via f).world = f s.world from rfl, h2]
  rfl

theorem forEach {l : List α} {g' : α → M V Unit} {g : α → M W Unit} (h : ∀ a, MSim f good (g' a) (g a)) :
    MSim f good (M.forEach l g') (M.forEach l g) := by
  induction l with
  | nil => exact pure _
  | cons x l ih => exact bind (h x) fun _ => ih

theorem savedStack {m' : M V α} {m : M W α} (h : MSim f good m' m) :
    MSim f good (M.savedStack m') (M.savedStack m) := by
  intro s hs
  obtain ⟨h1, h2⟩ := h { s with stack := [], hidden := s.hidden ++ s.stack } hs
  refine ⟨h1, ?_⟩
  unfold M.savedStack
  simp only []
  rw [show ({ (s.via f) with stack := [], hidden := (s.via f).hidden ++ (s.via f).stack } : St W) =
    ({ s with stack := [], hidden := s.hidden ++ s.stack } : St V).via f from rfl, h2]
  rfl

theorem ite {c : Prop} [Decidable c] {a' b' : M V α} {a b : M W α} (h : MSim f good a' a) (h' : MSim f good b' b) :
    MSim f good (if c then a' else b') (if c then a else b) := by split <;> assumption

/-- A condition that is the same in good worlds. -/
theorem iteGet {c' : St V → Bool} {c : St W → Bool} {a' b' : M V α} {a b : M W α}
    (hc : ∀ s : St V, good s.world → c' s = c (s.via f)) (h : MSim f good a' a) (h' : MSim f good b' b) :
    MSim f good (M.bind M.get fun s => if c' s then a' else b') (M.bind M.get fun s => if c s then a else b) := by
  intro s hs
  have hs : good ((if c' s then a' else b') s).2.world := hs
  have hb : M.bind M.get (fun s => if c' s then a' else b') s = (if c' s then a' else b') s := rfl
  have hb' : M.bind M.get (fun s => if c s then a else b) (s.via f) = (if c (s.via f) then a else b) (s.via f) := rfl
  rw [hb, hb']
  cases h1 : c' s with
  | true =>
    rw [h1, if_pos rfl] at hs
    obtain ⟨h2, h3⟩ := h s hs
    rw [← hc s h2, h1, if_pos rfl, if_pos rfl]
    exact ⟨h2, h3⟩
  | false =>
    rw [h1, if_neg (by simp)] at hs
    obtain ⟨h2, h3⟩ := h' s hs
    rw [← hc s h2, h1, if_neg (by simp), if_neg (by simp)]
    exact ⟨h2, h3⟩

theorem has_via (s : St V) (x) : (s.via f).has x = s.has x := rfl
theorem find_via (s : St V) (x) : (s.via f).find x = s.find x := rfl

theorem addNode (n : Node) : MSim f good (M.addNode n) (M.addNode n) := by
  intro s hs
  unfold M.addNode at hs ⊢
  rw [has_via]
  cases h : s.has n.ident with
  | true => rw [h] at hs; exact ⟨hs, rfl⟩
  | false => rw [h] at hs; exact ⟨hs, rfl⟩

theorem addEdge (a b d) : MSim f good (M.addEdge a b d) (M.addEdge a b d) := by
  intro s hs
  have hw : (s.addEdge a b d).world = s.world := by unfold St.addEdge; split <;> rfl
  have hv : (s.via f).addEdge a b d = (s.addEdge a b d).via f := by
    unfold St.addEdge
    rw [show (s.via f).edges = s.edges from rfl]
    split <;> rfl
  unfold M.addEdge at hs ⊢
  rw [has_via, has_via, hv]
  cases h : (s.has a && s.has b) with
  | true => rw [h, if_pos rfl] at hs; rw [if_pos rfl, if_pos rfl]; rw [hw] at hs; exact ⟨hs, rfl⟩
  | false => rw [h, if_neg (by simp)] at hs; rw [if_neg (by simp), if_neg (by simp)]; exact ⟨hs, rfl⟩

theorem addRoot (a) : MSim f good (M.addRoot a) (M.addRoot a) := by
  intro s hs
  have hw : (s.addRoot a).world = s.world := by unfold St.addRoot; split <;> rfl
  have hv : (s.via f).addRoot a = (s.addRoot a).via f := by
    unfold St.addRoot
    rw [show (s.via f).roots = s.roots from rfl]
    split <;> rfl
  unfold M.addRoot at hs ⊢
  rw [has_via, hv]
  cases h : s.has a with
  | true => rw [h, if_pos rfl] at hs; rw [if_pos rfl, if_pos rfl]; rw [hw] at hs; exact ⟨hs, rfl⟩
  | false => rw [h, if_neg (by simp)] at hs; rw [if_neg (by simp), if_neg (by simp)]; exact ⟨hs, rfl⟩

theorem schedule (n infos) : MSim f good (M.schedule n infos) (M.schedule n infos) := by
  refine modify fun s hs => ?_
  have hw : (s.schedule n infos).world = s.world := by unfold St.schedule; simp only []; split <;> rfl
  rw [hw] at hs
  refine ⟨hs, ?_⟩
  unfold St.schedule
  simp only []
  rw [show (s.via f).seen = s.seen from rfl]
  split <;> rfl

theorem findNode (x) : MSim f good (M.findNode x) (M.findNode x) := fun _ hs => ⟨hs, rfl⟩

theorem findModule (x) : MSim f good (M.findModule x) (M.findModule x) := by
  intro s hs
  have hw : (M.findModule x s).2 = s := by
    unfold M.findModule
    split
    · split <;> rfl
    · rfl
  rw [hw] at hs
  refine ⟨hs, ?_⟩
  unfold M.findModule
  rw [find_via]
  split
  · split <;> rfl
  · rfl

theorem popItem : MSim f good popItem popItem := by
  intro s hs
  unfold Verif.popItem at hs ⊢
  rw [show (s.via f).stack = s.stack from rfl]
  cases h : s.stack.getLast? with
  | none => rw [h] at hs; exact ⟨hs, rfl⟩
  | some it => rw [h] at hs; exact ⟨hs, rfl⟩

/-- Code that leaves the good worlds. -/
theorem dead {v : V} (hv : ¬ good v) (r' : Calls V) (x : Option Node) (m : M W (Option Node)) :
    MSim f good (interp r' (.setWorld v (.ret x))) m := fun _ hs => absurd hs hv

end MSim

theorem ESim.resolve {env' : Env V} {env : Env W} (h : EnvSim f good env' env) (n : Str) :
    ESim f good (resolveSpec env' n) (resolveSpec env n) := by
  intro v hv
  have hfs := h.findSpec n v
  unfold resolveSpec at hv ⊢
  rcases hf : env'.findSpec n v with ⟨r, v1⟩
  rw [hf] at hv hfs
  simp only [] at hv hfs
  cases r with
  | ok r => obtain ⟨h1, h2⟩ := hfs hv; rw [h2]; exact ⟨h1, rfl⟩
  | error e =>
    cases e with
    | valueError b =>
      cases b with
      | false => obtain ⟨h1, h2⟩ := hfs hv; rw [h2]; exact ⟨h1, rfl⟩
      | true =>
        simp only [Bool.not_true, Bool.false_eq_true, if_false] at hv ⊢
        have hpm := h.popModule n v1
        rcases hp : env'.popModule n v1 with ⟨r2, v2⟩
        rw [hp] at hv hpm
        simp only [] at hv hpm
        cases r2 with
        | error e =>
          obtain ⟨h1, h2⟩ := hpm hv
          obtain ⟨h3, h4⟩ := hfs h1
          rw [h4]
          simp only []
          rw [h2]
          exact ⟨h3, rfl⟩
        | ok orig =>
          have hfs2 := h.findSpec n v2
          rcases hf2 : env'.findSpec n v2 with ⟨r3, v3⟩
          rw [hf2] at hfs2
          simp only [hf2] at hv hfs2 ⊢
          by_cases hin : env'.inSysModules n v3 = true
          · rw [if_pos hin] at hv ⊢
            obtain ⟨h5, h6⟩ := hfs2 hv
            obtain ⟨h1, h2⟩ := hpm h5
            obtain ⟨h3, h4⟩ := hfs h1
            rw [h4]
            simp only [Bool.not_true, Bool.false_eq_true, if_false]
            rw [h2]
            simp only [h6]
            rw [← h.inSysModules n v3 hv, if_pos hin]
            exact ⟨h3, rfl⟩
          · rw [if_neg hin] at hv ⊢
            obtain ⟨h7, h8⟩ := h.setModule n orig v3 hv
            obtain ⟨h5, h6⟩ := hfs2 h7
            obtain ⟨h1, h2⟩ := hpm h5
            obtain ⟨h3, h4⟩ := hfs h1
            rw [h4]
            simp only [Bool.not_true, Bool.false_eq_true, if_false]
            rw [h2]
            simp only [h6]
            rw [← h.inSysModules n v3 h7, if_neg hin]
            exact ⟨h3, by rw [h8]⟩
    | attributeError b =>
      cases b <;> (obtain ⟨h1, h2⟩ := hfs hv; rw [h2]; exact ⟨h1, rfl⟩)
    | _ => obtain ⟨h1, h2⟩ := hfs hv; rw [h2]; exact ⟨h1, rfl⟩

section
variable {env' : Env V} {env : Env W} (hE : EnvSim f good env' env) {r' : Calls V} {r : Calls W}
  (hC : CallsSim f good r' r)

/-- One step. -/
local macro "sim" : tactic => `(tactic| repeat' first
  | exact MSim.pure _ | exact MSim.throw _ | exact MSim.ofExcept _ | exact MSim.assert _
  | exact MSim.addNode _ | exact MSim.addEdge _ _ _ | exact MSim.addRoot _ | exact MSim.schedule _ _
  | exact MSim.findNode _ | exact MSim.findModule _
  | with_reducible exact (hC).findOrLoad _ _ _ | with_reducible exact (hC).implied _ _
  | with_reducible exact (hC).loadModule _ _ | with_reducible exact (hC).createMissing _ _
  | with_reducible exact (hC).importPackage _ _ | with_reducible exact (hC).runStack
  | with_reducible exact (hC).callPost _ _ | with_reducible exact (hC).callMissing _ _ _
  | with_reducible exact (hC).op _
  | with_reducible refine MSim.forEach fun _ => ?_ | with_reducible refine MSim.attempt ?_
  | with_reducible refine MSim.savedStack ?_
  | with_reducible refine MSim.bindGet fun _ => ?_
  | with_reducible refine MSim.bind ?_ (fun _ => ?_)
  | with_reducible refine MSim.modify fun _ h => ⟨h, rfl⟩
  | with_reducible refine MSim.ext ?_
  | with_reducible refine MSim.ite ?_ ?_)

include hE in
theorem swigHook_sim (i n) : MSim f good (swigHook env' i n) (swigHook env i n) := by
  unfold swigHook
  split
  · exact .pure _
  · refine .ite (.pure _) (.ite (.pure _) (.bindGet fun s => ?_))
    change MSim f good (if (!(s.globalsWritten _).contains c!"swig_import_helper") = true then _ else _)
      (if (!(s.globalsWritten _).contains c!"swig_import_helper") = true then _ else _)
    refine .ite (.pure _) ?_
    simp only []
    refine .bind (.attempt (.ext (hE.findSpecRel _ _))) fun q => .bind ?_ fun sp => ?_
    · split
      · exact .pure _
      · refine .ite (.bind (.ext (hE.findSpec _)) fun sp => ?_) (.throw _)
        split
        · exact .throw _
        · split
          · exact .throw _
          · refine .bind (.modify fun s hs => ?_) fun _ => .bind (.ext (hE.findSpecRel _ _)) fun _ =>
              .bind (.ext (hE.delModule _)) fun _ => .pure _
            obtain ⟨h1, h2⟩ := hE.setFake _ _ _ hs
            refine ⟨h1, ?_⟩
            unfold St.via
            simp only [h2]
    · split
      · exact .pure _
      · exact .bind (.ext (hE.nodeForSpec _)) fun p => .ite (.pure _) (.bind (.assert _) fun _ =>
          .bind (.addNode _) fun _ => .pure _)

include hE hC

theorem mypycHook_sim (n) : MSim f good (mypycHook env' r' n) (mypycHook env r n) := by
  unfold mypycHook
  split
  · exact .pure _
  · split
    · exact .pure _
    · split
      · exact .pure _
      · simp only []
        split
        · exact .pure _
        · refine .bind (.ext (hE.isFile _)) fun b => .ite (.pure _) (.bind (hC.op _) fun x => ?_)
          split
          · exact .throw _
          · refine .bind (.addEdge _ _ _) fun _ => .bind (.ext (hE.readBytes _)) fun _ =>
              .bind (.attempt (.ext (hE.compileAst _))) fun q => ?_
            split
            · exact .pure _
            · exact .throw _
            · exact .ite (.pure _) (.bind (.schedule _ _) fun _ => hC.runStack)

theorem callPost_sim (k n) : MSim f good (callPostBody env' r' k n) (callPostBody env r k n) := by
  unfold callPostBody
  refine .bindGet fun s => ?_
  rw [show (s.via f).postHooks = s.postHooks from rfl]
  split
  · exact .pure _
  · refine .bind (.modify fun _ h => ⟨h, rfl⟩) fun _ => .bind ?_ fun _ => hC.callPost _ _
    split
    · exact mypycHook_sim hE hC n
    · obtain ⟨v, x, h1, h2⟩ := hE.userPost ‹Nat› n
      rw [h2]
      exact fun s hs => absurd hs h1

theorem callMissing_sim (k i n) : MSim f good (callMissingBody env' r' k i n) (callMissingBody env r k i n) := by
  unfold callMissingBody
  refine .bindGet fun s => ?_
  rw [show (s.via f).missHooks = s.missHooks from rfl]
  split
  · exact .pure _
  · refine .bind (.modify fun _ h => ⟨h, rfl⟩) fun _ => .bind ?_ fun q => ?_
    · split
      · exact swigHook_sim hE i n
      · obtain ⟨v, x, h1, h2⟩ := hE.userMissing ‹Nat› i n
        rw [h2]
        exact fun s hs => absurd hs h1
    · split
      · exact .pure _
      · exact hC.callMissing _ _ _

omit hE in
theorem createMissing_sim (i n) : MSim f good (createMissingBody r' i n) (createMissingBody r i n) := by
  unfold createMissingBody
  refine .bind (hC.callMissing _ _ _) fun a => ?_
  split
  · exact .pure _
  · exact .bind (.addNode _) fun _ => .bind (.schedule _ _) fun _ => .pure _

omit hE in
theorem implied_sim (i n) : MSim f good (impliedBody r' i n) (impliedBody r i n) := by
  unfold impliedBody
  refine .bind (.findNode _) fun a => ?_
  split
  · exact .pure _
  · refine .bindGet fun s => ?_
    rw [show (s.via f).lazy = s.lazy from rfl]
    split
    · exact .pure _
    · refine .bind (.modify fun _ h => ⟨h, rfl⟩) fun _ => ?_
      split <;> sim

theorem loadFallback_sim (i n e) : MSim f good (loadFallback env' r' i n e) (loadFallback env r i n e) := by
  unfold loadFallback
  simp only []
  refine .ite (.iteGet (fun s hs => hE.inSysModules _ _ hs) (.throw _) (.bind (.ext (hE.findSpec _)) fun sp => ?_))
    (hC.createMissing _ _)
  split
  · exact .throw _
  · refine .bindGet fun s => ?_
    rw [hE.isInspectLoader]
    refine .ite (.throw _) (.bind (.ext (hE.isPackage _)) fun b => .ite ?_ (hC.createMissing _ _))
    split
    · exact .throw _
    · refine .ite (.throw _) (.bind (.modify fun s hs => ?_) fun _ => hC.loadModule _ _)
      obtain ⟨h1, h2⟩ := hE.setFake _ _ _ hs
      refine ⟨h1, ?_⟩
      unfold St.via
      simp only [h2]

theorem addLoaded_sim (n sp) : MSim f good (addLoaded env' r' n sp) (addLoaded env r n sp) := by
  unfold addLoaded
  refine .bind (.ext (hE.nodeForSpec _)) fun p => ?_
  simp only []
  refine .ite (.bind (.addNode _) fun _ => .bind (.schedule _ _) fun _ => .bind (.findNode _) fun q => .bind ?_ fun _ =>
    .bind (.addEdge _ _ _) fun _ => .pure _) (.bind (.addNode _) fun _ => .bind ?_ fun _ =>
    .bind (.schedule _ _) fun _ => .pure _)
  · split
    · exact .pure _
    · refine .bind (.addNode _) fun _ => .bind (.schedule _ _) fun _ => .bind (.ofExcept _) fun q => ?_
      split
      · exact .pure _
      · sim
  · split
    · sim
    · exact .pure _

theorem loadModule_sim (i n) : MSim f good (loadModuleBody env' r' i n) (loadModuleBody env r i n) := by
  unfold loadModuleBody
  refine .ite (.throw _) (.bind (.findNode _) fun a => ?_)
  split
  · exact .pure _
  · refine .bind (.attempt (.bind (.ext (ESim.resolve hE _)) fun sp => ?_)) fun q => ?_
    · split <;> sim
    · split
      · exact .pure _
      · exact addLoaded_sim hE hC _ _
      · exact .ite (loadFallback_sim hE hC _ _ _) (.throw _)

omit hE in
theorem findOrLoad_sim (i n b) : MSim f good (findOrLoadBody r' i n b) (findOrLoadBody r i n b) := by
  unfold findOrLoadBody
  refine .bind (.findModule _) fun a => ?_
  split
  · exact .pure _
  · refine .bind (.ofExcept _) fun sp => .bind ?_ fun pn => .bind ?_ fun nd => ?_
    · split <;> sim
    · split
      · exact .pure _
      · refine .bind (hC.implied _ _) fun x => ?_
        split
        · exact .pure _
        · exact hC.loadModule _ _
    · split <;> sim

omit hE in
theorem processImport_sim (n i) : MSim f good (processImport r' n i) (processImport r n i) := by
  unfold processImport
  refine .bind (.ofExcept _) fun a => ?_
  split
  · refine .bind (.findModule _) fun q => .bind ?_ fun _ => ?_
    · split <;> sim
    · exact .bind (.addEdge _ _ _) fun _ => .modify fun _ h => ⟨h, rfl⟩
  · refine .bindGet fun s => ?_
    exact .bind (hC.findOrLoad _ _ _) fun _ => .bind (.addEdge _ _ _) fun _ => .modify fun _ h => ⟨h, rfl⟩

omit hC in
theorem reexported_via (s : St V) (b nm) : reexported env (s.via f) b nm = reexported env' s b nm := by
  unfold reexported
  rw [hE.outOrder]
  rfl

theorem processName_sim (a b i nm) : MSim f good (processName env' r' a b i nm) (processName env r a b i nm) := by
  unfold processName
  refine .bindGet fun s => ?_
  simp only []
  rw [reexported_via hE]
  rw [show (s.via f).globalsWritten b = s.globalsWritten b from rfl]
  have hl : ∀ sub : Node, MSim f good
      (M.bind (M.addEdge sub.ident b.ident defaultDep) fun _ => M.addEdge a.ident sub.ident (fromImportInfo i true nm.asname))
      (M.bind (M.addEdge sub.ident b.ident defaultDep) fun _ => M.addEdge a.ident sub.ident (fromImportInfo i true nm.asname)) :=
    fun sub => by sim
  have hsub : ∀ {x' : Node → St V → M V Unit} {x : Node → St W → M W Unit},
      (∀ sub s, MSim f good (x' sub s) (x sub (s.via f))) →
      MSim f good (M.bind (r'.findOrLoad (some a) (b.ident ++ '.' :: nm.name) false) fun sub => M.bind M.get fun s => x' sub s)
        (M.bind (r.findOrLoad (some a) (b.ident ++ '.' :: nm.name) false) fun sub => M.bind M.get fun s => x sub s) :=
    fun h => .bind (hC.findOrLoad _ _ _) fun sub => .bindGet fun s => h sub s
  have hin : ∀ (sub : Node) (s : St V), MSim f good
      (if sub.isMissing then
          match b.kind with
          | .package _ init _ _ _ =>
            if init.name = c!"@@SIX_MOVES@@" then
              match sixMove nm.name with
              | some target =>
                M.bind (r'.findOrLoad (some a) target true) fun depNode =>
                M.addEdge a.ident depNode.ident defaultDep
              | none => M.bind (M.addEdge sub.ident b.ident defaultDep) fun _ =>
                  M.addEdge a.ident sub.ident (fromImportInfo i true nm.asname)
            else if (s.globalsWritten b).contains nm.name then M.pure ()
            else M.bind (M.addEdge sub.ident b.ident defaultDep) fun _ =>
                  M.addEdge a.ident sub.ident (fromImportInfo i true nm.asname)
          | _ => M.bind (M.addEdge sub.ident b.ident defaultDep) fun _ =>
                  M.addEdge a.ident sub.ident (fromImportInfo i true nm.asname)
        else M.bind (M.addEdge sub.ident b.ident defaultDep) fun _ =>
                  M.addEdge a.ident sub.ident (fromImportInfo i true nm.asname))
      (if sub.isMissing then
          match b.kind with
          | .package _ init _ _ _ =>
            if init.name = c!"@@SIX_MOVES@@" then
              match sixMove nm.name with
              | some target =>
                M.bind (r.findOrLoad (some a) target true) fun depNode =>
                M.addEdge a.ident depNode.ident defaultDep
              | none => M.bind (M.addEdge sub.ident b.ident defaultDep) fun _ =>
                  M.addEdge a.ident sub.ident (fromImportInfo i true nm.asname)
            else if (s.globalsWritten b).contains nm.name then M.pure ()
            else M.bind (M.addEdge sub.ident b.ident defaultDep) fun _ =>
                  M.addEdge a.ident sub.ident (fromImportInfo i true nm.asname)
          | _ => M.bind (M.addEdge sub.ident b.ident defaultDep) fun _ =>
                  M.addEdge a.ident sub.ident (fromImportInfo i true nm.asname)
        else M.bind (M.addEdge sub.ident b.ident defaultDep) fun _ =>
                  M.addEdge a.ident sub.ident (fromImportInfo i true nm.asname)) := by
    intro sub s
    refine .ite ?_ (hl sub)
    split
    · refine .ite ?_ (.ite (.pure _) (hl sub))
      split
      · sim
      · exact hl sub
    · exact hl sub
  refine .ite ?_ (.ite (.pure _) (hsub hin))
  split
  · exact .addEdge _ _ _
  · exact .ite (.pure _) (hsub hin)

theorem processNames_sim (a b i) : MSim f good (processNames env' r' a b i) (processNames env r a b i) :=
  .bind (.modify fun _ h => ⟨h, rfl⟩) fun _ => .forEach fun nm => processName_sim hE hC a b i nm

theorem processNamelist_sim (a b i) : MSim f good (processNamelist env' r' a b i) (processNamelist env r a b i) := by
  unfold processNamelist
  refine .bind (.assert _) fun _ => .ite (.ite (.modify fun _ h => ⟨h, rfl⟩) (.pure _)) (.ite ?_ (.pure _))
  split
  · refine .bind (.modify fun _ h => ⟨h, rfl⟩) fun _ => .bind (.findModule _) fun q => ?_
    split
    · exact .throw _
    · exact .ite (processNames_sim hE hC _ _ _) (.pure _)
  · exact processNames_sim hE hC _ _ _

theorem importPackage_sim (i n) : MSim f good (importPackageBody env' r' i n) (importPackageBody env r i n) := by
  unfold importPackageBody
  rw [hE.isIdentifier]
  refine .bind (.findModule _) fun q => .bind (.savedStack (.bind ?_ fun nd => .bind hC.runStack fun _ =>
    .pure _)) fun nd => .bind (.addEdge _ _ _) fun _ => .ite (.pure _) (.bind (.ext (hE.findSpec _)) fun sp => ?_)
  · split
    · exact .pure _
    · exact hC.findOrLoad _ _ _
  · split
    · exact .throw _
    · refine .bind (.forEach fun path => .bind (.ext (hE.globPy _)) fun stems => .bind (.forEach fun stem =>
        .ite (.pure _) (.bind (hC.findOrLoad _ _ _) fun _ => .bind (.addEdge _ _ _) fun _ =>
          .modify fun _ h => ⟨h, rfl⟩)) fun _ => .bind (.ext (hE.subdirs _)) fun _ => .forEach fun _ =>
          .ite (.pure _) (.modify fun _ h => ⟨h, rfl⟩)) fun _ => .pure _

theorem runItem_sim (it) : MSim f good (runItem env' r' it) (runItem env r it) := by
  cases it with
  | pp n => exact hC.callPost _ _
  | imp n i => exact processImport_sim hC n i
  | nl a b i => exact processNamelist_sim hE hC a b i
  | pkg n name => exact .bind (hC.importPackage _ _) fun _ => .pure _

theorem runStack_sim : MSim f good (runStackBody env' r') (runStackBody env r) := by
  unfold runStackBody
  refine .bind .popItem fun it => ?_
  split
  · exact .pure _
  · exact .bind (runItem_sim hE hC _) fun _ => hC.runStack

omit hE in
theorem addModule_sim (n) : MSim f good (addModule r' n) (addModule r n) := by
  unfold addModule
  refine .bind (.findModule _) fun q => .bind ?_ fun _ => .bind (.addRoot _) fun _ =>
    .bind hC.runStack fun _ => .pure _
  split
  · exact .pure _
  · exact hC.findOrLoad _ _ _

omit hE in
theorem addDistribution_sim (d) : MSim f good (addDistribution r' d) (addDistribution r d) := by
  unfold addDistribution
  refine .bind (.findNode _) fun q => ?_
  split
  · exact .bind (.assert _) fun _ => .pure _
  · exact .bind (.addNode _) fun _ => .bind (.addRoot _) fun _ => .bind (.forEach fun _ =>
      .bind (hC.findOrLoad _ _ _) fun _ => .addEdge _ _ _) fun _ => .bind hC.runStack fun _ => .pure _

omit hE hC in
theorem foldl_via {δ : Type} {g' : St V → δ → St V} {g : St W → δ → St W}
    (hw : ∀ s a, (g' s a).world = s.world) (h : ∀ s a, g (s.via f) a = (g' s a).via f) (l : List δ) (s : St V) :
    (l.foldl g' s).world = s.world ∧ l.foldl g (s.via f) = (l.foldl g' s).via f := by
  induction l generalizing s with
  | nil => exact ⟨rfl, rfl⟩
  | cons a l ih =>
    rw [List.foldl_cons, List.foldl_cons, h, (ih (g' s a)).2, (ih (g' s a)).1, hw]
    exact ⟨rfl, rfl⟩

omit hE hC in
theorem addImply_via (s : St V) (p) :
    (addImply s p).world = s.world ∧ addImply (s.via f) p = (addImply s p).via f := by
  unfold addImply
  rw [show (s.via f).lazy = s.lazy from rfl]
  split <;> exact ⟨rfl, rfl⟩

theorem apiBody_sim (o) : MSim f good (apiBody env' r' o) (apiBody env r o) := by
  cases o with
  | addScript p =>
    refine .bind ?_ fun _ => .pure _
    unfold addScript
    refine .bind (.findModule _) fun q => ?_
    split
    · exact .throw _
    · exact .bind (.ext (hE.loadScript _)) fun _ => .bind (.addNode _) fun _ => .bind (.schedule _ _) fun _ =>
        .bind (.addRoot _) fun _ => .bind hC.runStack fun _ => .pure _
  | addModule n => exact .bind (addModule_sim hC n) fun _ => .pure _
  | addDependenciesForSource p =>
    refine .bind ?_ fun _ => .pure _
    unfold addDependenciesForSource
    exact .bind (.ext (hE.parseSource _)) fun _ => .forEach fun _ => .bind (addModule_sim hC _) fun _ =>
      .forEach fun _ => .bind (addModule_sim hC _) fun _ => .pure _
  | addDistribution d => exact .bind (addDistribution_sim hC d) fun _ => .pure _
  | addDistributionNamed n =>
    refine .bind ?_ fun _ => .pure _
    unfold addDistributionNamed
    refine .bind (.ext (hE.distributionNamed _)) fun d => ?_
    split
    · exact .throw _
    · exact addDistribution_sim hC _
  | importModule i n =>
    refine .bind ?_ fun _ => .pure _
    unfold importModule
    refine .bind (.findModule _) fun q => .bind ?_ fun _ => .bind (.addEdge _ _ _) fun _ => .pure _
    split
    · exact .pure _
    · exact hC.findOrLoad _ _ _
  | importPackage i n => exact .bind (hC.importPackage _ _) fun _ => .pure _
  | runStack => exact .bind hC.runStack fun _ => .pure _
  | addMissingHook h =>
    refine .bind (.modify ?_) fun _ => .pure _
    exact fun _ h => ⟨h, rfl⟩
  | addPostHook h =>
    refine .bind (.modify ?_) fun _ => .pure _
    exact fun _ h => ⟨h, rfl⟩
  | addExcludes l =>
    refine .bind (.modify fun s hs => ?_) fun _ => .pure _
    obtain ⟨h1, h2⟩ := foldl_via (f := f) (g' := addExclude) (g := addExclude) (fun _ _ => rfl) (fun _ _ => rfl) l s
    rw [h1] at hs
    exact ⟨hs, h2⟩
  | addExcludesStr _ => exact .throw _
  | addImplies l =>
    refine .bind (.modify fun s hs => ?_) fun _ => .pure _
    obtain ⟨h1, h2⟩ := foldl_via (f := f) (g' := addImply) (g := addImply) (fun s a => (addImply_via (f := f) s a).1)
      (fun s a => (addImply_via s a).2) l s
    rw [h1] at hs
    exact ⟨hs, h2⟩
  | addNode n => exact .bind (.addNode _) fun _ => .pure _
  | addEdge a b d => exact .bind (.addEdge _ _ _) fun _ => .pure _
  | addRoot id => exact .bind (.addRoot _) fun _ => .pure _
  | processImportList n infos => exact .bind (.schedule _ _) fun _ => .pure _

theorem op_sim (o) : MSim f good (opBody env' r' o) (opBody env r o) := by
  intro s hs
  have hw : (opBody env' r' o s).2.world = (apiBody env' r' o s).2.world := by
    unfold opBody
    split <;> simp_all [St.event]
  rw [hw] at hs
  obtain ⟨h1, h2⟩ := apiBody_sim hE hC o s hs
  refine ⟨h1, ?_⟩
  unfold opBody
  rw [h2]
  cases hm : apiBody env' r' o s with
  | mk q s1 =>
    cases q <;> rfl

theorem callsStep_sim : CallsSim f good (callsStep env' r') (callsStep env r) :=
  ⟨findOrLoad_sim hC, implied_sim hC, loadModule_sim hE hC, createMissing_sim hC, importPackage_sim hE hC,
    runStack_sim hE hC, callPost_sim hE hC, callMissing_sim hE hC, op_sim hE hC⟩

end

theorem calls_sim {env' : Env V} {env : Env W} (hE : EnvSim f good env' env) (n : Nat) :
    CallsSim f good (calls env' n) (calls env n) := by
  induction n with
  | zero =>
    exact ⟨fun _ _ _ => .throw _, fun _ _ => .throw _, fun _ _ => .throw _, fun _ _ => .throw _,
      fun _ _ => .throw _, .throw _, fun _ _ => .throw _, fun _ _ _ => .throw _, fun _ => .throw _⟩
  | succ n ih => exact callsStep_sim hE ih

end
end Verif
