import Verif.Spec.CommandSpec
import Verif.Props.Project
import Verif.Props.MainOutput
/-!
# C67: the command line on a project

From the arguments of the program and the syntax trees of a project to the document in the output file.
-/
namespace Verif.Props
open Verif M Spec Proj
variable {W : Type}

/-- If nothing fails, the loop of the command line does the same. -/
theorem forEach_of_doAll (env : Env W) (n : Nat) (t : NodeType) (l : List Str) (s s' : St W)
    (h : runClient env (n + 1) (doAll (l.map (addNamed t))) s = (.ok none, s')) (hf : Event.failed ∉ s'.log) :
    M.forEach l (fun name => M.bind ((calls env (n + 1)).op (addNamed t name)) fun _ => M.pure ()) s = (.ok (), s') := by
  induction l generalizing s with
  | nil =>
    cases h
    rfl
  | cons x l ih =>
    have hrun : M.bind (M.attempt ((calls env (n + 1)).op (addNamed t x)))
      (fun _ => interp (calls env (n + 1)) (doAll (l.map (addNamed t)))) s = (.ok none, s') := h
    cases hop : (calls env (n + 1)).op (addNamed t x) s with
    | mk r s1 =>
      cases r with
      | error e =>
        exfalso
        have hfail : Event.failed ∈ s1.log := by
          have hop' : opBody env (calls env n) (addNamed t x) s = (.error e, s1) := hop
          unfold opBody at hop'
          split at hop'
          · cases hop'
          · cases hop'
            simp [St.event]
        have hrest := failedClosed.client (env := env) (n + 1) (doAll (l.map (addNamed t))) s1 hfail
        unfold M.bind M.attempt at hrun
        rw [hop] at hrun
        apply hf
        cases e <;> first
          | (cases hrun; done)
          | exact (congrArg (fun s : St W => Event.failed ∈ s.log) (congrArg Prod.snd hrun)).mp hrest
      | ok r =>
        have h1 : M.attempt ((calls env (n + 1)).op (addNamed t x)) s = (.ok (.ok r), s1) := by
          unfold M.attempt; rw [hop]
        rw [M.bind_of_ok h1] at hrun
        show M.bind (M.bind _ _) _ s = _
        rw [M.bind_assoc, M.bind_of_ok hop]
        exact ih s1 hrun

theorem configured_congr {ex ex' : List Str} (h : ∀ x, x ∈ ex ↔ x ∈ ex') (l : List (Str × Implies)) :
    configured ex l = configured ex' l := by
  funext x
  unfold configured
  simp only [h x]

theorem insertPaths_keeps {J : W → Prop} (sp : SysPath W) (hJ : ∀ r l v, J v → J (sp.assign r l v)) (l : List Str)
    (w : W) (hw : J w) : J (insertPaths sp l w) := by
  unfold insertPaths
  generalize l.reverse = l
  induction l generalizing w with
  | nil => exact hw
  | cons p l ih => exact ih _ (hJ _ _ _ hw)

theorem formatGraph_returns {o : Output W} {f : Files W} (hf : OutputOk o f) {a : Args} (h : Writable o f a.outputFile) (g : Iter) (w : W) :
    (formatGraph o a g w).1 = .returned := by
  unfold formatGraph
  cases ho : a.outputFile with
  | none =>
    rw [ho] at h
    have := h (graphText a.format g) w
    revert this
    rcases hs : o.stdout (graphText a.format g) w with ⟨r, w'⟩
    rintro rfl
    rfl
  | some file =>
    rw [ho] at h
    obtain ⟨h1, h2, h3⟩ := h
    simp only []
    have : (writeFile o file (graphText a.format g) w).1 = .ok () := by
      unfold writeFile
      obtain ⟨fp, hfp⟩ := h1 w
      have k1 := hf.openFile file w fp
      revert hfp k1
      rcases o.openFile file w with ⟨r, w1⟩
      rintro rfl k1
      replace k1 := (k1 _ rfl).1
      simp only []
      have h2 := h2 fp (graphText a.format g) w1 (by rw [k1]; simp)
      have k2 := hf.write fp (graphText a.format g) w1 ()
      revert h2 k2
      rcases o.write fp (graphText a.format g) w1 with ⟨r, w2⟩
      rintro rfl k2
      replace k2 := (k2 _ _ _ rfl k1).1
      exact h3 fp w2 (by rw [k2]; simp)
    revert this
    rcases writeFile o file (graphText a.format g) w with ⟨r, w'⟩
    rintro rfl
    rfl

/-- The graph that the command line builds is the one that a client gets who excludes and adds the same. -/
theorem makeGraph_of_client (sp : SysPath W) (hsp : SysPathOk sp) (env : Env W) (table : List (Str × Implies)) (a : Args)
    (l : List Str) (hn : a.names = some l) (w : W) (J : W → Prop) (hw : J w) (hJ : ∀ r l v, J v → J (sp.assign r l v))
    (hJ' : ∀ v, J v → J (sp.invalidate v)) (Q : St W → Prop)
    (h : J (insertPaths sp a.path w) → sp.path (insertPaths sp a.path w) = a.path ++ sp.path w → ∃ N, ∀ n, N ≤ n →
      let r := runClient env n (configureThen a.excludes [] (doAll (l.map (addNamed a.nodeType))))
        (initState (insertPaths sp a.path w) table true)
      r.1 = .ok none ∧ Event.failed ∉ r.2.log ∧ J r.2.world ∧ Q r.2) :
    ∃ N, ∀ n, N ≤ n → ∃ s w1, makeGraph sp env n table a w = (.ok s, w1) ∧ J w1 ∧ Q s := by
  obtain ⟨N, h⟩ := h (insertPaths_keeps sp hJ _ _ hw) (insertPaths_path hsp a.path w).1
  refine ⟨N + 1, fun n hn' => ?_⟩
  obtain ⟨n, rfl⟩ : ∃ m, n = m + 1 := ⟨n - 1, by omega⟩
  obtain ⟨h1, h2, h3, h4⟩ := h (n + 1) (by omega)
  have hr : runClient env (n + 1)
      (configureThen a.excludes [] (doAll (l.map (addNamed a.nodeType)))) (initState (insertPaths sp a.path w) table true) =
      runClient env (n + 1) (doAll (l.map (addNamed a.nodeType)))
        (a.excludes.foldl addExclude (initState (insertPaths sp a.path w) table true)) := rfl
  simp only [hr] at h1 h2 h3 h4
  generalize hq : runClient env (n + 1) (doAll (l.map (addNamed a.nodeType)))
    (a.excludes.foldl addExclude (initState (insertPaths sp a.path w) table true)) = q at h1 h2 h3 h4
  obtain ⟨q, s⟩ := q
  simp only at h1 h2 h3 h4
  subst h1
  have hfe := forEach_of_doAll env n a.nodeType l _ _ hq h2
  have hb : buildGraph env (n + 1) table a (insertPaths sp a.path w) = (.ok s, s.world) := by
    unfold buildGraph
    simp only [hn, Option.getD_some]
    rw [M.bind_of_ok (op_excludes _ _ _ _), hfe]
  refine ⟨s, (makeGraph sp env (n + 1) table a w).2, Prod.ext ?_ rfl, ?_, h4⟩
  · show (buildGraph _ _ _ _ _).1 = _
    rw [hb]
  · show J (sp.invalidate (sp.assign _ _ (buildGraph _ _ _ _ _).2))
    rw [hb]
    exact hJ' _ (hJ _ _ _ h3)

/-- The rest of the program, once there is a graph. -/
theorem main_of_makeGraph (stdlib : List Str) (argv : List Arg) (table : List (Str × Implies))
    (sp : SysPath W) (hsp : SysPathOk sp) (env : Env W) (w : W) (J : W → Prop) (G : View → Prop)
    (o : Output W) (f : Files W) (hf : OutputOk o f) (hwr : Writable o f (outputs argv).getLast?)
    (iter : St W → Iter) (hi : ObjectGraphOk iter) (a : Args) (hp : parseArguments stdlib argv = some a)
    (h : ∃ N, ∀ n, N ≤ n → ∃ s w1, makeGraph sp env n table a w = (.ok s, w1) ∧ J w1 ∧ G (view s)) :
    ∃ N, ∀ n, N ≤ n → ∃ w1 w' g doc,
      main o sp env n table stdlib iter argv w = (.returned, w') ∧ G g ∧
      Document (if (formats argv).getLast? = some c!"dot" then .graphviz else .html) g doc ∧
      J w1 ∧ sp.path w1 = sp.path w ∧ WrittenTo f (outputs argv).getLast? doc w1 w' := by
  have hm := C47_meaning stdlib argv a hp
  obtain ⟨N, h⟩ := h
  refine ⟨N, fun n hn => ?_⟩
  obtain ⟨s, w1, h1, h2, h3⟩ := h n hn
  have hret : (main o sp env n table stdlib iter argv w).1 = .returned := by
    unfold main
    rw [hp]
    simp only [h1]
    exact formatGraph_returns hf (hm.output ▸ hwr) _ _
  obtain ⟨doc, h4, h5⟩ := main_written hf hi hp h1 (Prod.ext hret rfl)
  have hpath := (C34_command_line sp hsp env n table a w).2
  rw [h1] at hpath
  exact ⟨w1, _, view s, doc, Prod.ext hret rfl, h3, hm.format ▸ h4, h2, hpath, hm.output ▸ h5⟩

theorem excluded_congr {stdlib : List Str} {argv : List Arg} {a : Args} (hm : Means stdlib argv a) {excludes : List Str}
    (hx : ∀ x, x ∈ excludes ↔ ExcludedBy stdlib argv x) (table : List (Str × Implies)) :
    configured excludes table = configured a.excludes (table ++ []) := by
  rw [List.append_nil]
  exact configured_congr (fun x => by rw [hx, hm.excludes]) table

/-- C67: the program is called with modules or scripts of a clear finite project.  The project is found while the
search path is what `-p` says, followed by the original path (and while `J` holds, which assigning to `sys.path`
keeps).  If the output can be written, the program returns normally, and it has written a document in the wanted
format, to the wanted place, for a graph with exactly the nodes, edges and roots of the project. -/
theorem C67_command (P : Project) (table : List (Str × Implies)) (stdlib : List Str) (argv : List Arg)
    (excludes mods scripts : List Str) (hx : ∀ x, x ∈ excludes ↔ ExcludedBy stdlib argv x)
    (hA : Asked argv mods scripts) (hfm : ∀ f ∈ formats argv, f = c!"html" ∨ f = c!"dot")
    (hC : P.Clear (configured excludes table) mods scripts)
    (dom : List Str) (hdom : ∀ x, P.item x ≠ none → x ∈ dom)
    (sp : SysPath W) (hsp : SysPathOk sp) (w : W) (J : W → Prop) (hw : J w)
    (hJ : ∀ r l v, J v → J (sp.assign r l v)) (hJ' : ∀ v, J v → J (sp.invalidate v))
    (env : Env W) (L : Loaders W) (T : Texts W)
    (hS : P.Shows (fun v => J v ∧ sp.path v = paths argv ++ sp.path w) env L T) (hl : L.order.Ok)
    (ht : T.order.Ok) (k : Nat) (hO : env.OrderExact)
    (o : Output W) (f : Files W) (hf : OutputOk o f) (hwr : Writable o f (outputs argv).getLast?)
    (iter : St W → Iter) (hi : ObjectGraphOk iter) :
    ∃ N, ∀ n, N ≤ n → ∃ w1 w' g doc,
      main o sp ((env.withLoaders L (k + 1)).withTexts T) n table stdlib iter argv w = (.returned, w') ∧
      P.GraphOf (configured excludes table) mods scripts g ∧
      Document (if (formats argv).getLast? = some c!"dot" then .graphviz else .html) g doc ∧
      J w1 ∧ sp.path w1 = sp.path w ∧ WrittenTo f (outputs argv).getLast? doc w1 w' := by
  obtain ⟨a, hp⟩ : ∃ a, parseArguments stdlib argv = some a := by
    cases hA with
    | modules h1 h2 => exact C47_accepted stdlib argv hfm _ h2 h1
    | scripts h1 h2 => exact C47_accepted stdlib argv hfm _ h2 h1
  have hm := C47_meaning stdlib argv a hp
  refine main_of_makeGraph stdlib argv table sp hsp _ w J _ o f hf hwr iter hi a hp ?_
  obtain ⟨l, hg, hne, hn⟩ := hm.names
  have hadd : Adding mods scripts (l.map (addNamed a.nodeType)) := by
    cases hA with
    | modules h1 h2 h3 =>
      rw [hg] at h1
      cases h1
      rw [hm.nodeType, h3]
      refine ⟨by simp [addNamed], by simp [addNamed], by simp [addNamed], ?_⟩
      simp only [ScriptsOnce, List.pairwise_map]
      exact List.pairwise_of_forall fun _ _ => by simp [addNamed]
    | scripts h1 h2 h3 h4 =>
      rw [hg] at h1
      cases h1
      rw [hm.nodeType, h4]
      refine ⟨by simp [addNamed], by simp [addNamed], by simp [addNamed], ?_⟩
      simp only [ScriptsOnce, List.pairwise_map]
      exact h3.imp fun {a b} h => by simpa [addNamed] using fun e => h e.symm
  rw [excluded_congr hm hx] at hC ⊢
  refine makeGraph_of_client sp hsp _ table a l hn w J hw hJ hJ' _ fun hj hpath => ?_
  obtain ⟨N, h⟩ := C66_project P table [] a.excludes mods scripts hC dom hdom _ env L T hS hl ht k hO
    (l.map (addNamed a.nodeType)) hadd (insertPaths sp a.path w) ⟨hj, by rw [hpath, hm.path]⟩ true
  refine ⟨N, fun n hn => ?_⟩
  obtain ⟨h1, h2, h3, h4, h5, h6⟩ := h n hn
  exact ⟨h1, h2, h3.1, h4, h5, h6⟩

/-- C67, called with names of installed distributions (`-d`). -/
theorem C67_distributions (P : Project) (table : List (Str × Implies)) (stdlib : List Str) (argv : List Arg)
    (excludes names : List Str) (dists : List Dist) (hx : ∀ x, x ∈ excludes ↔ ExcludedBy stdlib argv x)
    (hg : groups argv = [names]) (hne : names ≠ []) (hd : (nodeTypes argv).getLast? = some .distribution)
    (hP : names.map P.installed = dists.map some) (hfm : ∀ f ∈ formats argv, f = c!"html" ∨ f = c!"dot")
    (hC : P.Clear (configured excludes table) (distModules dists) [])
    (hF : P.Fits (configured excludes table) (distModules dists) [] dists)
    (dom : List Str) (hdom : ∀ x, P.item x ≠ none → x ∈ dom)
    (sp : SysPath W) (hsp : SysPathOk sp) (w : W) (J : W → Prop) (hw : J w)
    (hJ : ∀ r l v, J v → J (sp.assign r l v)) (hJ' : ∀ v, J v → J (sp.invalidate v))
    (env : Env W) (L : Loaders W) (T : Texts W)
    (hS : P.Shows (fun v => J v ∧ sp.path v = paths argv ++ sp.path w) env L T) (hl : L.order.Ok)
    (ht : T.order.Ok) (k : Nat) (hO : env.OrderExact)
    (o : Output W) (f : Files W) (hf : OutputOk o f) (hwr : Writable o f (outputs argv).getLast?)
    (iter : St W → Iter) (hi : ObjectGraphOk iter) :
    ∃ N, ∀ n, N ≤ n → ∃ w1 w' g doc,
      main o sp ((env.withLoaders L (k + 1)).withTexts T) n table stdlib iter argv w = (.returned, w') ∧
      P.GraphWith (configured excludes table) [] [] dists g.nodes g.edges g.roots ∧
      Document (if (formats argv).getLast? = some c!"dot" then .graphviz else .html) g doc ∧
      J w1 ∧ sp.path w1 = sp.path w ∧ WrittenTo f (outputs argv).getLast? doc w1 w' := by
  obtain ⟨a, hp⟩ := C47_accepted stdlib argv hfm _ hne hg
  have hm := C47_meaning stdlib argv a hp
  refine main_of_makeGraph stdlib argv table sp hsp _ w J
    (fun g => P.GraphWith (configured excludes table) [] [] dists g.nodes g.edges g.roots) o f hf hwr iter hi a hp ?_
  obtain ⟨l, hg', _, hn⟩ := hm.names
  rw [hg] at hg'
  cases hg'
  have ht' : a.nodeType = .distribution := by
    rw [hm.nodeType, hd]
    rfl
  have hall : ∀ d, d ∈ dists ↔ ∃ x ∈ names, P.installed x = some d := by
    intro d
    have : some d ∈ names.map P.installed ↔ some d ∈ dists.map some := by rw [hP]
    simpa using this.symm
  have hadd : P.AddsAll [] [] dists (names.map (addNamed a.nodeType)) := by
    rw [ht']
    refine ⟨by simp [addNamed], by simp [addNamed], fun d => ?_, fun op ho => ?_, ?_⟩
    · simpa [addNamed] using hall d
    · obtain ⟨x, h1, rfl⟩ := List.mem_map.mp ho
      have : P.installed x ∈ dists.map some := hP ▸ List.mem_map.mpr ⟨x, h1, rfl⟩
      obtain ⟨d, _, h2⟩ := List.mem_map.mp this
      show P.installed x ≠ none
      rw [← h2]
      simp
    · simp only [ScriptsOnce, List.pairwise_map]
      exact List.pairwise_of_forall fun _ _ => by simp [addNamed]
  rw [excluded_congr hm hx] at hC hF ⊢
  refine makeGraph_of_client sp hsp _ table a names hn w J hw hJ hJ'
    (fun s => P.GraphWith (configured a.excludes (table ++ [])) [] [] dists s.nodes s.edges s.roots) fun hj hpath => ?_
  obtain ⟨N, h⟩ := C66_installed P table [] a.excludes [] [] dists hC hF dom hdom _ env L T hS hl ht k hO
    (names.map (addNamed a.nodeType)) hadd (insertPaths sp a.path w) ⟨hj, by rw [hpath, hm.path]⟩ true
  refine ⟨N, fun n hn => ?_⟩
  obtain ⟨h1, h2, h3, h4⟩ := h n hn
  exact ⟨h1, h2, h3.1, h4⟩

end Verif.Props
