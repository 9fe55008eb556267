import Verif.Props.Main
import Verif.Props.Export
/-!
# The command line as a whole
-/
namespace Verif.Props
open Verif Verif.Spec
variable {W : Type}

/-- The text is the document for the graph. -/
theorem graphText_document {g : View} {it : Iter} (h : IterOf g it) (format : OutputFormat) :
    Document format g (graphText format it) := by
  cases format with
  | html => exact C32_sections h
  | graphviz => exact C33_statements h

theorem writeFile_ok {o : Output W} {f : Files W} (hf : OutputOk o f) {file text : Str} {w w' : W}
    {u : Unit} (h : writeFile o file text w = (.ok u, w')) : WrittenTo f (some file) text w w' := by
  unfold writeFile at h
  cases h1 : o.openFile file w with
  | mk r1 w1 =>
    cases r1 with
    | error e => rw [h1] at h; cases h
    | ok fp =>
      obtain ⟨a1, a2, a3⟩ := hf.openFile _ _ _ _ h1
      rw [h1] at h
      simp only [] at h
      cases h2 : o.write fp text w1 with
      | mk r2 w2 =>
        cases r2 with
        | error e =>
          rw [h2] at h
          simp only [] at h
          cases h3 : o.close fp w2 with
          | mk r3 w3 => cases r3 <;> rw [h3] at h <;> cases h
        | ok u2 =>
          obtain ⟨b1, b2, b3⟩ := hf.write _ _ _ _ _ _ _ h2 a1
          rw [h2] at h
          obtain ⟨c1, c2, c3⟩ := hf.close _ _ _ _ _ _ h b1
          exact ⟨c1, by rw [c2, b2, a2], fun x hx => by rw [c3 x hx, b3 x hx, a3 x hx]⟩

/-- The graph that the command line builds has the structure of C01 and C02. -/
theorem makeGraph_structure {sp : SysPath W} {env : Env W} {n : Nat} {implies : List (Str × Implies)}
    {a : Args} {w w1 : W} {s : St W} (h : makeGraph sp env n implies a w = (.ok s, w1)) :
    UniqueIds (view s) ∧ NoDangling (view s) := by
  have h : (buildGraph env n implies a (insertPaths sp a.path w)).1 = .ok s := by
    have := congrArg Prod.fst h
    exact this
  unfold buildGraph at h
  simp only [] at h
  split at h
  · rename_i u s' hm
    simp only [Except.ok.injEq] at h
    subst h
    obtain ⟨_, s1, h1, hm⟩ := M.bind_ok hm
    have h2 := structureClosed.op (env := env) n (.addExcludes a.excludes)
      (initState (insertPaths sp a.path w) implies true) (by
        obtain ⟨h1, h2⟩ := initState_view (insertPaths sp a.path w) implies true
        rw [h1, h2]
        exact ⟨⟨by intro i j hi; simp at hi, ⟨by simp, by simp⟩⟩, by simp [seenViews]⟩)
    rw [h1] at h2
    have h3 := structureClosed.client (env := env) n (cmdClient a.nodeType (a.names.getD [])) s1 h2
    rw [cmdClient_eq, hm] at h3
    exact h3.1
  · cases h

/-- What is written, for known arguments and a known graph. -/
theorem main_written {o : Output W} {f : Files W} (hf : OutputOk o f) {sp : SysPath W} {env : Env W}
    {n : Nat} {implies : List (Str × Implies)} {stdlib : List Str} {iter : St W → Iter}
    (hi : ObjectGraphOk iter) {argv : List Arg} {w w' w1 : W} {a : Args} {s : St W}
    (hp : parseArguments stdlib argv = some a) (hg : makeGraph sp env n implies a w = (.ok s, w1))
    (h : main o sp env n implies stdlib iter argv w = (.returned, w')) :
    ∃ doc, Document a.format (view s) doc ∧ WrittenTo f a.outputFile doc w1 w' := by
  unfold main at h
  rw [hp] at h
  simp only [] at h
  rw [hg] at h
  refine ⟨graphText a.format (iter s),
    graphText_document (hi s (makeGraph_structure hg).1 (makeGraph_structure hg).2) a.format, ?_⟩
  simp only [] at h
  unfold formatGraph at h
  cases ho : a.outputFile with
  | none =>
    rw [ho] at h
    simp only [] at h
    cases hs : o.stdout (graphText a.format (iter s)) w1 with
    | mk r2 w2 =>
      cases r2 with
      | error e => rw [hs] at h; cases h
      | ok u =>
        rw [hs] at h
        obtain ⟨rfl⟩ : w2 = w' := (Prod.mk.inj h).2
        exact hf.stdout _ _ _ _ hs
  | some file =>
    rw [ho] at h
    simp only [] at h
    cases hs : writeFile o file (graphText a.format (iter s)) w1 with
    | mk r2 w2 =>
      cases r2 with
      | error e =>
        rw [hs] at h
        simp only [] at h
        split at h <;> cases h
      | ok u =>
        rw [hs] at h
        obtain ⟨rfl⟩ : w2 = w' := (Prod.mk.inj h).2
        exact writeFile_ok hf hs

/-- C54: when the program ends normally, the graph that the options ask for was built and its
document was written, in the wanted format, to the wanted place and nowhere else. -/
theorem C54_written (o : Output W) (f : Files W) (hf : OutputOk o f) (sp : SysPath W) (env : Env W)
    (n : Nat) (implies : List (Str × Implies)) (stdlib : List Str) (iter : St W → Iter)
    (hi : ObjectGraphOk iter) (argv : List Arg) (w w' : W)
    (h : main o sp env n implies stdlib iter argv w = (.returned, w')) :
    ∃ a s w1 doc, Means stdlib argv a ∧ makeGraph sp env n implies a w = (.ok s, w1) ∧
      Document a.format (view s) doc ∧ WrittenTo f a.outputFile doc w1 w' := by
  have h0 := h
  unfold main at h
  cases hp : parseArguments stdlib argv with
  | none => rw [hp] at h; cases h
  | some a =>
    rw [hp] at h
    simp only [] at h
    cases hg : makeGraph sp env n implies a w with
    | mk r w1 =>
      cases r with
      | error e => rw [hg] at h; cases h
      | ok s =>
        obtain ⟨doc, h1, h2⟩ := main_written hf hi hp hg h0
        exact ⟨a, s, w1, doc, C47_meaning stdlib argv a hp, hg, h1, h2⟩

/-- C54: without names, with two groups of names or with an unknown format the program ends with
status 2 and has only written a message. -/
theorem C54_usage (o : Output W) (sp : SysPath W) (env : Env W) (n : Nat)
    (implies : List (Str × Implies)) (stdlib : List Str) (iter : St W → Iter) (argv : List Arg) (w : W)
    (h : ¬((∀ x ∈ formats argv, x = c!"html" ∨ x = c!"dot") ∧ ∃ l, groups argv = [l] ∧ l ≠ [])) :
    main o sp env n implies stdlib iter argv w = (.status 2, o.stderr w) := by
  unfold main
  cases hp : parseArguments stdlib argv with
  | none => rfl
  | some a =>
    have hm := C47_meaning stdlib argv a hp
    obtain ⟨l, h1, h2, _⟩ := hm.names
    exact absurd ⟨hm.known, l, h1, h2⟩ h

/-- C54: when the graph cannot be built the exception is passed on and nothing is written: an old
output file is not truncated. -/
theorem C54_not_built (o : Output W) (sp : SysPath W) (env : Env W) (n : Nat)
    (implies : List (Str × Implies)) (stdlib : List Str) (iter : St W → Iter) (argv : List Arg)
    (w w1 : W) (a : Args) (e : Exc) (ha : parseArguments stdlib argv = some a)
    (hb : makeGraph sp env n implies a w = (.error e, w1)) :
    main o sp env n implies stdlib iter argv w = (.raised e, w1) := by
  unfold main
  rw [ha]
  simp only []
  rw [hb]

/-- C54: when the output file cannot be opened, the program ends with status 1. -/
theorem C54_unwritable (o : Output W) (sp : SysPath W) (env : Env W) (n : Nat)
    (implies : List (Str × Implies)) (stdlib : List Str) (iter : St W → Iter) (argv : List Arg)
    (w w1 w2 : W) (a : Args) (s : St W) (file : Str) (ha : parseArguments stdlib argv = some a)
    (hb : makeGraph sp env n implies a w = (.ok s, w1)) (hf : (outputs argv).getLast? = some file)
    (ho : o.openFile file w1 = (.error .osError, w2)) :
    main o sp env n implies stdlib iter argv w = (.status 1, o.stderr w2) := by
  have hm := (C47_meaning stdlib argv a ha).output
  rw [hf] at hm
  unfold main
  rw [ha]
  simp only []
  rw [hb]
  simp only []
  unfold formatGraph
  rw [hm]
  simp only []
  unfold writeFile
  rw [ho]
  simp

/-- C54: the status of the program is 1 only if writing to the file that was asked for failed with an
`OSError`. -/
theorem C54_status (o : Output W) (sp : SysPath W) (env : Env W) (n : Nat)
    (implies : List (Str × Implies)) (stdlib : List Str) (iter : St W → Iter) (argv : List Arg)
    (w w' : W) (k : Nat)
    (h : main o sp env n implies stdlib iter argv w = (.status k, w')) :
    k = 2 ∧ parseArguments stdlib argv = none ∨
    k = 1 ∧ ∃ file, (outputs argv).getLast? = some file ∧
      ((∃ w1, (o.openFile file w1).1 = .error .osError) ∨
       (∃ fp t w1, (o.write fp t w1).1 = .error .osError) ∨
       ∃ fp w1, (o.close fp w1).1 = .error .osError) := by
  unfold main at h
  cases hp : parseArguments stdlib argv with
  | none =>
    rw [hp] at h
    exact .inl ⟨by cases (Prod.mk.inj h).1; rfl, rfl⟩
  | some a =>
    right
    have hm := (C47_meaning stdlib argv a hp).output
    rw [hp] at h
    simp only [] at h
    cases hg : makeGraph sp env n implies a w with
    | mk r w1 =>
      cases r with
      | error e => rw [hg] at h; cases h
      | ok s =>
        rw [hg] at h
        simp only [] at h
        unfold formatGraph at h
        cases ho : a.outputFile with
        | none =>
          rw [ho] at h
          simp only [] at h
          cases hs : o.stdout (graphText a.format (iter s)) w1 with
          | mk r2 w2 => cases r2 <;> rw [hs] at h <;> cases h
        | some file =>
          rw [ho] at h hm
          simp only [] at h
          cases hs : writeFile o file (graphText a.format (iter s)) w1 with
          | mk r2 w2 =>
            cases r2 with
            | ok u => rw [hs] at h; cases h
            | error e =>
              rw [hs] at h
              simp only [] at h
              split at h
              · rename_i he
                subst he
                refine ⟨by cases (Prod.mk.inj h).1; rfl, file, hm.symm, ?_⟩
                unfold writeFile at hs
                cases h1 : o.openFile file w1 with
                | mk r1 v1 =>
                  rw [h1] at hs
                  cases r1 with
                  | error e => cases hs; exact .inl ⟨w1, by rw [h1]⟩
                  | ok fp =>
                    simp only [] at hs
                    cases h2 : o.write fp (graphText a.format (iter s)) v1 with
                    | mk r3 v2 =>
                      rw [h2] at hs
                      cases r3 with
                      | ok u => exact .inr (.inr ⟨fp, v2, by simp only [] at hs; rw [hs]⟩)
                      | error e =>
                        simp only [] at hs
                        cases h3 : o.close fp v2 with
                        | mk r4 v3 =>
                          rw [h3] at hs
                          cases r4 with
                          | ok u => cases hs; exact .inr (.inl ⟨fp, _, v1, by rw [h2]⟩)
                          | error e => cases hs; exact .inr (.inr ⟨fp, v2, by rw [h3]⟩)
              · cases h

/-! ## A concrete case -/

/-- There are iterators that meet the contract. -/
theorem objectGraph_exists : ∃ iter : St W → Iter, ObjectGraphOk iter := by
  classical
  refine ⟨fun s => if h : ((view s).nodes.map Node.ident).Nodup then (iterOf_exists (view s) h).choose
    else ⟨[], [], [], fun _ => [], fun _ => []⟩, fun s hu _ => ?_⟩
  have hn : ((view s).nodes.map Node.ident).Nodup := by
    rw [List.nodup_iff_pairwise_ne, List.pairwise_map, List.pairwise_iff_getElem]
    intro i j hi hj hij he
    have := hu i j hi hj he
    omega
  simp only [hn, dif_pos]
  exact (iterOf_exists _ hn).choose_spec

/-- A disk without importable modules: standard output, files, and open files. -/
structure Disk where
  out : Str := []
  file : Str → Option Str := fun _ => none
  handle : Nat → Option (Str × Str) := fun _ => none

def Disk.files : Files Disk := ⟨Disk.out, Disk.file, Disk.handle⟩

/-- Files can be written, except in `/ro`. -/
def Disk.output : Output Disk where
  stdout t w := (.ok (), { w with out := w.out ++ t })
  openFile x w := if startsWith c!"/ro" x then (.error .osError, w) else
    (.ok 3, { w with file := fun y => if y = x then some [] else w.file y, handle := fun _ => some (x, []) })
  write _ t w := (.ok (), { w with handle := fun h => (w.handle h).map fun p => (p.1, p.2 ++ t) })
  close h w := match w.handle h with
    | some (x, b) => (.ok (), { w with file := fun y => if y = x then some b else w.file y })
    | none => (.error .osError, w)
  stderr w := w

theorem disk_ok : OutputOk Disk.output Disk.files where
  stdout t w u w' h := by cases h; exact ⟨rfl, fun _ => rfl⟩
  openFile x w h w' e := by
    simp only [Disk.output] at e
    split at e
    · cases e
    · cases e; exact ⟨rfl, rfl, fun y hy => by simp [Disk.files, hy]⟩
  write h t w u w' x b e hh := by
    cases e
    refine ⟨?_, rfl, fun _ _ => rfl⟩
    have hh : w.handle h = some (x, b) := hh
    simp [Disk.files, hh]
  close h w u w' x b e hh := by
    have hh : w.handle h = some (x, b) := hh
    simp only [Disk.output, hh] at e
    cases e
    exact ⟨by simp [Disk.files], rfl, fun y hy => by simp [Disk.files, hy]⟩

/-- Nothing can be imported. -/
def Disk.env : Env Disk where
  findSpec _ w := (.ok none, w)
  findSpecRel _ _ w := (.ok none, w)
  inSysModules _ _ := false
  popModule _ w := (.error .keyError, w)
  setModule _ _ w := w
  setFake _ _ w := w
  delModule _ w := (.ok (), w)
  isInspectLoader _ _ := true
  isPackage _ w := (.ok false, w)
  nodeForSpec _ w := (.error .runtimeError, w)
  loadScript _ w := (.error .osError, w)
  parseSource _ w := (.error .syntaxError, w)
  distributionNamed _ w := (.ok none, w)
  globPy _ w := (.ok [], w)
  subdirs _ w := (.ok [], w)
  isIdentifier n := !n.isEmpty
  outOrder _ l := l
  isFile _ w := (.ok false, w)
  readBytes _ w := (.error .osError, w)
  compileAst _ w := (.error .syntaxError, w)
  userPost _ _ := .ret none
  userMissing _ _ _ := .ret none

def Disk.path : SysPath Disk := ⟨fun _ => 0, fun _ _ => [], fun _ _ w => w, fun w => w⟩

/-- `-o /t -f dot m` writes a file, with every kind of iterators; `-o /ro m` ends with status 1; `-s m`
raises. -/
example (iter : St Disk → Iter) :
    (∃ w, main Disk.output Disk.path Disk.env 20 [] [] iter
      [.output c!"/t", .format c!"dot", .names [c!"m"]] {} = (.returned, w)) ∧
    (∃ w, main Disk.output Disk.path Disk.env 20 [] [] iter
      [.output c!"/ro/t", .names [c!"m"]] {} = (.status 1, w)) ∧
    (∃ w, main Disk.output Disk.path Disk.env 20 [] [] iter
      [.nodeType .script, .output c!"/t", .names [c!"m"]] {} = (.raised .osError, w)) ∧
    ∃ w, main Disk.output Disk.path Disk.env 20 [] [] iter [.output c!"/t"] {} = (.status 2, w) :=
  ⟨⟨_, rfl⟩, ⟨_, rfl⟩, ⟨_, rfl⟩, ⟨_, rfl⟩⟩

end Verif.Props
