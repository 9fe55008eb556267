import Verif.Proofs.Sim
import Verif.Props.NoFailure
/-!
# An outside world that tells when it leaves the beaten track

`guarded` does what `env` does, as long as only the needed modules, scripts, distributions and source code are searched and read in worlds with
`I`.  Otherwise it raises a flag, and from then on shows the modules and scripts as they are in `w0`.
-/
namespace Verif.Guard
open Verif M Spec
variable {W : Type} {α : Type} (S : Setup) (I : W → Prop) (env : Env W) (w0 : W)

/-- A call that should not be made. -/
def stub : Ext (W × Bool) α := fun v => (.error .assertion, v.1, false)

open Classical in
/-- The operation in worlds with `I`, its value in `w0` otherwise. -/
noncomputable def guardOp (x : Ext W α) : Ext (W × Bool) α := fun v =>
  if v.2 = true ∧ I v.1 then ((x v.1).1, (x v.1).2, true) else ((x w0).1, v.1, false)

/-- The specification is that of a module of the setup. -/
def GoodSpec (spec : Verif.Spec) : Prop :=
  ∃ x p w, S.mods x = some p ∧ I w ∧ (env.findSpec x w).1 = .ok (some spec)

/-- The file would be the source of a module compiled with mypyc. -/
def GoodSource (p : Str) : Prop :=
  ∃ n file helper, S.InSetup n ∧ MypycModule n file helper ∧ SourceOf file p

/-- The text of such a source. -/
def GoodCode (code : Str) : Prop :=
  ∃ p, GoodSource S p ∧ Yields I (env.isFile p) true ∧ Yields I (env.readBytes p) code

open Classical in
/-- The outside world with the flag. -/
noncomputable def guarded : Env (W × Bool) where
  findSpec x := if S.NeedsModule x ∨ S.mods x ≠ none then guardOp I w0 (env.findSpec x)
    else fun v => (.ok none, v.1, false)
  findSpecRel _ _ := stub
  inSysModules x v := if v.2 then env.inSysModules x v.1 else true
  popModule _ := stub
  setModule _ _ v := (v.1, false)
  setFake _ _ v := (v.1, false)
  delModule _ := stub
  isInspectLoader l v := env.isInspectLoader l v.1
  isPackage _ := stub
  nodeForSpec sp := if GoodSpec S I env sp then guardOp I w0 (env.nodeForSpec sp) else stub
  loadScript p := if S.asksScript p then guardOp I w0 (env.loadScript p) else stub
  parseSource p := if S.sources p ≠ none then guardOp I w0 (env.parseSource p) else stub
  distributionNamed x := if ∃ d, S.dists x = some d ∧ S.asksDist d then guardOp I w0 (env.distributionNamed x) else stub
  globPy _ := stub
  subdirs _ := stub
  isIdentifier := env.isIdentifier
  outOrder v l := env.outOrder v.1 l
  isFile p := if GoodSource S p then guardOp I w0 (env.isFile p) else stub
  readBytes p := if GoodSource S p ∧ Yields I (env.isFile p) true then guardOp I w0 (env.readBytes p) else stub
  compileAst code := if GoodCode S I env code then guardOp I w0 (env.compileAst code) else stub
  userPost _ _ := .setWorld (w0, false) (.ret none)
  userMissing _ _ _ := .setWorld (w0, false) (.ret none)

variable {S I env w0}

/-- No flag. -/
def NoFlag (v : W × Bool) : Prop := v.2 = true

/-- No flag, and the property. -/
def Inv (I : W → Prop) (v : W × Bool) : Prop := v.2 = true ∧ I v.1

theorem guardOp_sim (x : Ext W α) : ESim Prod.fst NoFlag (guardOp I w0 x) x := by
  intro v hv
  unfold guardOp at hv ⊢
  split
  · rename_i h
    exact ⟨h.1, rfl⟩
  · rename_i h
    rw [if_neg h] at hv
    cases hv

theorem stub_sim (x : Ext W α) : ESim Prod.fst NoFlag stub x := fun _ hv => nomatch (show false = true from hv)

theorem guarded_sim : EnvSim Prod.fst NoFlag (guarded S I env w0) env where
  findSpec n := by
    unfold guarded
    simp only []
    split
    · exact guardOp_sim _
    · exact fun v hv => nomatch (show false = true from hv)
  findSpecRel _ _ := stub_sim _
  inSysModules n v hv := if_pos hv
  popModule _ := stub_sim _
  setModule _ _ _ hv := nomatch (show false = true from hv)
  setFake _ _ _ hv := nomatch (show false = true from hv)
  delModule _ := stub_sim _
  isInspectLoader _ _ := rfl
  isPackage _ := stub_sim _
  nodeForSpec sp := by
    unfold guarded
    simp only []
    split
    · exact guardOp_sim _
    · exact stub_sim _
  loadScript p := by
    unfold guarded
    simp only []
    split
    · exact guardOp_sim _
    · exact stub_sim _
  parseSource p := by
    unfold guarded
    simp only []
    split
    · exact guardOp_sim _
    · exact stub_sim _
  distributionNamed p := by
    unfold guarded
    simp only []
    split
    · exact guardOp_sim _
    · exact stub_sim _
  globPy _ := stub_sim _
  subdirs _ := stub_sim _
  isIdentifier := rfl
  outOrder _ _ := rfl
  isFile p := by
    unfold guarded
    simp only []
    split
    · exact guardOp_sim _
    · exact stub_sim _
  readBytes p := by
    unfold guarded
    simp only []
    split
    · exact guardOp_sim _
    · exact stub_sim _
  compileAst p := by
    unfold guarded
    simp only []
    split
    · exact guardOp_sim _
    · exact stub_sim _
  userPost _ _ := ⟨(w0, false), none, (nomatch show false = true from ·), rfl⟩
  userMissing _ _ _ := ⟨(w0, false), none, (nomatch show false = true from ·), rfl⟩

/-- What the guarded operation does. -/
theorem guardOp_cases (x : Ext W α) (h0 : I w0) (v : W × Bool) :
    (∃ w, I w ∧ (guardOp I w0 x v).1 = (x w).1) ∧
    (Inv I v → (∀ w, I w → I (x w).2) → Inv I (guardOp I w0 x v).2) := by
  unfold guardOp
  split
  · rename_i h
    exact ⟨⟨_, h.2, rfl⟩, fun _ hx => ⟨rfl, hx _ h.2⟩⟩
  · rename_i h
    exact ⟨⟨_, h0, rfl⟩, fun hv => absurd hv h⟩

section
variable (hS : S.ShownIn I env) (h0 : I w0)
include hS

theorem good_yields {spec} (h : GoodSpec S I env spec) : ∃ p, Yields I (env.nodeForSpec spec) p := by
  obtain ⟨x, p, w, h1, h2, h3⟩ := h
  obtain ⟨spec', h4, _, h5⟩ := hS.found x p h1 w h2
  rw [h3] at h4
  cases h4
  exact ⟨p, h5⟩

include h0

/-- Looking for a module. -/
theorem find_cases (x : Str) (v : W × Bool) :
    (∃ spec p, ((guarded S I env w0).findSpec x v).1 = .ok (some spec) ∧ S.mods x = some p ∧
      GoodSpec S I env spec ∧ Yields I (env.nodeForSpec spec) p) ∨
    (S.mods x = none ∧ (((guarded S I env w0).findSpec x v).1 = .ok none ∨
      ((guarded S I env w0).findSpec x v).1 = .error (.moduleNotFound false))) := by
  unfold guarded
  simp only []
  split
  · rename_i h
    obtain ⟨w, h1, h2⟩ := (guardOp_cases (env.findSpec x) h0 v).1
    rw [h2]
    cases hm : S.mods x with
    | some p =>
      obtain ⟨spec, h3, _, h4⟩ := hS.found x p hm w h1
      exact .inl ⟨spec, p, h3, rfl, ⟨x, p, w, hm, h1, h3⟩, h4⟩
    | none =>
      have hn : S.NeedsModule x := h.resolve_right (by simp [hm])
      exact .inr ⟨rfl, (hS.absent x hn hm w h1).1⟩
  · rename_i h
    refine .inr ⟨?_, .inl rfl⟩
    cases hm : S.mods x with
    | none => rfl
    | some p => exact absurd (.inr (by simp [hm])) h

theorem resolve_find (x : Str) (v : W × Bool) :
    resolveSpec (guarded S I env w0) x v = (guarded S I env w0).findSpec x v := by
  unfold resolveSpec
  have := find_cases hS h0 x v
  revert this
  rcases (guarded S I env w0).findSpec x v with ⟨r, v'⟩
  rintro (⟨spec, p, h1, _⟩ | ⟨_, h1 | h1⟩) <;> simp only at h1 <;> subst h1 <;> rfl

omit hS in
theorem node_cases {spec p} (hg : GoodSpec S I env spec) (hy : Yields I (env.nodeForSpec spec) p) (v : W × Bool) :
    ((guarded S I env w0).nodeForSpec spec v).1 = .ok p := by
  unfold guarded
  simp only []
  rw [if_pos hg]
  obtain ⟨w, h1, h2⟩ := (guardOp_cases (env.nodeForSpec spec) h0 v).1
  rw [h2]
  exact (hy w h1).1

omit hS in
theorem script_cases {path r} (ha : S.asksScript path) (hy : Yields I (env.loadScript path) r) (v : W × Bool) :
    ((guarded S I env w0).loadScript path v).1 = .ok r := by
  unfold guarded
  simp only []
  rw [if_pos ha]
  obtain ⟨w, h1, h2⟩ := (guardOp_cases (env.loadScript path) h0 v).1
  rw [h2]
  exact (hy w h1).1

omit hS in
theorem source_cases {src infos} (ha : S.sources src = some infos) (hy : Yields I (env.parseSource src) infos)
    (v : W × Bool) : ((guarded S I env w0).parseSource src v).1 = .ok infos := by
  unfold guarded
  simp only []
  rw [if_pos (by simp [ha])]
  obtain ⟨w, h1, h2⟩ := (guardOp_cases (env.parseSource src) h0 v).1
  rw [h2]
  exact (hy w h1).1

omit hS in
theorem dist_cases {name d} (ha : S.dists name = some d) (hd : S.asksDist d)
    (hy : Yields I (env.distributionNamed name) (some d))
    (v : W × Bool) : ((guarded S I env w0).distributionNamed name v).1 = .ok (some d) := by
  unfold guarded
  simp only []
  rw [if_pos ⟨d, ha, hd⟩]
  obtain ⟨w, h1, h2⟩ := (guardOp_cases (env.distributionNamed name) h0 v).1
  rw [h2]
  exact (hy w h1).1

omit hS in
theorem isFile_cases {p b} (hg : GoodSource S p) (hy : Yields I (env.isFile p) b) (v : W × Bool) :
    ((guarded S I env w0).isFile p v).1 = .ok b := by
  unfold guarded
  simp only []
  rw [if_pos hg]
  obtain ⟨w, h1, h2⟩ := (guardOp_cases (env.isFile p) h0 v).1
  rw [h2]
  exact (hy w h1).1

omit hS in
theorem read_cases {p code} (hg : GoodSource S p) (ht : Yields I (env.isFile p) true)
    (hy : Yields I (env.readBytes p) code) (v : W × Bool) :
    ((guarded S I env w0).readBytes p v).1 = .ok code := by
  unfold guarded
  simp only []
  rw [if_pos ⟨hg, ht⟩]
  obtain ⟨w, h1, h2⟩ := (guardOp_cases (env.readBytes p) h0 v).1
  rw [h2]
  exact (hy w h1).1

omit hS in
theorem parse_cases {code} (hg : GoodCode S I env code) {r} (hy : ∀ w, I w → (env.compileAst code w).1 = r) (v : W × Bool) :
    ((guarded S I env w0).compileAst code v).1 = r := by
  unfold guarded
  simp only []
  rw [if_pos hg]
  obtain ⟨w, h1, h2⟩ := (guardOp_cases (env.compileAst code) h0 v).1
  rw [h2]
  exact hy w h1

omit h0 in
/-- The source is absent, or it is there and has a text that is a program or has a syntax error. -/
theorem source_there {p} (hg : GoodSource S p) : Yields I (env.isFile p) false ∨
    (Yields I (env.isFile p) true ∧ ∃ code, Yields I (env.readBytes p) code ∧
      ((∃ infos, Yields I (env.compileAst code) infos) ∨
        ∀ w, I w → (env.compileAst code w).1 = .error .syntaxError ∧ I (env.compileAst code w).2)) := by
  obtain ⟨n, file, helper, h1, h2, h3⟩ := hg
  have same : ∀ {file' helper' source}, MypycModule n file' helper' → SourceOf file' source → source = p := by
    intro file' helper' source h4 h5
    obtain ⟨rfl, rfl⟩ := h4.same h2
    rw [← Props.sourceNextTo_eq h5, Props.sourceNextTo_eq h3]
  cases hS.compiled n h1 with
  | no h4 => exact absurd h2 (h4 _ _)
  | noSource h4 h5 _ h6 =>
    obtain rfl := same h4 h5
    exact .inl h6
  | source h4 h5 _ h6 h7 h8 =>
    obtain rfl := same h4 h5
    exact .inr ⟨h6, _, h7, .inl ⟨_, h8⟩⟩
  | invalid h4 h5 _ h6 h7 h8 =>
    obtain rfl := same h4 h5
    exact .inr ⟨h6, _, h7, .inr h8⟩

theorem true_yields {p} (h : ∃ v, ((guarded S I env w0).isFile p v).1 = .ok true) :
    GoodSource S p ∧ Yields I (env.isFile p) true := by
  obtain ⟨v, hv⟩ := h
  by_cases hg : GoodSource S p
  · rcases source_there hS hg with h1 | ⟨h1, _⟩
    · rw [isFile_cases h0 hg h1] at hv
      cases hv
    · exact ⟨hg, h1⟩
  · unfold guarded at hv
    simp only [] at hv
    rw [if_neg hg] at hv
    cases hv

theorem guarded_compiled {n : Node} (hn : S.InSetup n) : S.CompiledIn (guarded S I env w0) n := by
  cases hS.compiled n hn with
  | no h1 h2 => exact .no h1 h2
  | noSource h1 h2 h3 h4 =>
    exact .noSource h1 h2 h3 fun v => by rw [isFile_cases h0 ⟨n, _, _, hn, h1, h2⟩ h4]; simp
  | source h1 h2 h3 h4 h5 h6 =>
    have hg : GoodSource S _ := ⟨n, _, _, hn, h1, h2⟩
    refine .source h1 h2 h3 (fun v => by rw [isFile_cases h0 hg h4]; simp) ?_ ?_
    all_goals
      intro v v' code
      intros
      rename_i hr _
      rw [read_cases h0 hg h4 h5] at hr
      cases hr
      rename_i hp
      rw [parse_cases h0 ⟨_, hg, h4, h5⟩ fun w hw => (h6 w hw).1] at hp
      cases hp
    rfl
  | invalid h1 h2 h3 h4 h5 h6 =>
    have hg : GoodSource S _ := ⟨n, _, _, hn, h1, h2⟩
    refine .source h1 h2 h3 (fun v => by rw [isFile_cases h0 hg h4]; simp) ?_ ?_
    all_goals
      intro v v' code
      intros
      first | rfl | skip
    rename_i hr hp
    rw [read_cases h0 hg h4 h5] at hr
    cases hr
    rw [parse_cases h0 ⟨_, hg, h4, h5⟩ fun w hw => (h6 w hw).1] at hp
    cases hp

theorem guarded_describes : S.Describes (guarded S I env w0) where
  found := by
    intro x spec v v' p h1 h2
    replace h1 := locates_iff.mp h1
    rw [resolve_find hS h0] at h1
    rcases find_cases hS h0 x v with ⟨spec', q, h3, h4, h5, h6⟩ | ⟨_, h3 | h3⟩
    · rw [h1] at h3
      cases h3
      rw [node_cases h0 h5 h6] at h2
      cases h2
      exact h4
    · rw [h1] at h3; cases h3
    · rw [h1] at h3; cases h3
  absent := by
    intro x v h
    rcases find_cases hS h0 x v with ⟨spec, q, h3, _⟩ | ⟨h3, _⟩
    · exact absurd (locates_iff.mpr (by rw [resolve_find hS h0]; exact h3)) (h spec)
    · exact h3
  script := by
    intro path v r h
    by_cases ha : S.asksScript path
    · obtain ⟨r', h1, h2⟩ := hS.script path ha
      rw [script_cases h0 ha h2] at h
      cases h
      exact h1
    · unfold guarded at h
      simp only [] at h
      rw [if_neg ha] at h
      cases h
  distribution := by
    intro name v d h
    by_cases ha : ∃ d, S.dists name = some d ∧ S.asksDist d
    · obtain ⟨d', h1, h2⟩ := ha
      rw [dist_cases h0 h1 h2 (hS.distribution name d' h1 h2)] at h
      cases h
      exact h1
    · unfold guarded at h
      simp only [] at h
      rw [if_neg ha] at h
      cases h
  source := by
    intro src v infos h
    cases ha : S.sources src with
    | some infos' =>
      rw [source_cases h0 ha (hS.source src _ ha)] at h
      cases h
      rfl
    | none =>
      unfold guarded at h
      simp only [] at h
      rw [if_neg (by simp [ha])] at h
      cases h
  compiled n hn := guarded_compiled hS h0 (.inl hn)

theorem guarded_works : S.Works (guarded S I env w0) where
  finds := by
    intro x v _
    have hse := search_self (guarded S I env w0) x v
    rw [resolve_find hS h0] at hse
    refine ⟨((guarded S I env w0).findSpec x v).2, ?_⟩
    rcases find_cases hS h0 x v with ⟨spec, q, h3, _⟩ | ⟨_, h3 | h3⟩
    · exact .inl ⟨_, by rw [h3] at hse; exact hse⟩
    · exact .inl ⟨_, by rw [h3] at hse; exact hse⟩
    · exact .inr (by rw [h3] at hse; exact hse)
  reads := by
    intro x spec v v' _ h1
    replace h1 := locates_iff.mp h1
    rw [resolve_find hS h0] at h1
    rcases find_cases hS h0 x v with ⟨spec', q, h3, h4, h5, h6⟩ | ⟨_, h3 | h3⟩
    · rw [h1] at h3
      cases h3
      exact ⟨q, node_cases h0 h5 h6 v'⟩
    · rw [h1] at h3; cases h3
    · rw [h1] at h3; cases h3
  scripts := by
    intro path v ha
    obtain ⟨r', h1, h2⟩ := hS.script path ha
    exact ⟨r', script_cases h0 ha h2 v⟩
  distributions := by
    intro name d v h1 h2
    exact ⟨d, dist_cases h0 h1 h2 (hS.distribution name d h1 h2) v⟩
  sources := by
    intro src infos v ha
    exact ⟨infos, source_cases h0 ha (hS.source src infos ha) v⟩
  compiled := by
    rintro p v ⟨n, file, helper, h1, h2, h3⟩
    have hg : GoodSource S p := ⟨n, file, helper, .inl h1, h2, h3⟩
    rcases source_there hS hg with h4 | ⟨h4, code, h5, h6⟩
    · exact .inl (isFile_cases h0 hg h4 v)
    · refine .inr ⟨isFile_cases h0 hg h4 v, fun v => ⟨code, read_cases h0 hg h4 h5 v⟩, ?_⟩
      intro v v' code' hr
      rw [read_cases h0 hg h4 h5] at hr
      cases hr
      rcases h6 with ⟨infos, h6⟩ | h6
      · exact .inl ⟨infos, parse_cases h0 ⟨p, hg, h4, h5⟩ (fun w hw => (h6 w hw).1) v'⟩
      · exact .inr (parse_cases h0 ⟨p, hg, h4, h5⟩ (fun w hw => (h6 w hw).1) v')

theorem guarded_stays : S.Stays (guarded S I env w0) (Inv I) where
  finds := by
    intro x v r v' hx hv hse
    have hse := congrArg Prod.snd (search_eq hse)
    rw [resolve_find hS h0] at hse
    simp only [] at hse
    rw [← hse]
    unfold guarded
    simp only []
    rw [if_pos (.inl hx)]
    refine (guardOp_cases (env.findSpec x) h0 v).2 hv fun w hw => ?_
    cases hm : S.mods x with
    | some p =>
      obtain ⟨_, _, h, _⟩ := hS.found x p hm w hw
      exact h
    | none => exact (hS.absent x hx hm w hw).2
  reads := by
    intro x spec v v' _ h1 hv
    replace h1 := locates_iff.mp h1
    rw [resolve_find hS h0] at h1
    rcases find_cases hS h0 x v with ⟨spec', q, h3, h4, h5, h6⟩ | ⟨_, h3 | h3⟩
    · rw [h1] at h3
      cases h3
      unfold guarded
      simp only []
      rw [if_pos h5]
      exact (guardOp_cases _ h0 v').2 hv fun w hw => (h6 w hw).2
    · rw [h1] at h3; cases h3
    · rw [h1] at h3; cases h3
  scripts := by
    intro path v ha hv
    obtain ⟨r', h1, h2⟩ := hS.script path ha
    unfold guarded
    simp only []
    rw [if_pos ha]
    exact (guardOp_cases _ h0 v).2 hv fun w hw => (h2 w hw).2
  distributions := by
    intro name d v h1 h2 hv
    unfold guarded
    simp only []
    rw [if_pos ⟨d, h1, h2⟩]
    exact (guardOp_cases _ h0 v).2 hv fun w hw => (hS.distribution name d h1 h2 w hw).2
  sources := by
    intro src infos v ha hv
    unfold guarded
    simp only []
    rw [if_pos (by simp [ha])]
    exact (guardOp_cases _ h0 v).2 hv fun w hw => (hS.source src infos ha w hw).2
  looks := by
    rintro p v ⟨n, file, helper, h1, h2, h3⟩ hv
    have hg : GoodSource S p := ⟨n, file, helper, .inl h1, h2, h3⟩
    unfold guarded
    simp only []
    rw [if_pos hg]
    refine (guardOp_cases _ h0 v).2 hv fun w hw => ?_
    rcases source_there hS hg with h4 | ⟨h4, _⟩ <;> exact (h4 w hw).2
  opens := by
    intro p v _ ht hv
    obtain ⟨hg, ht⟩ := true_yields hS h0 ht
    unfold guarded
    simp only []
    rw [if_pos ⟨hg, ht⟩]
    refine (guardOp_cases _ h0 v).2 hv fun w hw => ?_
    rcases source_there hS hg with h4 | ⟨h4, code, h5, _⟩
    · exact absurd ((h4 w0 h0).1.symm.trans (ht w0 h0).1) (by simp)
    · exact (h5 w hw).2
  parses := by
    intro p v v' code _ ht hr hv
    obtain ⟨hg, ht⟩ := true_yields hS h0 ht
    rcases source_there hS hg with h4 | ⟨h4, code', h5, h6⟩
    · exact absurd ((h4 w0 h0).1.symm.trans (ht w0 h0).1) (by simp)
    rw [read_cases h0 hg h4 h5] at hr
    cases hr
    unfold guarded
    simp only []
    rw [if_pos ⟨p, hg, h4, h5⟩]
    refine (guardOp_cases _ h0 v').2 hv fun w hw => ?_
    rcases h6 with ⟨infos, h6⟩ | h6
    · exact (h6 w hw).2
    · exact (h6 w hw).2

theorem guarded_returns : (guarded S I env w0).Returns where
  findSpec x v := by
    rcases find_cases hS h0 x v with ⟨spec', q, h3, _⟩ | ⟨_, h3 | h3⟩ <;> rw [h3] <;> simp
  findSpecRel _ _ _ := nofun
  popModule _ _ := nofun
  delModule _ _ := nofun
  isPackage _ _ := nofun
  nodeForSpec sp _ v := by
    by_cases hg : GoodSpec S I env sp
    · obtain ⟨p, hp⟩ := good_yields hS hg
      rw [node_cases h0 hg hp]
      simp
    · unfold guarded
      simp only []
      rw [if_neg hg]
      nofun
  loadScript p v := by
    by_cases ha : S.asksScript p
    · obtain ⟨r', h1, h2⟩ := hS.script p ha
      rw [script_cases h0 ha h2]
      simp
    · unfold guarded
      simp only []
      rw [if_neg ha]
      nofun
  parseSource src v := by
    cases ha : S.sources src with
    | some infos =>
      rw [source_cases h0 ha (hS.source src _ ha)]
      simp
    | none =>
      unfold guarded
      simp only []
      rw [if_neg (by simp [ha])]
      nofun
  distributionNamed name v := by
    by_cases ha : ∃ d, S.dists name = some d ∧ S.asksDist d
    · obtain ⟨d, h1, h2⟩ := ha
      rw [dist_cases h0 h1 h2 (hS.distribution name d h1 h2)]
      simp
    · unfold guarded
      simp only []
      rw [if_neg ha]
      nofun
  isFile p v := by
    by_cases hg : GoodSource S p
    · rcases source_there hS hg with h4 | ⟨h4, _⟩ <;> rw [isFile_cases h0 hg h4] <;> simp
    · unfold guarded
      simp only []
      rw [if_neg hg]
      nofun
  readBytes p v := by
    by_cases hg : GoodSource S p ∧ Yields I (env.isFile p) true
    · rcases source_there hS hg.1 with h4 | ⟨h4, code, h5, _⟩
      · exact absurd ((h4 w0 h0).1.symm.trans (hg.2 w0 h0).1) (by simp)
      · rw [read_cases h0 hg.1 h4 h5]
        simp
    · unfold guarded
      simp only []
      rw [if_neg hg]
      nofun
  compileAst code v := by
    by_cases hg : GoodCode S I env code
    · obtain ⟨p, h1, h2, h3⟩ := id hg
      rcases source_there hS h1 with h4 | ⟨h4, code', h5, h6⟩
      · exact absurd ((h4 w0 h0).1.symm.trans (h2 w0 h0).1) (by simp)
      · obtain rfl := Except.ok.inj ((h5 w0 h0).1.symm.trans (h3 w0 h0).1)
        rcases h6 with ⟨infos, h6⟩ | h6 <;> rw [parse_cases h0 hg fun w hw => (h6 w hw).1] <;> simp
    · unfold guarded
      simp only []
      rw [if_neg hg]
      nofun

omit hS h0 in
theorem find_flag (x : Str) (v : W × Bool) (hv : v.2 = false) : ((guarded S I env w0).findSpec x v).2.2 = false := by
  unfold guarded
  simp only []
  split
  · unfold guardOp
    rw [if_neg (by simp [hv])]
  · rfl

theorem guarded_fakes (he : S.mods [] = none) : (guarded S I env w0).KeepsFakes where
  stays := by
    intro pkg b dir v e v' _ hse
    have hse := congrArg Prod.snd (search_eq hse)
    rw [resolve_find hS h0] at hse
    simp only [] at hse
    have : v'.2 = false := by rw [← hse]; exact find_flag _ _ rfl
    show (if _ then _ else true) = true
    rw [this]
    rfl
  empty := by
    intro v sp h
    rcases find_cases hS h0 [] v with ⟨spec', q, _, h4, _⟩ | ⟨_, h3 | h3⟩
    · rw [he] at h4; cases h4
    · rw [h] at h3; cases h3
    · rw [h] at h3; cases h3

theorem guarded_makes (hT : S.Tame) : (guarded S I env w0).MakesModules := by
  intro spec v n imports h
  by_cases hg : GoodSpec S I env spec
  · obtain ⟨x, p, w, h1, h2, h3⟩ := hg
    obtain ⟨spec', h4, _, h5⟩ := hS.found x p h1 w h2
    rw [h3] at h4
    cases h4
    rw [node_cases h0 ⟨x, p, w, h1, h2, h3⟩ h5] at h
    cases h
    exact .inl (hT.loaded _ _ _ h1)
  · unfold guarded at h
    simp only [] at h
    rw [if_neg hg] at h
    cases h

end
end Verif.Guard
