import Verif.Proofs.ProjectTame
import Verif.Proofs.ProjectCode
/-!
# The outside world of a project
-/
namespace Verif.Proj
open Verif Spec
variable {W : Type} {α β : Type}

/-- The operation returns a value with `Q` in worlds with `I`, and leaves such a world. -/
def Gets (I : W → Prop) (x : Ext W α) (Q : α → Prop) : Prop := ∀ w, I w → ∃ a, (x w).1 = .ok a ∧ Q a ∧ I (x w).2

theorem Gets.bind {I : W → Prop} {x : Ext W α} {f : α → Ext W β} {Q : α → Prop} {R : β → Prop} (h : Gets I x Q)
    (hf : ∀ a, Q a → Gets I (f a) R) : Gets I (Ext.bind x f) R := by
  intro w hw
  obtain ⟨a, h1, h2, h2'⟩ := h w hw
  obtain ⟨b, h3, h4, h5⟩ := hf a h2 (x w).2 h2'
  refine ⟨b, ?_⟩
  unfold Ext.bind
  rcases hx : x w with ⟨r, w'⟩
  rw [hx] at h1 h3 h5
  simp only at h1 h3
  subst h1
  exact ⟨h3, h4, h5⟩

theorem Gets.pure {I : W → Prop} {a : α} {Q : α → Prop} (h : Q a) : Gets I (Ext.pure a) Q := fun _ hw => ⟨a, rfl, h, hw⟩

theorem Gets.catching {I : W → Prop} {x h : Ext W α} {p : Exc → Bool} {Q : α → Prop} (hx : Gets I x Q) :
    Gets I (Ext.catching x p h) Q := by
  intro w hw
  obtain ⟨a, h1, h2, h3⟩ := hx w hw
  refine ⟨a, ?_⟩
  unfold Ext.catching
  rcases hx : x w with ⟨r, w'⟩
  rw [hx] at h1 h3
  simp only at h1
  subst h1
  exact ⟨rfl, h2, h3⟩

theorem Gets.of {I : W → Prop} {x : Ext W α} {a : α} (h : Yields I x a) : Gets I x (· = a) :=
  fun w hw => ⟨a, (h w hw).1, rfl, (h w hw).2⟩

theorem Gets.yields {I : W → Prop} {x : Ext W α} {a : α} (h : Gets I x (· = a)) : Yields I x a := by
  intro w hw
  obtain ⟨b, h1, rfl, h2⟩ := h w hw
  exact ⟨h1, h2⟩

theorem Gets.caught {I : W → Prop} {x h : Ext W α} {p : Exc → Bool} {Q : α → Prop} {e : Exc} (hx : Fails I x e)
    (hp : p e = true) (hh : Gets I h Q) : Gets I (Ext.catching x p h) Q := by
  intro w hw
  obtain ⟨h1, h3⟩ := hx w hw
  obtain ⟨a, h4, h5, h6⟩ := hh _ h3
  refine ⟨a, ?_⟩
  unfold Ext.catching
  rcases hx : x w with ⟨r, w'⟩
  rw [hx] at h1 h3 h4 h6
  simp only at h1
  subst h1
  simp only [hp, if_true]
  exact ⟨h4, h5, h6⟩

theorem Fails.bind {I : W → Prop} {x : Ext W α} {f : α → Ext W β} {e : Exc} (h : Fails I x e) :
    Fails I (Ext.bind x f) e := by
  intro w hw
  obtain ⟨h1, h2⟩ := h w hw
  unfold Ext.bind
  rcases hx : x w with ⟨r, w'⟩
  rw [hx] at h1 h2
  simp only at h1
  subst h1
  exact ⟨rfl, h2⟩

section
variable {P : Project} {I : W → Prop} {env : Env W} {L : Loaders W} {T : Texts W}

/-- The records of the scanners for the modules of a project. -/
def records (P : Project) (L : Loaders W) (x : Str) : List ImportInfo :=
  match P.item x with
  | some (.source _ _ tree _ _) | some (.package _ _ tree _ _ _ _) | some (.invalid _ (some tree))
  | some (.invalidPackage _ (some tree) _ _) =>
    extractAstInfo L.order tree
  | some (.compiled _ code _ _ _) | some (.compiledPackage _ code _ _ _ _ _) =>
    match extractBytecodeInfo L.new code with
    | .ok r => r.1
    | .error _ => []
  | _ => []

/-- They are those of the statements in the text. -/
theorem scan (hl : L.order.Ok) (hS : P.Shows I env L T) : Scan P (records P L) where
  text := by
    intro x pkg tree h
    unfold Project.text at h
    unfold records
    split at h
    case h_7 => cases h
    all_goals
      rename_i hi
      simp only [hi]
      cases h
    · exact .ast hl _
    · exact .ast hl _
    · obtain ⟨h1, imports, h2⟩ := hS.code _ _ _ _ _ _ (.inl hi)
      rw [h2]
      exact .code h1 h2
    · obtain ⟨h1, imports, h2⟩ := hS.code _ _ _ _ _ _ (.inr ⟨_, _, hi⟩)
      rw [h2]
      exact .code h1 h2
    · exact .ast hl _
    · exact .ast hl _
  none := by
    intro x h
    unfold Project.text at h
    unfold records
    split at h <;> simp_all

theorem found_node (hS : P.Shows I env L T) {x : Str} {it : Spec.Item} (hi : P.item x = some it) {w : W} (hw : I w)
    {spec : Verif.Spec} (hf : (env.findSpec x w).1 = .ok (some spec)) (k : Nat) :
    Gets I (nodeForSpec L (k + 1) spec) (· = (P.node x, records P L x)) := by
  obtain ⟨_, spec', h1, h2, h3⟩ := hS.found x it hi w hw
  rw [hf] at h1
  cases h1
  subst h2
  have hpk := hS.isPackage spec it ⟨w, hw, hf⟩ hi
  have hsrc := fun {file text tree g r} => hS.source spec file text tree g r ⟨w, hw, hf⟩
  have hdf := fun {file text tree g r path data} => hS.datafiles spec.name file text tree g r path data
  have hds := fun {file} => hS.distribution spec.name it file hi
  -- the branch for source modules
  have inspect : ∀ {file text tree g r}, spec.loader = .inspect → spec.origin = some file →
      (P.item spec.name = some (.source file text tree g r) ∨
        ∃ path data, P.item spec.name = some (.package file text tree g r path data)) →
      Gets I (inspectPart L spec) fun v => v = (false,
        { node := { ident := spec.name, kind := .module .source, distribution := P.dist file, filename := some file,
                    globalsWritten := g, globalsRead := r }
          kind := .source, source := some text, imports := extractAstInfo L.order tree }) := by
    intro file text tree g r hl ho hit
    unfold inspectPart
    rw [hl, ho]
    refine Gets.bind (Q := (· = some (some text))) (Gets.catching (Gets.bind (Gets.of (hsrc hit).1) ?_)) ?_
    · rintro _ rfl
      exact .pure rfl
    rintro _ rfl
    refine Gets.bind (Q := (· = (some (extractAstInfo L.order tree), false))) ?_ ?_
    · simp only [astPart, ho]
      refine Gets.catching (Gets.bind (Gets.of (hsrc hit).2.1) ?_)
      rintro _ rfl
      exact .pure rfl
    rintro _ rfl
    refine Gets.bind (Q := fun v => ∃ imports, v = some (imports, g, r)) ?_ ?_
    · unfold codePart
      refine Gets.catching (Gets.bind (Q := fun c => ∃ code imports, c = some code ∧
        extractBytecodeInfo L.new code = .ok (imports, g, r)) ?_ ?_)
      · intro w hw
        obtain ⟨code, imports, h5, h6⟩ := (hsrc hit).2.2
        exact ⟨_, (h5 w hw).1, ⟨code, imports, rfl, h6⟩, (h5 w hw).2⟩
      · rintro _ ⟨code, imports, rfl, h6⟩
        simp only [h6]
        exact .pure ⟨_, rfl⟩
    rintro _ ⟨imports, rfl⟩
    refine Gets.bind (Gets.of (a := P.dist file) (hds ?_)) ?_
    · rcases hit with h | ⟨_, _, h⟩ <;>
      · rw [hi] at h
        cases h
        rfl
    rintro _ rfl
    exact .pure rfl
  -- the branch for code
  have inspectCode : ∀ {file code tree g r}, Comes spec file →
      (P.item spec.name = some (.compiled file code tree g r) ∨
        ∃ path data, P.item spec.name = some (.compiledPackage file code tree g r path data)) →
      (spec.loader = .inspect ∨ spec.loader = .frozen) ∧ decide (spec.loader = .frozen) = decide (file = none) ∧
      Gets I (inspectPart L spec) fun v => v = (false,
        { node := { ident := spec.name, kind := .module (if file = none then .frozen else .bytecode),
                    distribution := file.bind P.dist, filename := file, globalsWritten := g, globalsRead := r }
          kind := if file = none then .frozen else .bytecode, source := none, imports := records P L spec.name }) := by
    intro file code tree g r hcm hit
    obtain ⟨hgs, hgc⟩ := hS.compiled spec file code tree g r ⟨w, hw, hf⟩ hit
    obtain ⟨-, imports, hex⟩ := hS.code spec.name file code tree g r hit
    have hrec : records P L spec.name = imports := by
      rcases hit with h | ⟨_, _, h⟩ <;> simp [records, h, hex]
    have hdist : Gets I (distFor L (if spec.loader = .frozen then none else spec.origin)) (· = file.bind P.dist) := by
      cases file with
      | none => rw [show spec.loader = .frozen from hcm]; exact .pure rfl
      | some f =>
        rw [hcm.1, hcm.2]
        refine Gets.of (hds ?_)
        rcases hit with h | ⟨_, _, h⟩ <;>
        · rw [hi] at h
          cases h
          rfl
    have horig : (if spec.loader = .frozen then none else spec.origin) = file := by
      cases file with
      | none => rw [show spec.loader = .frozen from hcm]; rfl
      | some f => rw [hcm.1, hcm.2]; rfl
    have hfz : spec.loader = .frozen ↔ file = none := by
      cases file with
      | none => exact ⟨fun _ => rfl, fun _ => hcm⟩
      | some f => rw [hcm.1]; simp
    refine ⟨?_, by rw [decide_eq_decide]; exact hfz, ?_⟩
    · cases file with
      | none => exact .inr hcm
      | some f => exact .inl hcm.1
    unfold inspectPart
    refine Gets.bind (Q := (· = some none)) (Gets.catching (Gets.bind (Gets.of hgs) ?_)) ?_
    · rintro _ rfl
      exact .pure rfl
    rintro _ rfl
    refine Gets.bind (Q := (· = (none, false))) (.pure rfl) ?_
    rintro _ rfl
    refine Gets.bind (Q := (· = some (imports, g, r))) ?_ ?_
    · unfold codePart
      refine Gets.catching (Gets.bind (Gets.of hgc) ?_)
      rintro _ rfl
      simp only [hex]
      exact .pure rfl
    rintro _ rfl
    refine Gets.bind hdist ?_
    rintro _ rfl
    refine .pure ?_
    simp only [hfz] at horig
    simp [horig, hfz, hrec]
  -- the branch for what cannot be compiled
  have inspectInvalid : ∀ {file tree}, spec.loader = .inspect → spec.origin = some file → NotCompiled I L spec file tree →
      it.file = some file → records P L spec.name = (tree.map (extractAstInfo L.order)).getD [] →
      ∃ text, Gets I (inspectPart L spec) fun v => v = (false,
        { node := { ident := spec.name, kind := .module .invalid, distribution := P.dist file, filename := some file }
          kind := .invalid, source := some text, imports := records P L spec.name }) := by
    intro file tree hl ho hn hfile hrec
    obtain ⟨text, hgs, hgc, htree⟩ := hn
    have hdist := Gets.of (hds (file := file) hfile)
    refine ⟨text, ?_⟩
    unfold inspectPart
    rw [hl, ho]
    refine Gets.bind (Q := (· = some (some text))) (Gets.catching (Gets.bind (Gets.of hgs) ?_)) ?_
    · rintro _ rfl
      exact .pure rfl
    rintro _ rfl
    refine Gets.bind (Q := fun v => v.1.getD [] = records P L spec.name) ?_ ?_
    · simp only [astPart, ho]
      cases tree with
      | none => exact Gets.caught (Fails.bind htree) rfl (.pure (by simp [hrec]))
      | some t =>
        refine Gets.catching (Gets.bind (Gets.of htree) ?_)
        rintro _ rfl
        exact .pure (by simp [hrec])
    rintro ⟨l, b⟩ hlb
    refine Gets.bind (Q := (· = none)) (Gets.caught (Fails.bind hgc) rfl (.pure rfl)) ?_
    rintro _ rfl
    refine Gets.bind hdist ?_
    rintro _ rfl
    exact .pure (by simpa using hlb)
  cases it with
  | compiled file code tree g r =>
    obtain ⟨hl, -, hg⟩ := inspectCode h3 (.inl hi)
    have : nodeForSpec L (k + 1) spec = Ext.bind (inspectPart L spec) fun r =>
        if r.1 then Ext.pure (r.2.node, r.2.imports)
        else wrapPackage L spec r.2.node r.2.kind r.2.source r.2.imports := by
      rcases hl with hl | hl <;> simp only [nodeForSpec, hl]
    rw [this]
    refine Gets.bind hg ?_
    rintro _ rfl
    refine Gets.bind (Gets.of (hpk (by simp))) ?_
    rintro _ rfl
    exact .pure (by simp [Project.node, hi])
  | compiledPackage file code tree g r path data =>
    obtain ⟨h3, hs⟩ := h3
    obtain ⟨hl, hfz, hg⟩ := inspectCode h3 (.inr ⟨_, _, hi⟩)
    have : nodeForSpec L (k + 1) spec = Ext.bind (inspectPart L spec) fun r =>
        if r.1 then Ext.pure (r.2.node, r.2.imports)
        else wrapPackage L spec r.2.node r.2.kind r.2.source r.2.imports := by
      rcases hl with hl | hl <;> simp only [nodeForSpec, hl]
    rw [this]
    refine Gets.bind hg ?_
    rintro _ rfl
    refine Gets.bind (Gets.of (hpk (by simp))) ?_
    rintro _ rfl
    simp only []
    refine Gets.bind (Q := (· = (none, some path))) (.pure (by rw [hs])) ?_
    rintro _ rfl
    simp only
    have hd := hS.compiledDatafiles _ _ _ _ _ _ _ _ hi
    refine Gets.bind (Q := (· = data)) ?_ ?_
    · cases file with
      | none => exact .pure hd.symm
      | some f => exact Gets.of (hS.parent ▸ hd)
    rintro _ rfl
    exact .pure (by simp [Project.node, hi, hfz, hS.parent])
  | invalid file tree =>
    obtain ⟨hl, ho⟩ := h3
    simp only [nodeForSpec, hl]
    have hdist := Gets.of (hds (file := file) rfl)
    rcases hS.invalid spec file tree ⟨w, hw, hf⟩ hi with ⟨rfl, hgs⟩ | ⟨hn, hpk⟩
    · refine Gets.bind (Q := (· = (true,
        { node := { ident := spec.name, kind := .module .invalid, distribution := P.dist file, filename := some file }
          kind := .invalid, source := none, imports := [] }))) ?_ ?_
      · unfold inspectPart
        rw [hl, ho]
        refine Gets.bind (Q := (· = none)) (Gets.caught (Fails.bind hgs) rfl (.pure rfl)) ?_
        rintro _ rfl
        refine Gets.bind hdist ?_
        rintro _ rfl
        exact .pure rfl
      rintro _ rfl
      exact .pure (by simp [Project.node, records, hi])
    · obtain ⟨text, hg⟩ := inspectInvalid hl ho hn rfl (by cases tree <;> simp [records, hi])
      refine Gets.bind hg ?_
      rintro _ rfl
      refine Gets.bind (Gets.of hpk) ?_
      rintro _ rfl
      exact .pure (by simp [Project.node, hi])
  | invalidPackage file tree path data =>
    obtain ⟨hl, ho, hs⟩ := h3
    simp only [nodeForSpec, hl]
    obtain ⟨text, hg⟩ := inspectInvalid hl ho (hS.invalidPackage spec file tree path data ⟨w, hw, hf⟩ hi) rfl
      (by cases tree <;> simp [records, hi])
    refine Gets.bind hg ?_
    rintro _ rfl
    refine Gets.bind (Gets.of (hpk (by simp))) ?_
    rintro _ rfl
    simp only []
    refine Gets.bind (Q := (· = (none, some path))) ?_ ?_
    · simp only [namespaceType, List.not_mem_nil, decide_false, Bool.false_and, hs]
      exact .pure rfl
    rintro _ rfl
    simp only [Option.map_some]
    refine Gets.bind (Gets.of (hS.parent ▸ hS.invalidDatafiles _ _ _ _ _ hi)) ?_
    rintro _ rfl
    exact .pure (by simp [Project.node, hi, hl, hS.parent])
  | source file text tree g r =>
    obtain ⟨hl, ho⟩ := h3
    simp only [nodeForSpec, hl]
    refine Gets.bind (inspect hl ho (.inl hi)) ?_
    rintro _ rfl
    refine Gets.bind (Gets.of (hpk (by simp))) ?_
    rintro _ rfl
    exact .pure (by simp [Project.node, records, hi])
  | package file text tree g r path data =>
    obtain ⟨hl, ho, locs, hs, hplain⟩ := h3
    simp only [nodeForSpec, hl]
    refine Gets.bind (inspect hl ho (.inr ⟨_, _, hi⟩)) ?_
    rintro _ rfl
    refine Gets.bind (Gets.of (hpk (by simp))) ?_
    rintro _ rfl
    simp only []
    have hex := hS.extended _ _ _ _ _ _ _ _ hi
    refine Gets.bind (Q := (· = (P.extended spec.name, some path))) ?_ ?_
    · cases he : P.extended spec.name with
      | none =>
        rw [he] at hex
        have : (decide (c!"__import__" ∈ r) && (contains c!"pkg_resources" text || contains c!"pkgutil" text)) = false := by
          rcases hex with h | h
          · simp [h]
          · have h1 := h .pkgResources
            have h2 := h .pkgutil
            simp only [Setup.nsModule, ← contains_iff, Bool.not_eq_true] at h1 h2
            simp [h1, h2]
        simp only [namespaceType, this, hs, hplain he]
        exact .pure rfl
      | some ns =>
        rw [he] at hex
        obtain ⟨h1, h2, h3, h4⟩ := hex
        have hc : (decide (c!"__import__" ∈ r) && (contains c!"pkg_resources" text || contains c!"pkgutil" text)) = true ∧
            (if contains c!"pkg_resources" text then NsType.pkgResources else .pkgutil) = ns := by
          cases ns with
          | pkgutil =>
            have h3 := h3 rfl
            simp only [Setup.nsModule, ← contains_iff, Bool.not_eq_true] at h2 h3
            simp [h1, h2, h3]
          | pkgResources =>
            simp only [Setup.nsModule, ← contains_iff] at h2
            simp [h1, h2]
        simp only [namespaceType, hc.1, hc.2, if_true]
        refine Gets.bind (Q := (· = some path)) ?_ ?_
        · rcases h4 with h4 | ⟨⟨e, h4, h5⟩, h6⟩
          · exact Gets.catching (Gets.of h4)
          · exact Gets.caught h5 ((importFails_iff _).mpr h4) (.pure (h6 w spec hw hf))
        · rintro _ rfl
          exact .pure rfl
    rintro _ rfl
    simp only [Option.map_some]
    refine Gets.bind (Gets.of (hS.parent ▸ hdf hi)) ?_
    rintro _ rfl
    exact .pure (by simp [Project.node, records, hi, hl, hS.parent])
  | «namespace» path =>
    obtain ⟨hl, ho, hs⟩ := h3
    simp only [nodeForSpec, hl, hs]
    exact .pure (by simp [Project.node, records, hi, ho])
  | extension file =>
    obtain ⟨hl, ho⟩ := h3
    simp only [nodeForSpec, hl, ho]
    refine Gets.bind (Gets.of (hds rfl)) ?_
    rintro _ rfl
    refine Gets.bind (Gets.of (hpk (by simp))) ?_
    rintro _ rfl
    exact .pure (by simp [Project.node, records, hi])
  | builtin =>
    have hl : spec.loader = .builtin := h3
    simp only [nodeForSpec, hl]
    refine Gets.bind (Gets.of (hpk (by simp))) ?_
    rintro _ rfl
    exact .pure (by simp [Project.node, records, hi])

theorem script_found (hS : P.Shows I env L T) {path : Str} {tree : Ast} (h : P.script path = some tree) :
    Gets I (loadScript T path) (· = (extractAstInfo T.order tree, P.resolve path)) := by
  obtain ⟨bytes, source, h1, h2, h3, h4, h5⟩ := hS.script path tree h
  unfold loadScript
  refine Gets.bind (Gets.of h1) ?_
  rintro _ rfl
  refine Gets.bind (Gets.of h2) ?_
  rintro _ rfl
  refine Gets.bind (Gets.of h3) ?_
  rintro _ rfl
  refine Gets.bind (Gets.of h4) ?_
  rintro _ _
  refine Gets.bind (Gets.of h5) ?_
  rintro _ rfl
  exact .pure rfl

theorem snippet_found (hS : P.Shows I env L T) {src : Str} {tree : Ast} (h : P.snippet src = some tree) :
    Gets I (parseSource T src) (· = extractAstInfo T.order tree) := by
  unfold parseSource
  refine Gets.bind (Gets.of (hS.snippet src tree h)) ?_
  rintro _ rfl
  exact .pure rfl

/-- The environment of a project. -/
abbrev world (env : Env W) (L : Loaders W) (T : Texts W) (k : Nat) : Env W := (env.withLoaders L (k + 1)).withTexts T

variable {conf : Str → Option Implies} {mods scripts : List Str}

theorem shown (hC : P.Clear conf mods scripts) (hl : L.order.Ok) (ht : T.order.Ok) (hS : P.Shows I env L T) (k : Nat) :
    (setup P (records P L) T.order conf mods scripts).ShownIn I (world env L T k) where
  found := by
    intro x p h w hw
    obtain ⟨h1, h2, h3⟩ := mods_iff.mp h
    obtain ⟨it, hi⟩ := Option.ne_none_iff_exists'.mp h1
    obtain ⟨h4, spec, h5, _⟩ := hS.found x it hi w hw
    exact ⟨spec, h5, h4, (h2 ▸ h3 ▸ found_node hS hi hw h5 k).yields⟩
  absent := by
    intro x hx h w hw
    have := hS.absent x (rt_proper hC ((needs_iff hC (scan hl hS) ht).mp hx)) (mods_none.mp h) w hw
    exact ⟨this.2, this.1⟩
  script := by
    intro path h
    obtain ⟨tree, hs⟩ := Option.ne_none_iff_exists'.mp (hC.script path h).1
    refine ⟨_, ?_, (script_found hS hs).yields⟩
    show (P.script path).map _ = _
    rw [hs]
    rfl
  distribution := fun name d h _ => hS.installed name d h
  source := by
    intro src l h
    obtain ⟨tree, h1, rfl⟩ := Option.map_eq_some_iff.mp h
    exact (snippet_found hS h1).yields
  compiled n hn := .no (not_mypyc hC (scan hl hS) ht hn) rfl

/-- With the same modules and scripts in all worlds. -/
theorem describes (hS : P.Shows (fun _ => True) env L T) (hn : ∀ x, P.item x = none → ∀ w, (env.findSpec x w).1 = .ok none)
    (hns : ∀ path w, P.script path = none → ∃ e, (T.readFile path w).1 = .error e)
    (hnd : ∀ x w d, P.installed x = none → (env.distributionNamed x w).1 ≠ .ok (some d))
    (hnt : ∀ src w l, P.snippet src = none → (T.parse src c!"-source-code-" w).1 ≠ .ok l) (k : Nat)
    (hmy : ¬ (setup P (records P L) T.order conf mods scripts).HasMypyc) :
    (setup P (records P L) T.order conf mods scripts).Describes (world env L T k) where
  found := by
    intro x spec w w' p h1 h2
    cases hi : P.item x with
    | none =>
      replace h1 := locates_iff.mp h1
      unfold resolveSpec at h1
      have h3 : ((world env L T k).findSpec x w).1 = _ := hn x hi w
      revert h1 h3
      rcases (world env L T k).findSpec x w with ⟨r, v⟩
      rintro h1 rfl
      cases h1
    | some it =>
      obtain ⟨_, spec', h3, _⟩ := hS.found x it hi w trivial
      have h4 : ((world env L T k).findSpec x w).1 = _ := h3
      have h5 : spec' = spec := by
        replace h1 := locates_iff.mp h1
        unfold resolveSpec at h1
        revert h4 h1
        rcases (world env L T k).findSpec x w with ⟨r, v⟩
        rintro rfl h1
        cases h1
        rfl
      subst h5
      have h6 : (Except.ok (P.node x, records P L x) : Except Exc _) = .ok p :=
        ((found_node hS hi trivial h3 k).yields w' trivial).1.symm.trans h2
      cases h6
      exact mods_iff.mpr ⟨by rw [hi]; simp, rfl, rfl⟩
  absent := by
    intro x w h
    rw [mods_none]
    cases hi : P.item x with
    | none => rfl
    | some it =>
      exfalso
      obtain ⟨_, spec', h3, _⟩ := hS.found x it hi w trivial
      refine h spec' (locates_iff.mpr ?_)
      have h4 : ((world env L T k).findSpec x w).1 = _ := h3
      unfold resolveSpec
      revert h4
      rcases (world env L T k).findSpec x w with ⟨r, v⟩
      rintro rfl
      rfl
  script := by
    intro path w r h
    have h' : (loadScript T path w).1 = .ok r := h
    cases hs : P.script path with
    | none =>
      obtain ⟨e, he⟩ := hns path w hs
      unfold loadScript at h'
      obtain ⟨b, w', h1, _⟩ := Ext.bind_ok h'
      rw [h1] at he
      cases he
    | some tree =>
      obtain ⟨a, h3, rfl, _⟩ := script_found hS hs w trivial
      rw [h3] at h'
      cases h'
      show (P.script path).map _ = _
      rw [hs]
      rfl
  distribution := by
    intro x w d h
    show P.installed x = _
    cases hi : P.installed x with
    | none => exact absurd h (hnd x w d hi)
    | some d' =>
      have h2 : (env.distributionNamed x w).1 = _ := (hS.installed x d' hi w trivial).1
      have h3 : (env.distributionNamed x w).1 = .ok (some d) := h
      rw [h2] at h3
      cases h3
      rfl
  source := by
    intro src w l h
    show (P.snippet src).map _ = _
    have h' : (parseSource T src w).1 = .ok l := h
    cases hi : P.snippet src with
    | none =>
      obtain ⟨b, w', h1, _⟩ := Ext.bind_ok h'
      exact absurd (by rw [h1]) (hnt src w b hi)
    | some tree =>
      obtain ⟨a, h3, rfl, _⟩ := snippet_found hS hi w trivial
      rw [h3] at h'
      cases h'
      rfl
  compiled n hn := .no (fun file helper h => hmy ⟨n, file, helper, hn, h⟩) rfl

theorem works (hC : P.Clear conf mods scripts) (hS : P.Shows (fun _ => True) env L T)
    (hn : ∀ x, P.item x = none → ∀ w, (env.findSpec x w).1 = .ok none)
    (k : Nat) (hmy : ¬ (setup P (records P L) T.order conf mods scripts).HasMypyc) :
    (setup P (records P L) T.order conf mods scripts).Works (world env L T k) where
  compiled source w h := by
    obtain ⟨n, file, helper, h1, h2, _⟩ := h
    exact absurd ⟨n, file, helper, h1, h2⟩ hmy
  finds := by
    intro x w _
    have h : ∃ r, ((world env L T k).findSpec x w).1 = .ok r := by
      cases hi : P.item x with
      | none => exact ⟨_, hn x hi w⟩
      | some it =>
        obtain ⟨_, spec, h, _⟩ := hS.found x it hi w trivial
        exact ⟨_, h⟩
    obtain ⟨r, h⟩ := h
    exact ⟨_, .inl ⟨r, .plain (Prod.ext h rfl)⟩⟩
  reads := by
    intro x spec w w' _ h
    cases hi : P.item x with
    | none =>
      have h3 : ((world env L T k).findSpec x w).1 = _ := hn x hi w
      replace h := locates_iff.mp h
      unfold resolveSpec at h
      revert h h3
      rcases (world env L T k).findSpec x w with ⟨r, v⟩
      rintro rfl h
      cases h
    | some it =>
      obtain ⟨_, spec', h3, _⟩ := hS.found x it hi w trivial
      have h4 : ((world env L T k).findSpec x w).1 = _ := h3
      have h5 : spec' = spec := by
        replace h := locates_iff.mp h
        unfold resolveSpec at h
        revert h h4
        rcases (world env L T k).findSpec x w with ⟨r, v⟩
        rintro rfl h
        cases h
        rfl
      subst h5
      exact ⟨_, ((found_node hS hi trivial h3 k).yields w' trivial).1⟩
  scripts := by
    intro path w h
    cases hs : P.script path with
    | none => exact absurd hs (hC.script path h).1
    | some tree =>
      obtain ⟨a, h3, _⟩ := script_found hS hs w trivial
      exact ⟨a, h3⟩
  distributions := fun name d w h _ => ⟨_, (hS.installed name d h w trivial).1⟩
  sources := by
    intro src l w h
    obtain ⟨tree, h1, rfl⟩ := Option.map_eq_some_iff.mp h
    obtain ⟨a, h3, _⟩ := snippet_found hS h1 w trivial
    exact ⟨a, h3⟩

end
end Verif.Proj
