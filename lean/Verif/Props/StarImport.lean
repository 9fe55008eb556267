import Verif.Proofs.DepthFirst
import Verif.Props.FromImportRun
/-!
# C41: star imports

The English claim is false of the code; `C41_alias`, `C41_submodule`, `C41_sibling` and `C41_cycle`
show where names are lost.  What holds is stated in the other theorems.
-/
namespace Verif.Props
open Verif Spec

variable {W : Type}

/-- C41, one import: if no call failed and the queue is empty then, for every `from M import *` that
was found, the names that the module or package `M` writes itself are global names of the importing
module.  (The names `M` gets from its own star imports: see below.) -/
theorem C41_star_partial (env : Env W) (hM : ∀ k i n, (env.userMissing k i n).Passive) (n : Nat)
    (p : Hook W) (w : W) (stdlib : List (Str × Implies)) (builtin : Bool) :
    let s := (runClient env n p (initState w stdlib builtin)).2
    Event.failed ∉ s.log → s.stack = [] →
    ∀ m i (b : Node), Event.imported m i b.ident ∈ s.log → i.starImport = true → b ∈ s.nodes →
      (b.isPackage = true ∨ b.isModule = true) → ∀ x ∈ b.globalsWritten, x ∈ s.gw m := by
  intro s hf hst m i b hi hstar hb hk x hx
  obtain ⟨hK, _⟩ := client_completed env n p w stdlib builtin
  change NlKnown s at hK
  rcases C40_queued env hM n p w stdlib builtin m i b.ident hi with ⟨a, b', h1, h2, h3, h4⟩ | ⟨b', h3, h2, h4⟩
  · change b' ∈ s.nodes at h3
    have := UniqueIds.eq hK.uniq h3 hb h2
    subst this
    have hs : Event.started (.nl a b' i) ∈ s.log := by
      rcases h4 with h4 | h4
      · change _ ∈ s.stack at h4; rw [hst] at h4; cases h4
      · exact h4
    rw [← h1]
    exact client_stars env (fun k i n => Hook.Passive.only (hM k i n)) n p w stdlib builtin hf
      [.nl a b' i] a.ident b' (.snoc (l := []) (.nil _) hstar hk)
      (by unfold StartedInOrder; simpa using hs) hb x hx
  · exfalso
    change b' ∈ s.nodes at h3
    have := UniqueIds.eq hK.uniq h3 hb h2
    subst this
    unfold Node.isPackage Node.isModule at hk
    unfold Node.isInvalidRel at h4
    cases hkk : b'.kind <;> simp_all

/-- C41, chains: if the name lists of a chain of star imports were processed deepest first, then the
names of the last module of the chain are global names of the first. -/
theorem C41_chain_partial (env : Env W) (hH : ∀ k i n, (env.userMissing k i n).Only ApiOp.NoRun)
    (n : Nat) (p : Hook W) (w : W) (stdlib : List (Str × Implies)) (builtin : Bool) :
    let s := (runClient env n p (initState w stdlib builtin)).2
    Event.failed ∉ s.log →
    ∀ (chain : List Item) (a : Str) (c : Node), StarChain chain a c.ident →
      StartedInOrder chain s.log → c ∈ s.nodes → ∀ x ∈ c.globalsWritten, x ∈ s.gw a := by
  intro s hf chain a c h1 h2 h3 x hx
  exact client_stars env hH n p w stdlib builtin hf chain a c h1 h2 h3 x hx

/-- C41, depth first: when module `n` was loaded while the import statement `i` of module `m` was
processed, then the name list of each import statement `j` of `n` was processed before the name list
of `i` (unless `j` points outside of its package and has no name list). -/
theorem C41_depth_first (env : Env W) (hM : ∀ k i n, (env.userMissing k i n).Passive) (n : Nat)
    (p : Hook W) (w : W) (stdlib : List (Str × Implies)) (builtin : Bool) :
    let s := (runClient env n p (initState w stdlib builtin)).2
    Event.failed ∉ s.log → s.stack = [] →
    ∀ m i t n infos later, LoadedBy s.log m i t n infos later → ∀ j ∈ infos,
      (∃ X Z, IsNameList m i X ∧ IsNameList n j Z ∧
        [Event.started Z, .started X].Sublist later) ∨
      ∃ t : Node, t ∈ s.nodes ∧ t.isInvalidRel = true ∧ .imported n j t.ident ∈ later := by
  intro s hf hst m i t n' infos later hL j hj
  have hh : s.hidden = [] := by
    show (runClient env n p (initState w stdlib builtin)).2.hidden = []
    rw [client_hidden]; exact (initState_fields w stdlib builtin).1
  have hp : pending s = [] := by simp [pending, hh, hst]
  have hD := (client_deep env hM n p w stdlib builtin).resolve_left hf m i t n' infos later hL j hj
  change Progress m i n' j [] s later at hD
  cases hD with
  | waits h1 h2 h3 => rw [hp] at h3; simp at h3
  | busy h1 h2 h3 h4 => cases h4
  | names h1 h2 h3 => rw [hp] at h3; simp at h3
  | last h1 h2 h3 h4 => rw [hp] at h3; cases h3
  | done h1 h2 h3 => exact .inl ⟨_, _, h1, h2, h3⟩
  | invalid h1 h2 h3 => exact .inr ⟨_, h2, h3, h1⟩

theorem chain_snoc {ch : List Event} {Z X : Event} {log : List Event} (h : (ch ++ [Z]).Sublist log)
    (h' : [Z, X].Sublist log) (hu : ∀ p q : Nat, log[p]? = some Z → log[q]? = some Z → p = q) :
    (ch ++ [Z, X]).Sublist log := by
  obtain ⟨r1, r2, hr, h1, h2⟩ := List.append_sublist_iff.mp h
  obtain ⟨a, b, rfl⟩ := List.append_of_mem (List.singleton_sublist.mp h2)
  obtain ⟨u1, u2, hr', h3, h4⟩ := List.append_sublist_iff.mp
    (show ([Z] ++ [X]).Sublist log from h')
  obtain ⟨c, d, rfl⟩ := List.append_of_mem (List.singleton_sublist.mp h3)
  have e1 : log = (r1 ++ a) ++ Z :: b := by rw [hr]; simp
  have e2 : log = c ++ Z :: (d ++ u2) := by rw [hr']; simp
  have hlen : (r1 ++ a).length = c.length := by
    apply hu
    · rw [e1]; simp
    · rw [e2]; simp
  have e3 := (List.append_inj (e1.symm.trans e2) hlen).2
  simp at e3
  rw [e1, e3]
  have hx : [Z, X].Sublist (Z :: (d ++ u2)) :=
    List.Sublist.cons_cons _ (List.singleton_sublist.mpr
      (List.mem_append_right _ (List.singleton_sublist.mp h4)))
  exact (h1.trans (List.sublist_append_left ..)).append hx

/-- C41, chains of modules that were loaded for the star imports that name them: the names of the
last module are global names of the first. -/
theorem C41_loaded_chain_partial (env : Env W) (hM : ∀ k i n, (env.userMissing k i n).Passive)
    (n : Nat) (p : Hook W) (w : W) (stdlib : List (Str × Implies)) (builtin : Bool) :
    let s := (runClient env n p (initState w stdlib builtin)).2
    Event.failed ∉ s.log → s.stack = [] →
    ∀ m i (c : Node) l, LoadChain s.log m i c.ident l → c ∈ s.nodes →
      (∀ t ∈ l, ∃ b ∈ s.nodes, b.ident = t ∧ (b.isPackage = true ∨ b.isModule = true)) →
      ∀ x ∈ c.globalsWritten, x ∈ s.gw m := by
  intro s hf hst m i c l hL hc hl x hx
  obtain ⟨hK, _⟩ := client_completed env n p w stdlib builtin
  change NlKnown s at hK
  have kind : ∀ b ∈ s.nodes, (b.isPackage = true ∨ b.isModule = true) → b.isInvalidRel = false := by
    intro b _ hk
    unfold Node.isPackage Node.isModule at hk
    unfold Node.isInvalidRel
    cases hkk : b.kind <;> simp_all
  have queued : ∀ m i t, Event.imported m i t ∈ s.log →
      (∃ b ∈ s.nodes, b.ident = t ∧ (b.isPackage = true ∨ b.isModule = true)) →
      ∃ a b, a.ident = m ∧ b.ident = t ∧ Event.started (.nl a b i) ∈ s.log ∧
        (b.isPackage = true ∨ b.isModule = true) := by
    rintro m i t hi ⟨b0, hb0, he0, hk0⟩
    rcases C40_queued env hM n p w stdlib builtin m i t hi with ⟨a, b, h1, h2, h3, h4⟩ | ⟨b, h3, h2, h4⟩
    · change b ∈ s.nodes at h3
      have := UniqueIds.eq hK.uniq h3 hb0 (h2.trans he0.symm)
      subst this
      refine ⟨a, b, h1, h2, ?_, hk0⟩
      rcases h4 with h4 | h4
      · change _ ∈ s.stack at h4; rw [hst] at h4; cases h4
      · exact h4
    · exfalso
      change b ∈ s.nodes at h3
      have := UniqueIds.eq hK.uniq h3 hb0 (h2.trans he0.symm)
      subst this
      rw [kind b h3 hk0] at h4; cases h4
  have key : ∃ ch X, IsNameList m i X ∧ StarChain (ch ++ [X]) m c.ident ∧
      ((ch ++ [X]).map Event.started).Sublist s.log ∧ Once s.log m i ∧
      ∃ t, (∃ b ∈ s.nodes, b.ident = t ∧ (b.isPackage = true ∨ b.isModule = true)) ∧
        .imported m i t ∈ s.log := by
    generalize c.ident = cid at hL ⊢
    induction hL with
    | @one m i cid h1 h2 h3 =>
      obtain ⟨a, b, rfl, rfl, h4, h5⟩ := queued m i cid h2 (hl cid (by simp))
      exact ⟨[], .nl a b i, ⟨a, b, rfl, rfl⟩, .snoc (l := []) (.nil _) h1 h5, by simpa using h4, h3, _,
        hl _ (by simp), h2⟩
    | @cons m i t infos later j cid l h1 h2 h3 h4 h5 ih =>
      obtain ⟨ch, Z, g1, g2, g3, g4, t', g5, g6⟩ := ih fun t ht => hl t (List.mem_cons_of_mem _ ht)
      have hi : Event.imported m i t ∈ s.log := by
        obtain ⟨_, _, _, _, he, _⟩ := h2
        change s.log = _ at he
        rw [he]; simp
      have hlater : later.Sublist s.log := by
        obtain ⟨before, M, during, _, he, _⟩ := h2
        change s.log = _ at he
        rw [he]
        exact ((List.sublist_cons_self _ _).trans (List.sublist_append_right _ _)).trans
          ((List.sublist_cons_self _ _).trans (List.sublist_append_right _ _))
      obtain ⟨a, b, ha, hb, g7, g8⟩ := queued m i t hi (hl t (by simp))
      rcases C41_depth_first env hM n p w stdlib builtin hf hst m i t t infos later h2 j h4 with
        ⟨X, Z', k1, k2, k3⟩ | ⟨t'', k1, k2, k3⟩
      · have k3' := k3.trans hlater
        have same : ∀ {m i X Y}, Once s.log m i → IsNameList m i X → IsNameList m i Y →
            Event.started X ∈ s.log → Event.started Y ∈ s.log → X = Y := by
          intro m i X Y ho hX hY h1 h2
          obtain ⟨p, hp⟩ := List.mem_iff_getElem?.mp h1
          obtain ⟨q, hq⟩ := List.mem_iff_getElem?.mp h2
          have := ho.names p q X Y hX hY hp hq
          subst this
          rw [hp] at hq
          cases hq; rfl
        have hZ : Z' = Z := same g4 k2 g1 (k3'.subset (by simp)) (g3.subset (by simp))
        have hX : X = .nl a b i := same h3 k1 ⟨a, b, rfl, ha⟩ (k3'.subset (by simp)) g7
        subst hZ
        subst hX
        refine ⟨ch ++ [Z'], .nl a b i, ⟨a, b, rfl, ha⟩, ?_, ?_, h3, t, hl t (by simp), hi⟩
        · rw [← ha]
          exact .snoc (hb ▸ g2) h1 g8
        · have := chain_snoc (ch := ch.map Event.started) (by simpa using g3) k3'
            (fun p q hp hq => g4.names p q Z' Z' k2 k2 hp hq)
          simpa using this
      · exfalso
        have k3' := hlater.subset k3
        obtain ⟨p, hp⟩ := List.mem_iff_getElem?.mp k3'
        obtain ⟨q, hq⟩ := List.mem_iff_getElem?.mp g6
        have := g4.imported p q _ _ hp hq
        subst this
        rw [hp] at hq
        simp only [Option.some.injEq, Event.imported.injEq, true_and] at hq
        obtain ⟨b0, hb0, he0, hk0⟩ := g5
        have := UniqueIds.eq hK.uniq k1 hb0 (hq.trans he0.symm)
        subst this
        rw [kind _ hb0 hk0] at k2; cases k2
  obtain ⟨ch, X, _, h1, h2, _⟩ := key
  exact client_stars env (fun k i n => Hook.Passive.only (hM k i n)) n p w stdlib builtin hf
    (ch ++ [X]) m c h1 h2 hc x hx

/-! ## Examples and counterexamples -/

/-- `from name import *` -/
def starImp (name : Str) : ImportInfo := Demo.fromImp 0 name [c!"*"]

/-- `c` writes `x`.  `a` does `from b import *` and `b` does `from c import *`; the package `p` does
`from c import *` and `p.q` does `from p import *`; `p.r` does `from c import *`, `p.s` does `from p.r
import *` and `m` does `from p import r, s`; `e` does `from c import *` and `from f import *`, and `f`
does `from e import *`; `u` does `from al import *`. -/
def starTable : Demo.Table where
  mods := [(c!"a", Demo.src c!"a", [starImp c!"b"]),
    (c!"b", Demo.src c!"b" [c!"y"], [starImp c!"c"]),
    (c!"c", Demo.src c!"c" [c!"x"], []),
    (c!"p", Demo.pkg c!"p" [] [c!"v"], [starImp c!"c"]),
    (c!"p.q", Demo.src c!"p.q", [starImp c!"p"]),
    (c!"p.r", Demo.src c!"p.r", [starImp c!"c"]),
    (c!"p.s", Demo.src c!"p.s", [starImp c!"p.r"]),
    (c!"m", Demo.src c!"m", [Demo.fromImp 0 c!"p" [c!"r", c!"s"]]),
    (c!"e", Demo.src c!"e", [starImp c!"c", starImp c!"f"]),
    (c!"f", Demo.src c!"f", [starImp c!"e"]),
    (c!"u", Demo.src c!"u", [starImp c!"al"])]

/-- The hypotheses of `C41_star_partial` are met by `b`. -/
example :
    let s := (Demo.run starTable [.addModule c!"a"]).2
    Event.failed ∉ s.log ∧ s.stack = [] ∧ (starImp c!"c").starImport = true ∧
      Event.imported c!"b" (starImp c!"c") c!"c" ∈ s.log ∧
      (s.find c!"c").map Node.isModule = some true ∧
      (s.find c!"c").map Node.globalsWritten = some [c!"x"] ∧ c!"x" ∈ s.gw c!"b" := by
  decide +kernel

theorem noStart_of_all {l : List Event}
    (h : l.all (fun e => match e with | .started _ => false | _ => true) = true) : NoStart l := by
  intro it hm
  have := List.all_eq_true.mp h _ hm
  cases this

theorem pos_unique {α : Type} {f : α → Bool} {l : List α} (h : l.countP f ≤ 1) {p q : Nat} {x y : α}
    (hp : l[p]? = some x) (hq : l[q]? = some y) (hx : f x = true) (hy : f y = true) : p = q := by
  induction l generalizing p q with
  | nil => simp at hp
  | cons a l ih =>
    have none : ∀ (r : Nat) z, f a = true → l[r]? = some z → f z = true → False := by
      intro r z ha hz hf
      have h1 : 0 < l.countP f := List.countP_pos_iff.mpr ⟨z, List.mem_of_getElem? hz, hf⟩
      rw [List.countP_cons_of_pos ha] at h
      omega
    cases p with
    | zero =>
      cases q with
      | zero => rfl
      | succ q =>
        simp at hp hq; subst hp
        exact (none q y hx hq hy).elim
    | succ p =>
      cases q with
      | zero =>
        simp at hp hq; subst hq
        exact (none p x hy hp hx).elim
      | succ q =>
        simp at hp hq
        have hle : l.countP f ≤ 1 := by
          rw [List.countP_cons] at h; split at h <;> omega
        rw [ih hle hp hq]

theorem once_of_count {log : List Event} {m : Str} {i : ImportInfo}
    (h1 : log.countP (fun e => match e with | .imported a j _ => a == m && j == i | _ => false) ≤ 1)
    (h2 : log.countP (fun e => match e with
      | .started (.nl a _ j) => a.ident == m && j == i | _ => false) ≤ 1) : Once log m i := by
  constructor
  · intro p q t t' hp hq
    exact pos_unique h1 hp hq (by simp) (by simp)
  · rintro p q X Y ⟨a, b, rfl, ha⟩ ⟨a', b', rfl, ha'⟩ hp hq
    exact pos_unique h2 hp hq (by simp [ha]) (by simp [ha'])

/-- The hypotheses of `C41_loaded_chain_partial` are met by `a`, `b`, `c`; the name `x` is passed on to
`a`. -/
example :
    let s := (Demo.run starTable [.addModule c!"a"]).2
    LoadChain s.log c!"a" (starImp c!"b") c!"c" [c!"b", c!"c"] ∧ c!"x" ∈ s.gw c!"a" ∧
      Event.failed ∉ s.log ∧ s.stack = [] ∧
      [c!"b", c!"c"].map (fun t => (s.find t).map Node.isModule) = [some true, some true] := by
  intro s
  refine ⟨.cons (infos := [starImp c!"c"]) (later := s.log.drop 4) (by decide +kernel)
    ⟨s.log.take 1, Demo.src c!"a", (s.log.drop 2).take 1, rfl, by decide +kernel,
      noStart_of_all (by decide +kernel), by decide +kernel⟩
    (once_of_count (by decide +kernel) (by decide +kernel)) (List.mem_singleton.mpr rfl)
    (.one (by decide +kernel) (by decide +kernel)
      (once_of_count (by decide +kernel) (by decide +kernel))), ?_⟩
  decide +kernel

/-- The hypotheses of `C41_chain_partial` are met by `a`, `b`, `c`. -/
example :
    let s := (Demo.run starTable [.addModule c!"a"]).2
    let c := Demo.src c!"c" [c!"x"]
    let b := Demo.src c!"b" [c!"y"]
    let chain := [Item.nl b c (starImp c!"c"), .nl (Demo.src c!"a") b (starImp c!"b")]
    StarChain chain c!"a" c!"c" ∧ StartedInOrder chain s.log ∧ c ∈ s.nodes := by
  intro s c b chain
  refine ⟨?_, ?_, by decide +kernel⟩
  · exact .snoc (l := [.nl b c (starImp c!"c")]) (a := Demo.src c!"a") (b := b)
      (.snoc (l := []) (a := b) (b := c) (.nil _) (by decide +kernel) (.inr (by decide +kernel)))
      (by decide +kernel) (.inr (by decide +kernel))
  · exact List.isSublist_iff_sublist.mp (by decide +kernel)

/-- The names written in `m` count as written in `a`: what the English claim demands of a completed
star import. -/
def StarComplete (s : St W) (a m : Str) : Prop := ∀ x ∈ s.gw m, x ∈ s.gw a

/-- C41 is false, packages: a submodule is processed before the star imports of its package. -/
theorem C41_submodule :
    let s := (Demo.run starTable [.addModule c!"p.q"]).2
    Event.failed ∉ s.log ∧ s.stack = [] ∧
      Event.imported c!"p.q" (starImp c!"p") c!"p" ∈ s.log ∧ ¬ StarComplete s c!"p.q" c!"p" := by
  intro s
  refine ⟨by decide +kernel, by decide +kernel, by decide +kernel, fun h => ?_⟩
  exact absurd (h c!"x" (by decide +kernel)) (by decide +kernel)

/-- C41 is false, siblings: of two modules imported by the same statement the second is processed
before the star imports of the first. -/
theorem C41_sibling :
    let s := (Demo.run starTable [.addModule c!"m"]).2
    Event.failed ∉ s.log ∧ s.stack = [] ∧
      Event.imported c!"p.s" (starImp c!"p.r") c!"p.r" ∈ s.log ∧ ¬ StarComplete s c!"p.s" c!"p.r" := by
  intro s
  refine ⟨by decide +kernel, by decide +kernel, by decide +kernel, fun h => ?_⟩
  exact absurd (h c!"x" (by decide +kernel)) (by decide +kernel)

/-- C41 is false, import cycles: `e` has imported all names of `c` when `f` is imported, but its import
statements are processed in reverse order. -/
theorem C41_cycle :
    let s := (Demo.run starTable [.addModule c!"e"]).2
    Event.failed ∉ s.log ∧ s.stack = [] ∧
      Event.imported c!"f" (starImp c!"e") c!"e" ∈ s.log ∧ ¬ StarComplete s c!"f" c!"e" := by
  intro s
  refine ⟨by decide +kernel, by decide +kernel, by decide +kernel, fun h => ?_⟩
  exact absurd (h c!"x" (by decide +kernel)) (by decide +kernel)

/-- C41 is false, aliases: a star import of an alias, like `from os.path import *`, brings no
names. -/
theorem C41_alias :
    let s := (Demo.run starTable
      [.addImplies [(c!"al", .alias c!"c")], .addModule c!"u"]).2
    Event.failed ∉ s.log ∧ s.stack = [] ∧
      Event.imported c!"u" (starImp c!"al") c!"al" ∈ s.log ∧
      (s.find c!"al").map Node.kind = some (.alias c!"c") ∧ ¬ StarComplete s c!"u" c!"c" := by
  intro s
  refine ⟨by decide +kernel, by decide +kernel, by decide +kernel, by decide +kernel, fun h => ?_⟩
  exact absurd (h c!"x" (by decide +kernel)) (by decide +kernel)

end Verif.Props
