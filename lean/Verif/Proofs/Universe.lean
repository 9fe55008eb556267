import Verif.Spec.ExactSpec
import Verif.Spec.FiniteSpec
import Verif.Proofs.EdgeFacts
import Verif.Proofs.Exact
/-!
# Finitely many modules need finitely many names

For a setup with finitely many modules there is a universe of names as it is needed for C42.
-/
namespace Verif
open Spec
variable {W : Type}

namespace Univ

/-- All prefixes. -/
def prefixes (x : Str) : List Str := (List.range (x.length + 1)).map x.take

theorem mem_prefixes {x a : Str} : a ∈ prefixes x ↔ ∃ b, x = a ++ b := by
  unfold prefixes
  constructor
  · intro h
    obtain ⟨k, _, rfl⟩ := List.mem_map.mp h
    exact ⟨x.drop k, (List.take_append_drop k x).symm⟩
  · rintro ⟨b, rfl⟩
    refine List.mem_map.mpr ⟨a.length, List.mem_range.mpr (by simp; omega), by simp⟩

variable (S : Setup) (dom : List Str) (tables : List (Str × Implies)) (ops : List ApiOp)

/-- The helper module and the statements in the source of a module compiled with mypyc. -/
def fromSource (n : Node) : List Str × List ImportInfo :=
  match S.compiled n with | some (h, infos) => ([h], infos) | none => ([], [])

/-- The statements of all modules and of all scripts that are added. -/
def stmts : List (Node × ImportInfo) :=
  (dom.flatMap fun x => match S.mods x with
    | some p => (p.2 ++ (fromSource S p.1).2).map fun i => (p.1, i)
    | none => []) ++
  ops.flatMap fun o => match o with
    | .addScript p => match S.scripts p with
      | some (infos, f) => infos.map fun i => (Setup.scriptNode p f, i)
      | none => []
    | _ => []

def infoCount : Nat :=
  (dom.map fun x => match S.mods x with | some p => p.2.length + (fromSource S p.1).2.length | none => 0).sum +
  (ops.map fun o => match o with
    | .addScript p => match S.scripts p with | some (infos, _) => infos.length | none => 0
    | _ => 0).sum

open Classical in
noncomputable def abs (p : Node × ImportInfo) : List Str :=
  if h : ∃ y, Refers p.1 p.2 y then [Classical.choose h] else []
def out (p : Node × ImportInfo) : List Str :=
  [List.replicate p.2.importLevel '.' ++ p.2.importModule.name]
def impliesTargets : Implies → List Str
  | .excluded => []
  | .alias t | .virtual t => [t]
  | .refs l => l
def sourceNames (infos : List ImportInfo) : List Str :=
  infos.flatMap fun i => i.importModule.name :: i.importNames.map fun nm => i.importModule.name ++ '.' :: nm.name
def opNames (S : Setup) : ApiOp → List Str
  | .addModule x | .addScript x => [x]
  | .addDistribution d => d.importNames
  | .addDistributionNamed x => match S.dists x with | some d => d.importNames | none => []
  | .addDependenciesForSource x => match S.sources x with | some infos => sourceNames infos | none => []
  | _ => []

noncomputable def tgts : List Str :=
  (stmts S dom ops).flatMap abs ++ tables.flatMap (fun p => impliesTargets p.2) ++
    dom.filterMap fun x => (S.mods x).map fun p => p.1.ident
def mems : List Str := (stmts S dom ops).flatMap fun p => p.2.importNames.map ImpName.name
noncomputable def base : List Str :=
  tgts S dom tables ops ++
  (tgts S dom tables ops).flatMap (fun t => (mems S dom ops).map fun m => t ++ '.' :: m) ++
  (stmts S dom ops).flatMap out ++ (mems S dom ops).filterMap sixMove ++ ops.flatMap (opNames S) ++
  (dom.flatMap fun x => match S.mods x with | some p => (fromSource S p.1).1 | none => []) ++
  [c!"pkgutil", c!"pkg_resources"]

/-- The universe. -/
noncomputable def univ : Universe where
  names := (base S dom tables ops).flatMap prefixes
  targets := tgts S dom tables ops
  members := mems S dom ops
  limit := infoCount S dom ops

variable {S dom tables ops}

theorem base_names {x : Str} (h : x ∈ base S dom tables ops) : x ∈ (univ S dom tables ops).names :=
  List.mem_flatMap.mpr ⟨x, h, mem_prefixes.mpr ⟨[], by simp⟩⟩

theorem tgt_names {x : Str} (h : x ∈ tgts S dom tables ops) : x ∈ (univ S dom tables ops).names :=
  base_names (by simp only [base, List.mem_append]; simp [h])

theorem stmt_ok {n : Node} {i : ImportInfo} (h : (n, i) ∈ stmts S dom ops) :
    ImportOk (univ S dom tables ops) n i where
  absolute y hy := by
    show y ∈ tgts S dom tables ops
    unfold tgts
    refine List.mem_append_left _ (List.mem_append_left _ (List.mem_flatMap.mpr ⟨_, h, ?_⟩))
    have he : ∃ y, Refers n i y := ⟨y, hy⟩
    simp only [abs, dif_pos he, List.mem_singleton]
    exact hy.unique (Classical.choose_spec he)
  outside _ := by
    refine base_names ?_
    unfold base
    simp only [List.mem_append]
    refine .inl (.inl (.inl (.inl (.inr (List.mem_flatMap.mpr ⟨_, h, ?_⟩)))))
    simp [out]
  members m hm := List.mem_flatMap.mpr ⟨_, h, List.mem_map.mpr ⟨m, hm, rfl⟩⟩

theorem le_sum {α : Type} {l : List α} {f : α → Nat} {a : α} (h : a ∈ l) : f a ≤ (l.map f).sum := by
  induction l with
  | nil => cases h
  | cons b l ih =>
    simp only [List.map_cons, List.sum_cons]
    rcases List.mem_cons.mp h with rfl | h
    · omega
    · have := ih h; omega

theorem mods_ok {x : Str} {n : Node} {infos : List ImportInfo} (hx : x ∈ dom) (h : S.mods x = some (n, infos)) :
    ImportsOk (univ S dom tables ops) n infos := by
  constructor
  · have := le_sum (f := fun x => match S.mods x with
      | some p => p.2.length + (fromSource S p.1).2.length
      | none => 0) hx
    simp only [h] at this
    show infos.length ≤ infoCount S dom ops
    unfold infoCount
    omega
  · intro i hi
    refine stmt_ok (List.mem_append_left _ (List.mem_flatMap.mpr ⟨x, hx, ?_⟩))
    simp [h, hi]

theorem compiled_ok {x : Str} {n : Node} {infos : List ImportInfo} (hx : x ∈ dom) (h : S.mods x = some (n, infos))
    {helper : Str} {imports : List ImportInfo} (hc : S.compiled n = some (helper, imports)) :
    helper ∈ (univ S dom tables ops).names ∧ ImportsOk (univ S dom tables ops) n imports := by
  refine ⟨base_names ?_, ?_, ?_⟩
  · unfold base
    simp only [List.mem_append]
    exact .inl (.inr (List.mem_flatMap.mpr ⟨x, hx, by simp [h, fromSource, hc]⟩))
  · have := le_sum (f := fun x => match S.mods x with
      | some p => p.2.length + (fromSource S p.1).2.length
      | none => 0) hx
    simp only [h, fromSource, hc] at this
    show imports.length ≤ infoCount S dom ops
    unfold infoCount
    simp only [fromSource]
    omega
  · intro i hi
    refine stmt_ok (List.mem_append_left _ (List.mem_flatMap.mpr ⟨x, hx, ?_⟩))
    simp [h, hi, fromSource, hc]

theorem script_ok {path : Str} {infos : List ImportInfo} {f : Str} (hx : .addScript path ∈ ops)
    (h : S.scripts path = some (infos, f)) : ImportsOk (univ S dom tables ops) (Setup.scriptNode path f) infos := by
  constructor
  · have := le_sum (f := fun o : ApiOp => match o with
      | .addScript p => match S.scripts p with | some (infos, _) => infos.length | none => 0
      | _ => 0) hx
    simp only [h] at this
    show infos.length ≤ infoCount S dom ops
    unfold infoCount
    omega
  · intro i hi
    refine stmt_ok (List.mem_append_right _ (List.mem_flatMap.mpr ⟨_, hx, ?_⟩))
    simp [h, hi]

theorem finite (env : Env W) (hD : S.Describes env) (hdom : ∀ x p, S.mods x = some p → x ∈ dom)
    (hL : ∀ x n infos, S.mods x = some (n, infos) → n.isLoaded = true)
    (hmy : ∀ x n infos, S.mods x = some (n, infos) → S.CompiledIn env n) :
    FiniteImports env (univ S dom tables ops) where
  targets t ht := tgt_names ht
  parents x hx p hp := by
    obtain ⟨b, h⟩ := split_of_packageOf hp
    obtain ⟨y, hy, hx⟩ := List.mem_flatMap.mp hx
    obtain ⟨z, rfl⟩ := mem_prefixes.mp hx
    refine List.mem_flatMap.mpr ⟨_, hy, mem_prefixes.mpr ?_⟩
    obtain ⟨l, _, h | ⟨_, _, h⟩⟩ := inPackage_of_split h
    · exact ⟨'.' :: l ++ z, by rw [h]; simp⟩
    · exact ⟨l ++ z, by rw [h]; simp⟩
  members t ht m hm := by
    refine base_names ?_
    unfold base
    simp only [List.mem_append]
    exact .inl (.inl (.inl (.inl (.inl (.inr (List.mem_flatMap.mpr ⟨t, ht, List.mem_map.mpr ⟨m, hm, rfl⟩⟩))))))
  six m hm t ht := by
    refine base_names ?_
    unfold base
    simp only [List.mem_append]
    exact .inl (.inl (.inl (.inr (List.mem_filterMap.mpr ⟨m, hm, Props.sixMove_iff.mpr ht⟩))))
  modules x _ w spec w' n imports h1 h2 := by
    have h := hD.found x spec w w' _ h1 h2
    have hx := hdom x _ h
    refine ⟨.inl (hL _ _ _ h), fun _ => ?_, mods_ok hx h, ?_, fun _ _ _ _ _ => ?_, fun _ _ _ _ _ => ?_⟩
    · refine List.mem_append_right _ (List.mem_filterMap.mpr ⟨x, hx, ?_⟩)
      simp [h]
    · intro file helper hm
      cases hmy x n imports h with
      | no h1 => exact absurd hm (h1 _ _)
      | noSource h3 h4 _ h5 =>
        obtain ⟨rfl, rfl⟩ := h3.same hm
        exact ⟨_, h4, fun ⟨w, hw⟩ => absurd hw (h5 w)⟩
      | source h3 h4 h5 _ h6 =>
        obtain ⟨rfl, rfl⟩ := h3.same hm
        refine ⟨_, h4, fun _ => ⟨(compiled_ok hx h h5).1, fun w w' code l h7 h8 => ?_⟩⟩
        rw [h6 w w' code l h7 h8]
        exact (compiled_ok hx h h5).2
    · exact base_names (by simp [base])
    · exact base_names (by simp [base])

theorem table {l : List (Str × Implies)} (hl : ∀ p ∈ l, p ∈ tables) : TableOk (univ S dom tables ops) l := by
  intro p hp _
  have key : ∀ t ∈ impliesTargets p.2, t ∈ tgts S dom tables ops := fun t ht =>
    List.mem_append_left _ (List.mem_append_right _ (List.mem_flatMap.mpr ⟨p, hl p hp, ht⟩))
  cases h : p.2 with
  | excluded => trivial
  | alias t => exact key t (by simp [h, impliesTargets])
  | virtual t => exact tgt_names (key t (by simp [h, impliesTargets]))
  | refs l => exact fun r hr => tgt_names (key r (by simp [h, impliesTargets, hr]))

theorem ops_ok (env : Env W) (hD : S.Describes env)
    (ho : ∀ o ∈ ops, S.Adds o) :
    ∀ o ∈ ops, OpOk env (univ S dom tables ops) o := by
  have key : ∀ o ∈ ops, ∀ x ∈ opNames S o, x ∈ (univ S dom tables ops).names := fun o hm x hx => by
    refine base_names ?_
    unfold base
    simp only [List.mem_append]
    exact .inl (.inl (.inr (List.mem_flatMap.mpr ⟨o, hm, hx⟩)))
  intro o hm
  have ha := ho o hm
  cases o with
  | addModule x => exact key _ hm x (by simp [opNames])
  | addScript x =>
    refine ⟨key _ hm x (by simp [opNames]), fun w infos f h => ?_⟩
    exact script_ok hm (hD.script _ _ _ h)
  | addDistribution d => exact fun x hx => key _ hm x hx
  | addDistributionNamed name =>
    intro w d h x hx
    refine key _ hm x ?_
    simp only [opNames, hD.distribution _ _ _ h]
    exact hx
  | addDependenciesForSource src =>
    intro w infos h i hi
    have hsrc : ∀ x, x ∈ sourceNames infos → x ∈ (univ S dom tables ops).names := by
      intro x hx
      refine key _ hm x ?_
      simp only [opNames, hD.source _ _ _ h]
      exact hx
    refine ⟨hsrc _ ?_, fun nm hnm => hsrc _ ?_⟩
    · exact List.mem_flatMap.mpr ⟨i, hi, List.mem_cons_self ..⟩
    · exact List.mem_flatMap.mpr ⟨i, hi, List.mem_cons_of_mem _ (List.mem_map.mpr ⟨nm, hnm, rfl⟩)⟩
  | _ => exact ha.elim

end Univ
end Verif
