import Verif.Spec.DiskSpec
import Verif.Model.DistWorld
import Verif.Props.Lookup
import Verif.Props.Metadata
import Verif.Props.Shelf
/-!
# C83: badly installed distributions; C82 with the loaders and distributions that the library reads itself
-/
namespace Verif.Props
open Verif Spec
variable {V W : Type} {P : Exc → Prop}

theorem createDistribution_raises {D : DistEnv W} (hD : DiskRaises P D) (hA : P .assertion ∨ Labelled D) (d : Str) (w : W) (e : Exc)
    (h : (createDistribution D d w).1 = .error e) : e ≠ .osError → P e := by
  unfold createDistribution at h
  cases hm : D.metadata d w with
  | mk r w1 =>
    have hm1 := hD.metadata d w
    have hl : ∀ t, (D.metadata d w).1 = .ok t → P .assertion ∨
        ((strHeader c!"Name" (headers t)).isSome ∧ (strHeader c!"Version" (headers t)).isSome) := by
      intro t ht
      rcases hA with hA | hA
      · exact .inl hA
      · obtain ⟨fields, name, version, h1, h2, h3⟩ := hA d w t ht
        rw [(C77_value h1 _ _).mpr h2, (C77_value h1 _ _).mpr h3]
        exact .inr ⟨rfl, rfl⟩
    rw [hm] at h hm1 hl
    cases r with
    | error e' => cases h; exact hm1 e rfl
    | ok t =>
      have hl := hl t rfl
      simp only [] at h
      cases hn : strHeader c!"Name" (headers t) with
      | none =>
        rw [hn] at h hl
        cases h
        rcases hl with hl | hl
        · exact fun _ => hl
        · simp at hl
      | some name =>
        rw [hn] at h hl
        cases hv : strHeader c!"Version" (headers t) with
        | none =>
          rw [hv] at h hl
          cases h
          rcases hl with hl | hl
          · exact fun _ => hl
          · simp at hl
        | some version =>
          rw [hv] at h
          simp only [] at h
          have hr1 := hD.record d w1
          cases hr : D.record d w1 with
          | mk r w2 =>
            rw [hr] at h hr1
            cases r with
            | error e' => cases h; exact hr1 e rfl
            | ok t => cases h

theorem scanDir_raises {D : DistEnv W} (hD : DiskRaises P D) (hA : P .assertion ∨ Labelled D) (stop : Dist → Bool) (entry : Str) :
    ∀ (names : List Str) (s : DSt W) (e : Exc), (scanDir D stop entry names s).1 = .error e → e ≠ .osError → P e := by
  intro names
  induction names with
  | nil => intro s e h; cases h
  | cons x l ih =>
    intro s e h
    rw [scanDir] at h
    split at h
    · exact ih s e h
    · have hc : ∀ e, (cachedDistribution D (pathJoin entry x) s).1 = .error e → e ≠ .osError → P e := by
        intro e he
        unfold cachedDistribution at he
        split at he
        · cases he
        · have hcr := createDistribution_raises hD hA (pathJoin entry x) s.world
          split at he
          · rename_i hq; rw [hq] at hcr; cases he; exact hcr e rfl
          · cases he
      cases hq : cachedDistribution D (pathJoin entry x) s with
      | mk r s' =>
        rw [hq] at h hc
        cases r with
        | error e' => cases h; exact hc e rfl
        | ok o =>
          simp only [] at h
          split at h
          · cases h
          · exact ih _ e h

theorem scanPath_raises {D : DistEnv W} (hD : DiskRaises P D) (hA : P .assertion ∨ Labelled D) (stop : Dist → Bool) :
    ∀ (path : List Str) (s : DSt W) (e : Exc), (scanPath D stop path s).1 = .error e → e ≠ .osError ∧ P e := by
  intro path
  induction path with
  | nil => intro s e h; cases h
  | cons x l ih =>
    intro s e h
    rw [scanPath] at h
    have hl := hD.listdir x s.world
    cases hq : D.listdir x s.world with
    | mk r w1 =>
      rw [hq] at h hl
      cases r with
      | error e' =>
        simp only [] at h
        split at h
        · exact ih _ e h
        · rename_i hne; cases h; exact ⟨hne, hl e rfl hne⟩
      | ok names =>
        simp only [] at h
        have hd := scanDir_raises hD hA stop x names { s with world := w1 }
        cases hq2 : scanDir D stop x names { s with world := w1 } with
        | mk r s2 =>
          rw [hq2] at h hd
          cases r with
          | error e' =>
            simp only [] at h
            split at h
            · exact ih _ e h
            · rename_i hne; cases h; exact ⟨hne, hd e rfl hne⟩
          | ok o =>
            cases o with
            | some o => cases h
            | none => exact ih _ e h

/-- **C83.**  However the disk changes meanwhile, a lookup never raises `OSError`.  It raises what
reading raises, or `AssertionError`. -/
theorem C83_exceptions (P : Exc → Prop) (D : DistEnv W) (hD : DiskRaises P D) (x : Str) (path : Option (List Str)) (s : DSt W)
    (e : Exc) (h : (distributionNamed D x path s).1 = .error e ∨ (distributionForFile D x path s).1 = .error e) :
    e ≠ .osError ∧ (P e ∨ e = .assertion) := by
  have hD' : DiskRaises (fun e => P e ∨ e = .assertion) D :=
    ⟨fun x => (hD.listdir x).weaken fun _ h he => .inl (h he), fun x => (hD.metadata x).weaken fun _ h he => .inl (h he),
      fun x => (hD.record x).weaken fun _ h he => .inl (h he)⟩
  rcases h with h | h
  · exact scanPath_raises hD' (.inl (.inr rfl)) _ _ s e h
  · exact scanPath_raises hD' (.inl (.inr rfl)) _ _ s e h

/-- The `AssertionError` is for METADATA without a name or a version.  Missing: METADATA without them should be passed
over as well, see `C83_unlabelled`. -/
theorem C83_lookup_partial (P : Exc → Prop) (D : DistEnv W) (hD : DiskRaises P D) (hM : Labelled D) (x : Str) (path : Option (List Str))
    (s : DSt W) (e : Exc)
    (h : (distributionNamed D x path s).1 = .error e ∨ (distributionForFile D x path s).1 = .error e) :
    e ≠ .osError ∧ P e := by
  rcases h with h | h
  · exact scanPath_raises hD (.inr hM) _ _ s e h
  · exact scanPath_raises hD (.inr hM) _ _ s e h

theorem lookup_raises {Q : Exc → Prop} (p : DistPart V W) (f : DSt W → Except Exc (Option DObj) × DSt W)
    (h : ∀ s e, (f s).1 = .error e → Q e) : Raises Q (p.lookup f) := by
  intro v e he
  unfold DistPart.lookup at he
  have := h (p.get v)
  cases hq : (f (p.get v)).1 with
  | error e' =>
    simp only [hq, Except.map, Except.error.injEq] at he
    exact he ▸ this e' hq
  | ok o => simp [hq, Except.map] at he

/-- **C82, all together**: the methods with `node_for_spec` and with what the library reads of distributions.  The
exceptions of any careful client come from outside, or are `AssertionError`, `RuntimeError` or `ValueError`. -/
theorem C82_together (P : Exc → Prop) (D : DistEnv W) (hD : DiskRaises P D) (p : DistPart V W) (L : Loaders V) (hL : LoadersRaise P L)
    (env : Env V) (hW : WorldRaises P env) (hH : HooksCareful (OrMaking P) env) (k n : Nat) (c : Hook V)
    (hc : Careful (OrMaking P) [] c) (v : V) (stdlib : List (Str × Implies)) (builtin : Bool) (e : Exc)
    (h : (runClient ((env.withDists D p).withLoaders (L.withDists D p) k) n c (initState v stdlib builtin)).1 = .error e) :
    P e ∨ e = .assertion ∨ e = .runtimeError ∨ e = .valueError false ∨ e = .fuel := by
  have hQ : ∀ e, P e → OrMaking P e := fun _ h => .inl h
  have hL' : LoadersRaise (fun e => P e ∨ e = .assertion) (L.withDists D p) :=
    { findSpec := fun x => (hL.findSpec x).weaken fun _ h => .inl h
      getSource := fun x => (hL.getSource x).weaken fun _ h he => .inl (h he)
      parse := fun x y => (hL.parse x y).weaken fun _ h he => .inl (h he)
      getCode := fun x => (hL.getCode x).weaken fun _ h he => .inl (h he)
      isPackage := fun x => (hL.isPackage x).weaken fun _ h => .inl h
      distributionForFile := fun x => lookup_raises p _ fun s e he => (C83_exceptions P D hD x _ s e (.inr he)).2
      containsDatafiles := fun x => (hL.containsDatafiles x).weaken fun _ h => .inl h
      importPath := fun x => (hL.importPath x).weaken fun _ h he => .inl (h he)
      delModule := fun x => (hL.delModule x).weaken fun _ h => .inl h
      invalidate := hL.invalidate.weaken fun _ h => .inl h
      compiled := hL.compiled }
  have hW' : WorldRaises (OrMaking P) ((env.withDists D p).withLoaders (L.withDists D p) k) :=
    { findSpec := fun x => (hW.findSpec x).weaken hQ
      findSpecRel := fun x y => (hW.findSpecRel x y).weaken hQ
      popModule := fun x => (hW.popModule x).weaken fun _ h he => hQ _ (h he)
      delModule := fun x => (hW.delModule x).weaken hQ
      isPackage := fun x => (hW.isPackage x).weaken hQ
      nodeForSpec := fun x w e he => by
        rcases C82_node_for_spec _ _ hL' k x w e he with (h | h) | h | h | h
        · exact .inl h
        · exact .inr (.inl h)
        · exact .inr (.inl h)
        · exact .inr (.inr (.inl h))
        · exact .inr (.inr (.inr h))
      loadScript := fun x => (hW.loadScript x).weaken hQ
      parseSource := fun x => (hW.parseSource x).weaken hQ
      distributionNamed := fun x => lookup_raises p _ fun s e he => by
        rcases (C83_exceptions P D hD x _ s e (.inl he)).2 with h | h
        · exact .inl h
        · exact .inr (.inl h)
      globPy := fun x => (hW.globPy x).weaken hQ
      subdirs := fun x => (hW.subdirs x).weaken hQ
      isFile := fun x => (hW.isFile x).weaken hQ
      readBytes := fun x => (hW.readBytes x).weaken hQ
      compileAst := fun x => (hW.compileAst x).weaken hQ
      order := hW.order }
  have hH' : HooksCareful (OrMaking P) ((env.withDists D p).withLoaders (L.withDists D p) k) := ⟨hH.post, hH.missing⟩
  rcases C82_exceptions _ _ hW' hH' n c hc v stdlib builtin e h with (h | h | h | h) | h | h | h <;> simp [h]

/-! ## Examples -/

/-- The disk of the example for C75 has a directory that does not exist and METADATA that cannot be read. -/
theorem box_raises : DiskRaises (fun _ => False) Box.disk := by
  constructor
  all_goals intro x w e he hne; simp only [Box.disk] at he
  · split at he <;> cases he; exact hne rfl
  · split at he <;> cases he; exact hne rfl
  · cases he

/-- The hypotheses of `C83_lookup_partial` are met: no lookup on this disk raises anything. -/
example (x : Str) (path : Option (List Str)) (s : DSt Unit) (e : Exc) :
    (distributionNamed Box.disk x path s).1 ≠ .error e := by
  intro h
  refine (C83_lookup_partial (fun _ => False) Box.disk box_raises ?_ x path s e (.inl h)).2
  intro x w t ht
  simp only [Box.disk] at ht
  split at ht <;> cases ht
  exact ⟨_, _, _, Box.metadata, Box.says⟩

/-- It does find something, behind the directory that does not exist. -/
example : ((distributionNamed Box.disk c!"Box" none { world := () }).1.toOption.bind id).isSome = true := by decide +kernel

/-- A part of the world that is read anew every time. -/
def freshPart : DistPart Unit Unit := ⟨fun _ => { world := () }, fun _ v => v⟩

/-- A world with modules that have files. -/
def filedEnv : Env Unit :=
  { Demo.env Demo.small with
    findSpec := fun x w => (.ok (if x = c!"m" then some ⟨x, .inspect, some c!"/lib/m.py", none⟩ else none), w) }

theorem filed_raises : WorldRaises (fun e => ¬ LookupFails e) filedEnv :=
  { demo_raises Demo.small with findSpec := by rintro x w _ ⟨⟩ }

theorem code_raises : LoadersRaise (fun e => ¬ LookupFails e) codeLoaders := by
  constructor
  case getSource =>
    intro x w e he hs
    simp only [codeLoaders, demoLoaders] at he
    split at he
    · cases he
    split at he <;> cases he
    exact absurd rfl hs
  case importPath => rintro x w _ ⟨⟩ hi; exact absurd (.inl rfl) hi
  case compiled => rintro x w _ ⟨⟩; exact SampleCode.compiled
  case invalidate => rintro w _ ⟨⟩
  case parse => rintro _ _ w _ ⟨⟩
  all_goals rintro x w _ ⟨⟩

/-- The hypotheses of `C82_together` are met. -/
example (k n : Nat) (e : Exc)
    (h : (runClient ((filedEnv.withDists Box.disk freshPart).withLoaders (codeLoaders.withDists Box.disk freshPart) k) n importer
      (initState () [] true)).1 = .error e) : e ≠ .keyError ∧ e ≠ .indexError := by
  have hD : DiskRaises (fun e => ¬ LookupFails e) Box.disk :=
    ⟨fun x => (box_raises.listdir x).weaken fun _ h he => (h he).elim,
      fun x => (box_raises.metadata x).weaken fun _ h he => (h he).elim,
      fun x => (box_raises.record x).weaken fun _ h he => (h he).elim⟩
  have := C82_together _ Box.disk hD freshPart codeLoaders code_raises filedEnv filed_raises
    ⟨fun _ _ => (nofun : ∀ n : Node, (none : Option Node) = some n → _),
      fun _ _ _ => (nofun : ∀ n : Node, (none : Option Node) = some n → _)⟩ k n importer (importer_careful _) () [] true e h
  rcases this with h | rfl | rfl | rfl | rfl
  · exact ⟨fun h' => h (.inl h'), fun h' => h (.inr h')⟩
  all_goals exact ⟨nofun, nofun⟩

/-- C83 is false as stated, the `AssertionError` reaches the user: with METADATA that has no version anywhere on the path, adding any
module that has a file fails.  With good METADATA the same call works. -/
theorem C83_unlabelled :
    let bad : DistEnv Unit := { Box.disk with metadata := fun _ w => (.ok c!"Name: Box\n", w) }
    let add := fun D : DistEnv Unit => ((calls ((filedEnv.withDists D freshPart).withLoaders
      (codeLoaders.withDists D freshPart) 1) (29 + 1)).op (.addModule c!"m") (initState () [] true)).1
    add bad = .error .assertion ∧ (add Box.disk).toOption.isSome = true := by decide +kernel

end Verif.Props
