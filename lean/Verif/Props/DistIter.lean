import Verif.Model.DistIter
import Verif.Props.Distributions
/-!
# C84: `all_distributions` yields everything that is installed

The body of the loop may look up distributions itself and use what it finds.
-/
namespace Verif.Props
open Verif Spec
variable {W : Type}

theorem iterDir_static {env : DistEnv W} {ls rd} (hE : Static env ls rd) {body : DObj → DSt W → Bool × DSt W}
    (hB : ∀ o s, Fits rd s → Fits rd (body o s).2)
    (entry : Str) (l : List Str) (hN : ∀ f ∈ l, '/' ∉ f)
    (hO : ∀ f ∈ l, DistInfo f → ∀ e, rd (inDir entry f) = .error e → e = .osError)
    (s : DSt W) (h : Fits rd s) :
    let r := iterDir env body entry l s
    Fits rd r.state ∧
      ∃ rest, readUntil rd ((l.filter fun f => DistInfo f).map (inDir entry)) = r.visited.map DObj.dist ++ rest ∧
        ((r.ending = .done ∨ r.ending = .raised .osError) ∧ rest = [] ∨
          r.ending = .left ∧ ∃ o s, r.visited.getLast? = some o ∧ (body o s).1 = true) := by
  induction l generalizing s with
  | nil => exact ⟨h, [], rfl, .inl ⟨.inl rfl, rfl⟩⟩
  | cons f l ih =>
    have ih := ih (fun f' hf' => hN f' (by simp [hf'])) fun f' hf' => hO f' (by simp [hf'])
    have hd : endsWith c!".dist-info" f = true ↔ DistInfo f := by
      unfold endsWith DistInfo
      rw [List.isSuffixOf_iff_suffix]
      exact ⟨fun ⟨p, h⟩ => ⟨p, h.symm⟩, fun ⟨p, h⟩ => ⟨p, h.symm⟩⟩
    intro r
    by_cases hf : DistInfo f
    · have hf' := hd.mpr hf
      have he : (f :: l).filter (fun f => DistInfo f) = f :: l.filter fun f => DistInfo f := by
        simp [hf]
      rw [he, List.map_cons]
      have hc := cached_static hE (inDir entry f) s h
      cases hr : cachedDistribution env (inDir entry f) s with
      | mk q s1 =>
        rw [hr] at hc
        cases q with
        | error e =>
          have he := (hc.2.1 e).mp rfl
          have := hO f (by simp) hf e he
          subst this
          have hreq : r = ⟨[], .raised .osError, s1⟩ := by
            simp only [r, iterDir, hf', pathJoin_eq (hN f (by simp)), hr, Bool.not_true, Bool.false_eq_true, if_false]
          rw [hreq]
          refine ⟨hc.1, [], ?_, .inl ⟨.inr rfl, rfl⟩⟩
          unfold readUntil
          rw [he]
          rfl
        | ok o =>
          have ho := hc.2.2 o rfl
          have h1 := hB o s1 hc.1
          have hru : readUntil rd (inDir entry f :: (l.filter fun f => DistInfo f).map (inDir entry)) =
              o.dist :: readUntil rd ((l.filter fun f => DistInfo f).map (inDir entry)) := by
            rw [readUntil, ho]
          rw [hru]
          cases hb : body o s1 with
          | mk b s2 =>
            rw [hb] at h1
            cases b with
            | true =>
              have hreq : r = ⟨[o], .left, s2⟩ := by
                simp only [r, iterDir, hf', pathJoin_eq (hN f (by simp)), hr, hb, Bool.not_true, Bool.false_eq_true, if_false]
              rw [hreq]
              exact ⟨h1, _, rfl, .inr ⟨rfl, o, s1, by simp, by rw [hb]⟩⟩
            | false =>
              have hreq : r = (iterDir env body entry l s2).after [o] := by
                simp only [r, iterDir, hf', pathJoin_eq (hN f (by simp)), hr, hb, Bool.not_true, Bool.false_eq_true, if_false]
              rw [hreq]
              obtain ⟨i1, rest, i2, i3⟩ := ih s2 h1
              refine ⟨i1, rest, by rw [i2]; rfl, ?_⟩
              rcases i3 with i3 | ⟨i3, o', s', i4, i5⟩
              · exact .inl i3
              · exact .inr ⟨i3, o', s', by simp [Looped.after, List.getLast?_cons, i4], i5⟩
    · have hf' : endsWith c!".dist-info" f = false := by
        cases hh : endsWith c!".dist-info" f with
        | false => rfl
        | true => exact absurd (hd.mp hh) hf
      have he : (f :: l).filter (fun f => DistInfo f) = l.filter fun f => DistInfo f := by
        simp [hf]
      rw [he]
      have hreq : r = iterDir env body entry l s := by
        simp only [r, iterDir, hf', Bool.not_false, if_true]
      rw [hreq]
      exact ih s h

theorem iterPath_static {env : DistEnv W} {ls rd} (hE : Static env ls rd) {body : DObj → DSt W → Bool × DSt W}
    (hB : ∀ o s, Fits rd s → Fits rd (body o s).2)
    (hL : ∀ p e, ls p = .error e → e = .osError) (hO : ∀ d e, rd d = .error e → e = .osError)
    (path : List Str) (s : DSt W) (h : Fits rd s) :
    let r := iterPath env body path s
    Fits rd r.state ∧
      ∃ rest, (path.flatMap fun p => readUntil rd (distInfos ls p)) = r.visited.map DObj.dist ++ rest ∧
        (r.ending = .done ∧ rest = [] ∨ r.ending = .left ∧ ∃ o s, r.visited.getLast? = some o ∧ (body o s).1 = true) := by
  induction path generalizing s with
  | nil => exact ⟨h, [], rfl, .inl ⟨rfl, rfl⟩⟩
  | cons p path ih =>
    intro r
    rw [List.flatMap_cons]
    cases hl : ls p with
    | error e =>
      have := hL p e hl
      subst this
      have : distInfos ls p = [] := by unfold distInfos; rw [hl]
      rw [this]
      have hreq : r = iterPath env body path s := by
        simp only [r, iterPath, hE.listdir, hl, if_true]
      rw [hreq]
      exact ih s h
    | ok names =>
      have hdi : distInfos ls p = (names.filter fun f => DistInfo f).map (inDir p) := by
        unfold distInfos; rw [hl]
      rw [hdi]
      obtain ⟨i1, rest, i2, i3⟩ := iterDir_static hE hB p names (hE.names p names hl) (fun f _ _ e he => hO _ e he) s h
      rw [i2]
      cases hq : iterDir env body p names s with
      | mk l x s1 =>
        rw [hq] at i1 i3
        simp only [] at i1 i3 ⊢
        have more : (iterPath env body path s1).after l = r → rest = [] →
            Fits rd r.state ∧ ∃ rest', l.map DObj.dist ++ rest ++ (path.flatMap fun p => readUntil rd (distInfos ls p)) =
              r.visited.map DObj.dist ++ rest' ∧
              (r.ending = .done ∧ rest' = [] ∨ r.ending = .left ∧ ∃ o s, r.visited.getLast? = some o ∧ (body o s).1 = true) := by
          intro hr hrest
          subst hrest
          rw [← hr]
          obtain ⟨j1, rest', j2, j3⟩ := ih s1 i1
          refine ⟨j1, rest', by rw [j2]; simp [Looped.after], ?_⟩
          rcases j3 with j3 | ⟨j3, o', s', j4, j5⟩
          · exact .inl j3
          · exact .inr ⟨j3, o', s', by simp [Looped.after, List.getLast?_append, j4], j5⟩
        rcases i3 with ⟨hx | hx, hrest⟩ | ⟨hx, o, s', ho, hb⟩
        · subst hx
          exact more (by simp only [r, iterPath, hE.listdir, hl, hq]) hrest
        · subst hx
          exact more (by simp only [r, iterPath, hE.listdir, hl, hq, if_true]) hrest
        · subst hx
          have hreq : r = ⟨l, .left, s1⟩ := by simp only [r, iterPath, hE.listdir, hl, hq]
          rw [hreq]
          exact ⟨i1, rest ++ (path.flatMap fun p => readUntil rd (distInfos ls p)), by simp, .inr ⟨rfl, o, s', ho, hb⟩⟩

/-- A consumer that uses the library in the body of its loop: it makes the lookups `uses` and then leaves the loop or not. -/
def consumer (env : DistEnv W) (uses : DObj → DSt W → List (Use W)) (leave : DObj → DSt W → Bool) :
    DObj → DSt W → Bool × DSt W :=
  fun o s => (leave o s, Use.runAll env (uses o s) s)

/-- **C84, in general.**  After any lookups, and with any lookups in the body of the loop, a loop over all distributions visits
those on the path in order, in each directory up to the first that cannot be read.  It visits all of them unless the
consumer leaves it, and then the last one visited is the one that the consumer left with.  Nothing is raised. -/
theorem C84_until {env : DistEnv W} {ls rd} (hE : Static env ls rd)
    (hL : ∀ p e, ls p = .error e → e = .osError) (hO : ∀ d e, rd d = .error e → e = .osError)
    (us : List (Use W)) (w : W) (uses : DObj → DSt W → List (Use W)) (leave : DObj → DSt W → Bool) (path : List Str) :
    let r := iterDistributions env (consumer env uses leave) (some path) (Use.runAll env us { world := w })
    ∃ rest, (path.flatMap fun p => readUntil rd (distInfos ls p)) = r.visited.map DObj.dist ++ rest ∧
      (r.ending = .done ∧ rest = [] ∨ r.ending = .left ∧ ∃ o s, r.visited.getLast? = some o ∧ leave o s = true) :=
  (iterPath_static hE (fun o s h => uses_fits hE (uses o s) s h hL hO) hL hO path _
    (uses_fits hE us _ (by intro p o hp; simp at hp) hL hO)).2

theorem flatMap_readUntil {rd : Str → Except Exc Dist} {ls} {path : List Str}
    (hR : ∀ p ∈ path, ∀ d ∈ distInfos ls p, ∃ x, rd d = .ok x) :
    (path.flatMap fun p => readUntil rd (distInfos ls p)) = path.flatMap fun p => readAll rd (distInfos ls p) := by
  induction path with
  | nil => rfl
  | cons p l ih =>
    rw [List.flatMap_cons, List.flatMap_cons, ih fun q hq => hR q (by simp [hq]), readUntil_readAll (hR p (by simp))]

/-- **C84.**  A consumer that does not leave the loop sees every distribution in the directories of the path, in order, if they can
be read.  Missing for the full claim: those behind a dist-info directory that cannot be read, see `C84_unreadable_hides`. -/
theorem C84_all_partial {env : DistEnv W} {ls rd} (hE : Static env ls rd)
    (hL : ∀ p e, ls p = .error e → e = .osError) (hO : ∀ d e, rd d = .error e → e = .osError)
    (us : List (Use W)) (w : W) (uses : DObj → DSt W → List (Use W)) (path : List Str)
    (hR : ∀ p ∈ path, ∀ d ∈ distInfos ls p, ∃ x, rd d = .ok x) :
    let r := iterDistributions env (consumer env uses fun _ _ => false) (some path) (Use.runAll env us { world := w })
    r.ending = .done ∧ r.visited.map DObj.dist = path.flatMap fun p => readAll rd (distInfos ls p) := by
  intro r
  obtain ⟨rest, h1, ⟨h2, rfl⟩ | ⟨-, o, s, -, h⟩⟩ := C84_until hE hL hO us w uses (fun _ _ => false) path
  · rw [flatMap_readUntil hR, List.append_nil] at h1
    exact ⟨h2, h1.symm⟩
  · cases h

/-! ## The objects, while the world changes in any way -/

/-- What was cached stays cached, and cached objects have the directory as identifier. -/
structure CacheKept (s t : DSt W) : Prop where
  kept : ∀ p o, s.cache.lookup p = some o → t.cache.lookup p = some o
  ident : (∀ p o, s.cache.lookup p = some o → o.dist.identifier = p) → ∀ p o, t.cache.lookup p = some o → o.dist.identifier = p

theorem CacheKept.refl (s : DSt W) : CacheKept s s := ⟨fun _ _ h => h, fun h => h⟩
theorem CacheKept.trans {s t u : DSt W} (h : CacheKept s t) (h' : CacheKept t u) : CacheKept s u :=
  ⟨fun p o hp => h'.kept p o (h.kept p o hp), fun hs => h'.ident (h.ident hs)⟩
theorem CacheKept.of_eq {s t : DSt W} (h : t.cache = s.cache) : CacheKept s t := ⟨by rw [h]; exact fun _ _ h => h, by rw [h]; exact fun h => h⟩
theorem CacheKept.shift {s t u : DSt W} (h : CacheKept t u) (e : t.cache = s.cache) : CacheKept s u :=
  (CacheKept.of_eq e).trans h

theorem create_ident (env : DistEnv W) (d : Str) (w : W) (x : Dist) (h : (createDistribution env d w).1 = .ok x) : x.identifier = d := by
  unfold createDistribution at h
  split at h
  · cases h
  · split at h
    · cases h
    · cases h
    · split at h
      · cases h
      · cases h; rfl

theorem cached_kept (env : DistEnv W) (name : Str) (s : DSt W) :
    CacheKept s (cachedDistribution env name s).2 ∧ ∀ o, (cachedDistribution env name s).1 = .ok o →
      (cachedDistribution env name s).2.cache.lookup name = some o := by
  unfold cachedDistribution
  cases hl : s.cache.lookup name with
  | some o => exact ⟨.refl s, by rintro _ ⟨⟩; exact hl⟩
  | none =>
    have hi := create_ident env name s.world
    cases hc : createDistribution env name s.world with
    | mk r w =>
      rw [hc] at hi
      cases r with
      | error e => exact ⟨.of_eq rfl, nofun⟩
      | ok d =>
        refine ⟨⟨?_, ?_⟩, by rintro _ ⟨⟩; simp⟩
        · intro p o hp
          simp only [List.lookup_cons]
          split
          · rename_i he
            rw [eq_of_beq he, hl] at hp
            cases hp
          · exact hp
        · intro hs p o hp
          simp only [List.lookup_cons] at hp
          split at hp
          · rename_i he
            cases hp
            rw [eq_of_beq he]
            exact hi d rfl
          · exact hs p o hp

theorem scanDir_kept (env : DistEnv W) (stop : Dist → Bool) (entry : Str) (l : List Str) (s : DSt W) :
    CacheKept s (scanDir env stop entry l s).2 := by
  induction l generalizing s with
  | nil => exact .refl s
  | cons f l ih =>
    rw [scanDir]
    split
    · exact ih s
    · have h := (cached_kept env (pathJoin entry f) s).1
      split
      · rename_i hq; rw [hq] at h; exact h
      · rename_i o s1 hq
        rw [hq] at h
        simp only []
        split
        · exact h.trans (.of_eq rfl)
        · exact h.trans ((ih _).shift rfl)

theorem scanPath_kept (env : DistEnv W) (stop : Dist → Bool) (path : List Str) (s : DSt W) :
    CacheKept s (scanPath env stop path s).2 := by
  induction path generalizing s with
  | nil => exact .refl s
  | cons p path ih =>
    rw [scanPath]
    split
    · split
      · exact (ih _).shift rfl
      · exact .of_eq rfl
    · rename_i names w hq
      have h : CacheKept s _ := (scanDir_kept env stop p names { s with world := w }).shift rfl
      split
      · rename_i hq; rw [hq] at h; exact h
      · rename_i hq; rw [hq] at h; exact h.trans (ih _)
      · rename_i hq
        rw [hq] at h
        split
        · exact h.trans (ih _)
        · exact h

theorem uses_kept (env : DistEnv W) (us : List (Use W)) (s : DSt W) : CacheKept s (Use.runAll env us s) := by
  induction us generalizing s with
  | nil => exact .refl s
  | cons u us ih =>
    cases u with
    | search stop path => exact (scanPath_kept env stop _ s).trans (ih _)
    | world f => exact (ih _).shift rfl

theorem iterDir_kept {env : DistEnv W} {body : DObj → DSt W → Bool × DSt W} (hB : ∀ o s, CacheKept s (body o s).2) (entry : Str)
    (l : List Str) (s : DSt W) : CacheKept s (iterDir env body entry l s).state ∧
      ∀ o ∈ (iterDir env body entry l s).visited, ∃ p, (iterDir env body entry l s).state.cache.lookup p = some o := by
  induction l generalizing s with
  | nil => exact ⟨.refl s, nofun⟩
  | cons f l ih =>
    rw [iterDir]
    split
    · exact ih s
    · obtain ⟨h, ho⟩ := cached_kept env (pathJoin entry f) s
      split
      · rename_i hq; rw [hq] at h; exact ⟨h, nofun⟩
      · rename_i o s1 hq
        rw [hq] at h ho
        have hb := hB o s1
        split
        · rename_i s2 hq2
          rw [hq2] at hb
          refine ⟨h.trans hb, fun o' ho' => ?_⟩
          cases List.mem_singleton.mp ho'
          exact ⟨_, hb.kept _ _ (ho o rfl)⟩
        · rename_i s2 hq2
          rw [hq2] at hb
          obtain ⟨i1, i2⟩ := ih s2
          refine ⟨(h.trans hb).trans i1, fun o' ho' => ?_⟩
          rcases List.mem_cons.mp ho' with rfl | ho'
          · exact ⟨_, i1.kept _ _ (hb.kept _ _ (ho _ rfl))⟩
          · exact i2 o' ho'

theorem iterPath_kept {env : DistEnv W} {body : DObj → DSt W → Bool × DSt W} (hB : ∀ o s, CacheKept s (body o s).2)
    (path : List Str) (s : DSt W) : CacheKept s (iterPath env body path s).state ∧
      ∀ o ∈ (iterPath env body path s).visited, ∃ p, (iterPath env body path s).state.cache.lookup p = some o := by
  induction path generalizing s with
  | nil => exact ⟨.refl s, nofun⟩
  | cons p path ih =>
    rw [iterPath]
    split
    · split
      · rename_i w _ _
        obtain ⟨i1, i2⟩ := ih { s with world := w }
        exact ⟨i1.shift rfl, i2⟩
      · exact ⟨.of_eq rfl, nofun⟩
    · rename_i names w hq
      obtain ⟨h, ho⟩ := iterDir_kept (env := env) hB p names { s with world := w }
      have h : CacheKept s _ := h.shift rfl
      have more : ∀ l s1, CacheKept s s1 → (∀ o ∈ l, ∃ p, s1.cache.lookup p = some o) →
          CacheKept s ((iterPath env body path s1).after l).state ∧ ∀ o ∈ ((iterPath env body path s1).after l).visited,
            ∃ p, ((iterPath env body path s1).after l).state.cache.lookup p = some o := by
        intro l s1 h ho
        obtain ⟨i1, i2⟩ := ih s1
        refine ⟨h.trans i1, fun o ho' => ?_⟩
        rcases List.mem_append.mp ho' with ho' | ho'
        · exact (ho o ho').imp fun _ h => i1.kept _ _ h
        · exact i2 o ho'
      split
      · rename_i hq; rw [hq] at h ho; exact more _ _ h ho
      · rename_i hq; rw [hq] at h ho; exact ⟨h, ho⟩
      · rename_i hq
        rw [hq] at h ho
        split
        · exact more _ _ h ho
        · exact ⟨h, ho⟩

/-- **C84, the objects.**  Whatever happens to the disk at any time, the objects that a loop visited are those that
the library goes on using: at its end, and after any further lookups, there is one object for a dist-info directory, and it is the one
visited. -/
theorem C84_objects (env : DistEnv W) (us us' : List (Use W)) (w : W) (uses : DObj → DSt W → List (Use W))
    (leave : DObj → DSt W → Bool) (path : Option (List Str)) :
    let r := iterDistributions env (consumer env uses leave) path (Use.runAll env us { world := w })
    let t := Use.runAll env us' r.state
    ∀ o ∈ r.visited, cachedDistribution env o.dist.identifier t = (.ok o, t) := by
  intro r t o ho
  have hB : ∀ o s, CacheKept s (consumer env uses leave o s).2 := fun o s => uses_kept env (uses o s) s
  obtain ⟨h1, h2⟩ := iterPath_kept (env := env) hB (path.getD (env.sysPath (Use.runAll env us { world := w }).world))
    (Use.runAll env us { world := w })
  obtain ⟨p, hp⟩ := h2 o ho
  have hk := ((uses_kept env us { world := w }).trans h1).trans (uses_kept env us' _)
  have hp' := (uses_kept env us' r.state).kept p o hp
  have hi : o.dist.identifier = p := hk.ident (by intro p o hp; simp at hp) p o hp'
  rw [hi]
  unfold cachedDistribution
  rw [hp']

/-! ## What the body does -/

theorem cached_world {env : DistEnv W} {ls rd} (hE : Static env ls rd) (name : Str) (s : DSt W) :
    (cachedDistribution env name s).2.world = s.world := by
  unfold cachedDistribution
  split
  · rfl
  · rw [hE.create]
    cases rd name <;> rfl

theorem iterDir_world {env : DistEnv W} {ls rd} (hE : Static env ls rd) {body : DObj → DSt W → Bool × DSt W} {f : DObj → W → W}
    (hB : ∀ o s, (body o s).2.world = f o s.world) (entry : Str) (l : List Str) (s : DSt W) :
    (iterDir env body entry l s).state.world = (iterDir env body entry l s).visited.foldl (fun w o => f o w) s.world := by
  induction l generalizing s with
  | nil => rfl
  | cons x l ih =>
    rw [iterDir]
    split
    · exact ih s
    · have h := cached_world hE (pathJoin entry x) s
      split
      · rename_i hq; rw [hq] at h; exact h
      · rename_i o s1 hq
        rw [hq] at h
        have hb := hB o s1
        split
        · rename_i s2 hq2
          rw [hq2] at hb
          exact hb.trans (by rw [h]; rfl)
        · rename_i s2 hq2
          rw [hq2] at hb
          refine (ih s2).trans ?_
          show _ = (iterDir env body entry l s2).visited.foldl (fun w o => f o w) (f o s.world)
          rw [← show s2.world = f o s.world from hb.trans (by rw [h])]

theorem iterPath_world {env : DistEnv W} {ls rd} (hE : Static env ls rd) {body : DObj → DSt W → Bool × DSt W} {f : DObj → W → W}
    (hB : ∀ o s, (body o s).2.world = f o s.world) (path : List Str) (s : DSt W) :
    (iterPath env body path s).state.world = (iterPath env body path s).visited.foldl (fun w o => f o w) s.world := by
  induction path generalizing s with
  | nil => rfl
  | cons p path ih =>
    rw [iterPath, hE.listdir]
    cases ls p with
    | error e =>
      simp only []
      split
      · exact ih s
      · rfl
    | ok names =>
      simp only []
      have h := iterDir_world hE hB p names s
      have more : ∀ l s1, s1.world = l.foldl (fun w o => f o w) s.world →
          ((iterPath env body path s1).after l).state.world =
            ((iterPath env body path s1).after l).visited.foldl (fun w o => f o w) s.world := by
        intro l s1 h
        refine (ih s1).trans ?_
        rw [h]
        exact List.foldl_append.symm
      split
      · rename_i hq; rw [hq] at h; exact more _ _ h
      · rename_i hq; rw [hq] at h; exact h
      · rename_i hq
        rw [hq] at h
        split
        · exact more _ _ h
        · exact h

/-- **C84, the body.**  What the body does is done once for every distribution visited, in this order. -/
theorem C84_body {env : DistEnv W} {ls rd} (hE : Static env ls rd) (f : DObj → W → W) (leave : DObj → DSt W → Bool)
    (path : List Str) (s : DSt W) :
    let r := iterDistributions env (consumer env (fun o _ => [.world (f o)]) leave) (some path) s
    r.state.world = r.visited.foldl (fun w o => f o w) s.world :=
  iterPath_world hE (fun _ _ => rfl) path s

/-! ## The lookups of the library are such loops -/

/-- The states agree, apart from the ghosts. -/
def Same (s t : DSt W) : Prop := s.world = t.world ∧ s.cache = t.cache ∧ s.next = t.next

/-- What a search returns when its loop ends this way. -/
def Looped.found (r : Looped W) : Except Exc (Option DObj) :=
  match r.ending with
  | .done => .ok none
  | .left => .ok r.visited.getLast?
  | .raised e => .error e

theorem found_after {l : List DObj} {r : Looped W} (h : r.ending = .left → r.visited ≠ []) :
    Looped.found (r.after l) = Looped.found r ∧ ((r.after l).ending = .left → (r.after l).visited ≠ []) := by
  obtain ⟨v, x, s⟩ := r
  refine ⟨?_, fun hx hn => h hx (List.append_eq_nil_iff.mp hn).2⟩
  cases x with
  | done => rfl
  | raised e => rfl
  | left =>
    have hv : v ≠ [] := h rfl
    simp only [Looped.found, Looped.after, List.getLast?_append]
    cases hl : v.getLast? with
    | none => exact absurd (List.getLast?_eq_none_iff.mp hl) hv
    | some o => rfl

/-- The search and the loop agree. -/
def Agree (a : Except Exc (Option DObj) × DSt W) (r : Looped W) : Prop :=
  Same a.2 r.state ∧ a.1 = Looped.found r ∧ (r.ending = .left → r.visited ≠ [])

theorem cached_same (env : DistEnv W) (name : Str) {s t : DSt W} (h : Same s t) :
    (cachedDistribution env name s).1 = (cachedDistribution env name t).1 ∧
      Same (cachedDistribution env name s).2 (cachedDistribution env name t).2 := by
  obtain ⟨h1, h2, h3⟩ := h
  unfold cachedDistribution
  rw [h1, h2, h3]
  cases t.cache.lookup name with
  | some o => exact ⟨rfl, h1, h2, h3⟩
  | none =>
    cases createDistribution env name t.world with
    | mk r w =>
      cases r with
      | error e => exact ⟨rfl, rfl, rfl, rfl⟩
      | ok d => exact ⟨rfl, rfl, rfl, rfl⟩

theorem scanDir_agree (env : DistEnv W) (stop : Dist → Bool) (entry : Str) (l : List Str) {s t : DSt W} (h : Same s t) :
    Agree (scanDir env stop entry l s) (iterDir env (fun o s => (stop o.dist, s)) entry l t) := by
  induction l generalizing s t with
  | nil => exact ⟨h, rfl, nofun⟩
  | cons f l ih =>
    rw [scanDir, iterDir]
    split
    · exact ih h
    · obtain ⟨h1, h2⟩ := cached_same env (pathJoin entry f) h
      cases hq : cachedDistribution env (pathJoin entry f) s with
      | mk r s1 =>
        cases hq2 : cachedDistribution env (pathJoin entry f) t with
        | mk r2 t1 =>
          rw [hq, hq2] at h1 h2
          cases h1
          cases r with
          | error e => exact ⟨h2, rfl, nofun⟩
          | ok o =>
            simp only []
            cases hst : stop o.dist with
            | true => exact ⟨h2, rfl, by simp⟩
            | false =>
              obtain ⟨i1, i2, i3⟩ := ih (s := { s1 with yielded := s1.yielded ++ [(pathJoin entry f, o)] }) (t := t1) h2
              exact ⟨i1, i2.trans (found_after i3).1.symm, (found_after i3).2⟩

theorem scanPath_agree (env : DistEnv W) (stop : Dist → Bool) (path : List Str) {s t : DSt W} (h : Same s t) :
    Agree (scanPath env stop path s) (iterPath env (fun o s => (stop o.dist, s)) path t) := by
  induction path generalizing s t with
  | nil => exact ⟨h, rfl, nofun⟩
  | cons p path ih =>
    rw [scanPath, iterPath, h.1]
    cases env.listdir p t.world with
    | mk r w =>
      have hs : Same { s with world := w } { t with world := w } := ⟨rfl, h.2⟩
      cases r with
      | error e =>
        simp only []
        split
        · exact ih hs
        · exact ⟨hs, rfl, nofun⟩
      | ok names =>
        simp only []
        obtain ⟨i1, i2, i3⟩ := scanDir_agree env stop p names hs
        cases hq : scanDir env stop p names { s with world := w } with
        | mk a s1 =>
          cases hq2 : iterDir env (fun o s => (stop o.dist, s)) p names { t with world := w } with
          | mk v x t1 =>
            rw [hq, hq2] at i1 i2
            rw [hq2] at i3
            simp only [] at i1 i2 i3
            subst i2
            obtain ⟨j1, j2, j3⟩ := ih i1
            have more : Agree (scanPath env stop path s1) ((iterPath env (fun o s => (stop o.dist, s)) path t1).after v) :=
              ⟨j1, j2.trans (found_after j3).1.symm, (found_after j3).2⟩
            cases x with
            | done => exact more
            | left =>
              cases hl : v.getLast? with
              | none => exact absurd (List.getLast?_eq_none_iff.mp hl) (i3 rfl)
              | some o =>
                simp only [Looped.found, hl]
                exact ⟨i1, by simp [Looped.found, hl], fun _ => i3 rfl⟩
            | raised e =>
              simp only [Looped.found]
              split
              · exact more
              · exact ⟨i1, rfl, nofun⟩

/-- A lookup by name or by file is a loop over all distributions that is left at the first match. -/
theorem C84_lookups (env : DistEnv W) (x : Str) (path : Option (List Str)) (s : DSt W) :
    (distributionNamed env x path s).1 =
      Looped.found (iterDistributions env (consumer env (fun _ _ => []) fun o _ => o.dist.name == x) path s) ∧
    (distributionForFile env x path s).1 =
      Looped.found (iterDistributions env (consumer env (fun _ _ => []) fun o _ => o.dist.files.contains x) path s) :=
  ⟨(scanPath_agree env (fun d => d.name == x) _ ⟨rfl, rfl, rfl⟩).2.1,
    (scanPath_agree env (fun d => d.files.contains x) _ ⟨rfl, rfl, rfl⟩).2.1⟩

/-! ## Examples -/

/-- C84 is false in general: a loop over `/c` visits nothing, though `y` can be read. -/
theorem C84_unreadable_hides :
    let r := iterDistributions distDemo (consumer distDemo (fun _ _ => []) fun _ _ => false) (some [c!"/c"]) { world := () }
    r.visited = [] ∧ r.ending = .done ∧ (createDistribution distDemo c!"/c/y.dist-info" ()).1.toOption.map Dist.name = some c!"y" := by
  decide +kernel

/-- A loop whose body looks for `y`, before the loop comes to it.  The path has a directory twice, so has the loop; the
object is the same. -/
example :
    let r := iterDistributions distDemo (consumer distDemo (fun _ _ => [.search (fun d => d.name == c!"y") (some [c!"/d"])])
      fun _ _ => false) (some [c!"/b", c!"/a", c!"/d", c!"/b"]) { world := () }
    r.visited.map (fun o => (o.id, o.dist.name)) = [(0, c!"x"), (1, c!"y"), (0, c!"x")] ∧ r.ending = .done := by
  decide +kernel

/-- The hypotheses of `C84_all_partial` are met. -/
example (uses : DObj → DSt Unit → List (Use Unit)) :
    (iterDistributions distDemo (consumer distDemo uses fun _ _ => false) (some [c!"/a", c!"/b", c!"/d"])
      { world := () }).visited.map (fun o => o.dist.name) = [c!"x", c!"y"] := by
  have hL : ∀ p e, (distDemo.listdir p ()).1 = .error e → e = .osError := by
    intro p e h
    simp only [distDemo] at h
    repeat (split at h; · cases h)
    cases h; rfl
  have hO : ∀ d e, (createDistribution distDemo d ()).1 = .error e → e = .osError := by
    intro d e h
    have hn : ∀ x ∈ [c!"x", c!"y"], strHeader c!"Name" (headers (c!"Metadata-Version: 2.1\nName: " ++ x ++ c!"\nVersion: 1\n\nVersion: 2")) = some x ∧
        strHeader c!"Version" (headers (c!"Metadata-Version: 2.1\nName: " ++ x ++ c!"\nVersion: 1\n\nVersion: 2")) = some c!"1" := by
      decide +kernel
    have hx := hn (if d = c!"/b/x.dist-info" then c!"x" else c!"y") (by split <;> simp)
    simp only [createDistribution, distDemo, hx.1, hx.2] at h
    split at h
    · rename_i hq
      simp only [Prod.mk.injEq] at hq
      split at hq
      · cases hq.1; cases h; rfl
      · cases hq.1
    · cases h
  have h := (C84_all_partial distDemo_static hL hO [] () uses [c!"/a", c!"/b", c!"/d"] (by
    have : ∀ p ∈ [c!"/a", c!"/b", c!"/d"], ∀ d ∈ distInfos (fun p => (distDemo.listdir p ()).1) p,
        ((createDistribution distDemo d ()).1).toOption.isSome := by decide +kernel
    intro p hp d hd
    have := this p hp d hd
    cases hc : (createDistribution distDemo d ()).1 with
    | ok x => exact ⟨x, rfl⟩
    | error e => rw [hc] at this; cases this)).2
  have h2 := congrArg (List.map Dist.name) h
  rw [List.map_map] at h2
  refine h2.trans ?_
  decide +kernel

/-- A disk for which the world is a list of names that a consumer writes down; the consumer leaves the loop at `y`. -/
example :
    let env : DistEnv (List Str) :=
      { sysPath := fun _ => [], listdir := fun p w => ((distDemo.listdir p ()).1, w), metadata := fun p w => ((distDemo.metadata p ()).1, w),
        record := fun p w => ((distDemo.record p ()).1, w), extSuffixes := [] }
    let r := iterDistributions env (consumer env (fun o _ => [.world (· ++ [o.dist.name])]) fun o _ => o.dist.name == c!"y")
      (some [c!"/b", c!"/d", c!"/b"]) { world := [] }
    r.state.world = [c!"x", c!"y"] ∧ r.ending = .left := by decide +kernel

end Verif.Props
