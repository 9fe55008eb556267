import Verif.Spec.DistSpec
/-!
# C28, C29: looking up distributions
-/
namespace Verif.Props
open Verif Spec

variable {W : Type}

/-! ## C28 -/

/-- One use of the module by a client: a search that stops at the first distribution it likes
(`distribution_for_file`, `distribution_named`; a search that never stops iterates over
`all_distributions`), or a change of the world in between. -/
inductive Use (W : Type) where
  | search (stop : Dist → Bool) (path : Option (List Str))
  | world (f : W → W)

def Use.run (env : DistEnv W) : Use W → DSt W → DSt W
  | .search stop path, s => (allDistributions env stop path s).2
  | .world f, s => { s with world := f s.world }

def Use.runAll (env : DistEnv W) : List (Use W) → DSt W → DSt W
  | [], s => s
  | u :: us, s => runAll env us (u.run env s)

/-- The cache holds exactly what was created, everything was created once, and only that is
yielded. -/
structure OneEach (s : DSt W) : Prop where
  cache : ∀ p o, (p, o) ∈ s.created ↔ s.cache.lookup p = some o
  once : (s.created.map Prod.fst).Nodup
  ids : (s.created.map fun c => c.2.id).Nodup
  fresh : ∀ c ∈ s.created, c.2.id < s.next
  yielded : ∀ y ∈ s.yielded, y ∈ s.created
  /-- the object is what was read from that directory -/
  ident : ∀ c ∈ s.created, c.2.dist.identifier = c.1

theorem createDistribution_ident (env : DistEnv W) {p : Str} {w w' : W} {d}
    (h : createDistribution env p w = (.ok d, w')) : d.identifier = p := by
  unfold createDistribution at h
  split at h
  · simp at h
  · split at h
    · simp at h
    · simp at h
    · split at h
      · simp at h
      · simp at h
        rw [← h.1]

theorem cached_oneEach (env : DistEnv W) (name : Str) (s : DSt W) (h : OneEach s) :
    OneEach (cachedDistribution env name s).2 ∧
      ∀ o, (cachedDistribution env name s).1 = .ok o →
        (name, o) ∈ (cachedDistribution env name s).2.created := by
  unfold cachedDistribution
  cases hl : s.cache.lookup name with
  | some o =>
    simp only []
    refine ⟨h, fun o' ho => ?_⟩
    simp at ho
    subst ho
    exact (h.cache _ _).mpr hl
  | none =>
    cases hc : createDistribution env name s.world with
    | mk r w =>
      cases r with
      | error e => exact ⟨⟨h.cache, h.once, h.ids, h.fresh, h.yielded, h.ident⟩, by simp⟩
      | ok d =>
        simp only []
        have hn : ∀ o, (name, o) ∉ s.created := by
          intro o hm
          rw [(h.cache _ _).mp hm] at hl
          cases hl
        refine ⟨⟨?_, ?_, ?_, ?_, ?_, ?_⟩, by simp⟩
        · intro p o
          simp only [List.mem_append, List.mem_singleton, List.lookup_cons]
          by_cases hp : p = name
          · subst hp
            simp only [beq_self_eq_true]
            constructor
            · rintro (hm | hm)
              · exact absurd hm (hn o)
              · simp at hm; rw [hm]
            · intro ho; simp at ho; exact .inr (by rw [ho])
          · have : (p == name) = false := by simp [hp]
            simp only [this, h.cache p o, Prod.mk.injEq, hp, false_and, or_false]
        · rw [List.map_append, List.nodup_append]
          refine ⟨h.once, by simp, ?_⟩
          intro a ha b hb
          simp at hb
          rw [List.mem_map] at ha
          obtain ⟨⟨p, o⟩, hm, rfl⟩ := ha
          rintro rfl
          subst hb
          exact hn o hm
        · rw [List.map_append, List.nodup_append]
          refine ⟨h.ids, by simp, ?_⟩
          intro a ha b hb
          simp at hb
          rw [List.mem_map] at ha
          obtain ⟨c, hm, rfl⟩ := ha
          have := h.fresh c hm
          omega
        · intro c hm
          simp only [List.mem_append, List.mem_singleton] at hm
          rcases hm with hm | rfl
          · exact Nat.lt_succ_of_lt (h.fresh c hm)
          · exact Nat.lt_succ_self _
        · intro y hy
          simp only [List.mem_append]
          exact .inl (h.yielded y hy)
        · intro c hm
          simp only [List.mem_append, List.mem_singleton] at hm
          rcases hm with hm | rfl
          · exact h.ident c hm
          · exact createDistribution_ident env hc

theorem scanDir_oneEach (env : DistEnv W) (stop : Dist → Bool) (entry : Str) (l : List Str)
    (s : DSt W) (h : OneEach s) : OneEach (scanDir env stop entry l s).2 := by
  induction l generalizing s with
  | nil => exact h
  | cons f l ih =>
    unfold scanDir
    split
    · exact ih s h
    · have hc := cached_oneEach env (pathJoin entry f) s h
      cases hr : cachedDistribution env (pathJoin entry f) s with
      | mk r s1 =>
        rw [hr] at hc
        cases r with
        | error e => exact hc.1
        | ok o =>
          have h1 : OneEach { s1 with yielded := s1.yielded ++ [(pathJoin entry f, o)] } := by
            refine ⟨hc.1.cache, hc.1.once, hc.1.ids, hc.1.fresh, ?_, hc.1.ident⟩
            intro y hy
            simp only [List.mem_append, List.mem_singleton] at hy
            rcases hy with hy | rfl
            · exact hc.1.yielded y hy
            · exact hc.2 o rfl
          simp only []
          split
          · exact h1
          · exact ih _ h1

theorem scanPath_oneEach (env : DistEnv W) (stop : Dist → Bool) (l : List Str)
    (s : DSt W) (h : OneEach s) : OneEach (scanPath env stop l s).2 := by
  induction l generalizing s with
  | nil => exact h
  | cons e l ih =>
    have hw : ∀ w : W, OneEach { s with world := w } := fun w =>
      ⟨h.cache, h.once, h.ids, h.fresh, h.yielded, h.ident⟩
    unfold scanPath
    cases hl : env.listdir e s.world with
    | mk r w =>
      cases r with
      | error x =>
        simp only []
        split
        · exact ih _ (hw w)
        · exact hw w
      | ok names =>
        simp only []
        have hs := scanDir_oneEach env stop e names _ (hw w)
        cases hr : scanDir env stop e names { s with world := w } with
        | mk r s1 =>
          rw [hr] at hs
          cases r with
          | error x =>
            simp only []
            split
            · exact ih _ hs
            · exact hs
          | ok o =>
            cases o with
            | none => exact ih _ hs
            | some o => exact hs

theorem uses_oneEach (env : DistEnv W) (us : List (Use W)) (s : DSt W) (h : OneEach s) :
    OneEach (Use.runAll env us s) := by
  induction us generalizing s with
  | nil => exact h
  | cons u us ih =>
    cases u with
    | search stop path => exact ih _ (scanPath_oneEach env stop _ s h)
    | world f => exact ih _ ⟨h.cache, h.once, h.ids, h.fresh, h.yielded, h.ident⟩

/-- C28: after any sequence of lookups, while the world changes arbitrarily, no dist-info directory
was read successfully twice, everything that a lookup yielded for a directory is the object created
then, and different directories have different objects. -/
theorem C28_one_object (env : DistEnv W) (us : List (Use W)) (w : W) :
    let s := Use.runAll env us { world := w }
    (s.created.map Prod.fst).Nodup ∧ (∀ y ∈ s.yielded, y ∈ s.created) ∧
      (∀ p o p' o', (p, o) ∈ s.created → (p', o') ∈ s.created → (p = p' ↔ o.id = o'.id)) ∧
      ∀ p o, (p, o) ∈ s.created → o.dist.identifier = p := by
  intro s
  have h : OneEach s := uses_oneEach env us _
    ⟨by simp, by simp, by simp, by simp, by simp, by simp⟩
  refine ⟨h.once, h.yielded, ?_, fun p o hm => h.ident _ hm⟩
  intro p o p' o' h1 h2
  constructor
  · rintro rfl
    have a := (h.cache _ _).mp h1
    rw [(h.cache _ _).mp h2] at a
    simp at a
    rw [a]
  · intro he
    have := h.ids
    rw [List.nodup_iff_pairwise_ne, List.pairwise_map] at this
    rcases List.mem_iff_getElem.mp h1 with ⟨i, hi, ei⟩
    rcases List.mem_iff_getElem.mp h2 with ⟨j, hj, ej⟩
    rw [List.pairwise_iff_getElem] at this
    rcases Nat.lt_trichotomy i j with hij | hij | hij
    · have := this i j hi hj hij
      rw [ei, ej] at this
      exact absurd he this
    · subst hij
      rw [ei] at ej
      exact congrArg Prod.fst ej
    · have := this j i hj hi hij
      rw [ei, ej] at this
      exact absurd he.symm this

/-! ## C29 -/

/-- The cache agrees with the file system. -/
def Fits (rd : Str → Except Exc Dist) (s : DSt W) : Prop :=
  ∀ p o, s.cache.lookup p = some o → rd p = .ok o.dist

theorem cached_static {env : DistEnv W} {ls rd} (hE : Static env ls rd) (name : Str) (s : DSt W)
    (h : Fits rd s) : Fits rd (cachedDistribution env name s).2 ∧
      (∀ e, (cachedDistribution env name s).1 = .error e ↔ rd name = .error e) ∧
      (∀ o, (cachedDistribution env name s).1 = .ok o → rd name = .ok o.dist) := by
  unfold cachedDistribution
  cases hl : s.cache.lookup name with
  | some o =>
    have := h _ _ hl
    simp only []
    refine ⟨h, fun e => by simp [this], fun o' ho => ?_⟩
    simp at ho
    rw [← ho]; exact this
  | none =>
    rw [hE.create]
    cases hr : rd name with
    | error e => exact ⟨h, fun e' => by simp, by simp⟩
    | ok d =>
      refine ⟨?_, fun e => by simp, fun o ho => ?_⟩
      · intro p o hp
        simp only [List.lookup_cons] at hp
        split at hp
        · rename_i he
          simp at he hp
          subst he hp
          exact hr
        · exact h p o hp
      · simp at ho
        rw [← ho]

theorem pathJoin_eq {dir name : Str} (h : '/' ∉ name) : pathJoin dir name = inDir dir name := by
  unfold pathJoin inDir
  have h1 : startsWith ['/'] name = false := by
    cases name with
    | nil => rfl
    | cons a l =>
      have : '/' ≠ a := by rintro rfl; exact h (List.mem_cons_self ..)
      simp [startsWith, List.isPrefixOf, this]
  rw [if_neg (by rw [h1]; simp)]
  rcases List.eq_nil_or_concat dir with rfl | ⟨l, a, rfl⟩
  · rfl
  · have h2 : endsWith ['/'] (l ++ [a]) = true ↔ a = '/' := by
      unfold endsWith
      rw [List.isSuffixOf_iff_suffix]
      constructor
      · rintro ⟨t, ht⟩
        exact (List.cons.inj (List.append_inj' ht rfl).2).1.symm
      · rintro rfl; exact ⟨l, rfl⟩
    simp only [List.concat_eq_append, List.getLast?_append, List.getLast?_singleton, Option.some_or]
    by_cases ha : a = '/'
    · subst ha
      rw [h2.mpr rfl]
      simp
    · rw [if_neg (by simp [h2, ha])]
      split
      · rename_i h; cases h
      · rename_i h; exact absurd (Option.some.inj h) ha
      · rfl

theorem scanDir_static {env : DistEnv W} {ls rd} (hE : Static env ls rd) (stop : Dist → Bool)
    (entry : Str) (l : List Str) (hN : ∀ f ∈ l, '/' ∉ f)
    (hO : ∀ f ∈ l, DistInfo f → ∀ e, rd (inDir entry f) = .error e → e = .osError)
    (s : DSt W) (h : Fits rd s) :
    Fits rd (scanDir env stop entry l s).2 ∧
      (((scanDir env stop entry l s).1 = .error .osError ∧
        (readUntil rd ((l.filter fun f => DistInfo f).map (inDir entry))).find? stop = none) ∨
      ∃ o, (scanDir env stop entry l s).1 = .ok o ∧ o.map DObj.dist =
        (readUntil rd ((l.filter fun f => DistInfo f).map (inDir entry))).find? stop) := by
  induction l generalizing s with
  | nil => exact ⟨h, .inr ⟨none, rfl, rfl⟩⟩
  | cons f l ih =>
    have ih := ih (fun f' hf' => hN f' (by simp [hf'])) fun f' hf' => hO f' (by simp [hf'])
    have hd : endsWith c!".dist-info" f = true ↔ DistInfo f := by
      unfold endsWith DistInfo
      rw [List.isSuffixOf_iff_suffix]
      exact ⟨fun ⟨p, h⟩ => ⟨p, h.symm⟩, fun ⟨p, h⟩ => ⟨p, h.symm⟩⟩
    unfold scanDir
    rw [pathJoin_eq (hN f (by simp))]
    by_cases hf : DistInfo f
    · have hf' := hd.mpr hf
      have he : (f :: l).filter (fun f => DistInfo f) = f :: l.filter fun f => DistInfo f := by
        simp [hf]
      rw [he, List.map_cons]
      simp only [hf', Bool.not_true, Bool.false_eq_true, if_false]
      have hc := cached_static hE (inDir entry f) s h
      cases hr : cachedDistribution env (inDir entry f) s with
      | mk r s1 =>
        rw [hr] at hc
        cases r with
        | error e =>
          have he := (hc.2.1 e).mp rfl
          have := hO f (by simp) hf e he
          subst this
          refine ⟨hc.1, .inl ⟨rfl, ?_⟩⟩
          unfold readUntil
          rw [he]
          rfl
        | ok o =>
          have ho := hc.2.2 o rfl
          have h1 : Fits rd { s1 with yielded := s1.yielded ++ [(inDir entry f, o)] } := hc.1
          unfold readUntil
          rw [ho]
          simp only [List.find?_cons]
          cases hst : stop o.dist with
          | true =>
            simp only [if_true]
            exact ⟨h1, .inr ⟨some o, rfl, rfl⟩⟩
          | false =>
            simp only [Bool.false_eq_true, if_false]
            exact ih _ h1
    · have hf' : endsWith c!".dist-info" f = false := by
        cases hh : endsWith c!".dist-info" f with
        | false => rfl
        | true => exact absurd (hd.mp hh) hf
      have he : (f :: l).filter (fun f => DistInfo f) = l.filter fun f => DistInfo f := by
        simp [hf]
      rw [he]
      simp only [hf', Bool.not_false, if_true]
      exact ih s h

/-- The library looks at the readable directories on the path in order, in each of them at the
dist-info directories up to the first that cannot be read. -/
theorem scanPath_static {env : DistEnv W} {ls rd} (hE : Static env ls rd) (stop : Dist → Bool)
    (path : List Str) (hL : ∀ p ∈ path, ∀ e, ls p = .error e → e = .osError)
    (hO : ∀ p ∈ path, ∀ d ∈ distInfos ls p, ∀ e, rd d = .error e → e = .osError)
    (s : DSt W) (h : Fits rd s) :
    Fits rd (scanPath env stop path s).2 ∧
      ∃ o, (scanPath env stop path s).1 = .ok o ∧ o.map DObj.dist =
        (path.flatMap fun p => readUntil rd (distInfos ls p)).find? stop := by
  induction path generalizing s with
  | nil => exact ⟨h, none, rfl, rfl⟩
  | cons p path ih =>
    have ih := ih (fun p hp => hL p (by simp [hp])) (fun p hp => hO p (by simp [hp]))
    have hO := hO p (by simp)
    unfold scanPath
    rw [hE.listdir, List.flatMap_cons, List.find?_append]
    cases hl : ls p with
    | error e =>
      have := hL p (by simp) e hl
      subst this
      simp only [if_true]
      have : distInfos ls p = [] := by unfold distInfos; rw [hl]
      rw [this]
      exact ih s h
    | ok names =>
      simp only []
      have hdi : distInfos ls p = (names.filter fun f => DistInfo f).map (inDir p) := by
        unfold distInfos; rw [hl]
      rw [hdi] at hO ⊢
      have hs := scanDir_static hE stop p names (hE.names p names hl)
        (fun f hf hd e he => hO _ (List.mem_map_of_mem (by simp [hf, hd])) e he) s h
      cases hr : scanDir env stop p names s with
      | mk r s1 =>
        rw [hr] at hs
        rcases hs with ⟨hf, ⟨he, hn⟩ | ⟨o, ho, hn⟩⟩
        · simp only [] at he
          subst he
          simp only [if_true]
          rw [hn]
          exact ih s1 hf
        · simp only [] at ho
          subst ho
          cases o with
          | none =>
            simp only []
            rw [← hn]
            exact ih s1 hf
          | some o =>
            simp only []
            rw [← hn]
            exact ⟨hf, some o, rfl, rfl⟩

theorem readUntil_readAll {rd : Str → Except Exc Dist} {l : List Str}
    (h : ∀ p ∈ l, ∃ d, rd p = .ok d) : readUntil rd l = readAll rd l := by
  induction l with
  | nil => rfl
  | cons p l ih =>
    obtain ⟨d, hd⟩ := h p (by simp)
    have := ih fun p hp => h p (by simp [hp])
    unfold readUntil readAll
    rw [hd, List.filterMap_cons, hd, this]
    rfl

/-- Lookups keep the cache in agreement with a file system that does not change. -/
theorem uses_fits {env : DistEnv W} {ls rd} (hE : Static env ls rd) (us : List (Use W))
    (s : DSt W) (h : Fits rd s)
    (hL : ∀ p e, ls p = .error e → e = .osError)
    (hO : ∀ d e, rd d = .error e → e = .osError) : Fits rd (Use.runAll env us s) := by
  induction us generalizing s with
  | nil => exact h
  | cons u us ih =>
    cases u with
    | search stop path =>
      exact ih _ (scanPath_static hE stop _ (fun p _ => hL p) (fun _ _ d _ => hO d) s h).1
    | world f => exact ih _ h

/-- C29: after any lookups, the lookups by file and by name give the first distribution in
path order with the file or the name, and nothing exactly when there is none.  Directories that
cannot be listed are skipped.  Missing for the full claim: dist-info directories that cannot be
read; they hide the rest of their directory (`C29_unreadable_hides`). -/
theorem C29_first_match_partial {env : DistEnv W} {ls rd} (hE : Static env ls rd)
    (hL : ∀ p e, ls p = .error e → e = .osError)
    (hO : ∀ d e, rd d = .error e → e = .osError)
    (us : List (Use W)) (w : W) (path : List Str)
    (hR : ∀ p ∈ path, ∀ d ∈ distInfos ls p, ∃ x, rd d = .ok x) :
    let s := Use.runAll env us { world := w }
    (∀ filename, ∃ o, (distributionForFile env filename (some path) s).1 = .ok o ∧
      o.map DObj.dist =
        (path.flatMap fun p => readAll rd (distInfos ls p)).find? (fun d => filename ∈ d.files)) ∧
    (∀ name, ∃ o, (distributionNamed env name (some path) s).1 = .ok o ∧
      o.map DObj.dist =
        (path.flatMap fun p => readAll rd (distInfos ls p)).find? (fun d => d.name = name)) := by
  intro s
  have hs : Fits rd s := uses_fits hE us _ (by intro p o hp; simp at hp) hL hO
  have e : (path.flatMap fun p => readUntil rd (distInfos ls p)) =
      path.flatMap fun p => readAll rd (distInfos ls p) := by
    have : ∀ l : List Str, (∀ p ∈ l, p ∈ path) →
        (l.flatMap fun p => readUntil rd (distInfos ls p)) =
          l.flatMap fun p => readAll rd (distInfos ls p) := by
      intro l
      induction l with
      | nil => intro _; rfl
      | cons p l ih =>
        intro h
        rw [List.flatMap_cons, List.flatMap_cons, ih fun q hq => h q (by simp [hq]),
          readUntil_readAll (hR p (h p (by simp)))]
    exact this path fun _ h => h
  constructor
  · intro filename
    have := (scanPath_static hE (fun d => d.files.contains filename) path (fun p _ => hL p)
      (fun _ _ d _ => hO d) s hs).2
    rw [e] at this
    obtain ⟨o, h1, h2⟩ := this
    refine ⟨o, h1, h2.trans ?_⟩
    congr 1
    funext d
    simp
  · intro name
    have := (scanPath_static hE (fun d => d.name == name) path (fun p _ => hL p)
      (fun _ _ d _ => hO d) s hs).2
    rw [e] at this
    obtain ⟨o, h1, h2⟩ := this
    refine ⟨o, h1, h2.trans ?_⟩
    congr 1
    funext d
    rw [Bool.eq_iff_iff]; simp

/-- C29: in general, after any lookups, the first match among the distributions before those that cannot be read, in
each directory of the path. -/
theorem C29_until {env : DistEnv W} {ls rd} (hE : Static env ls rd)
    (hL : ∀ p e, ls p = .error e → e = .osError) (hO : ∀ d e, rd d = .error e → e = .osError)
    (us : List (Use W)) (w : W) (path : List Str) :
    let s := Use.runAll env us { world := w }
    (∀ filename, ∃ o, (distributionForFile env filename (some path) s).1 = .ok o ∧
      o.map DObj.dist =
        (path.flatMap fun p => readUntil rd (distInfos ls p)).find? (fun d => filename ∈ d.files)) ∧
    (∀ name, ∃ o, (distributionNamed env name (some path) s).1 = .ok o ∧
      o.map DObj.dist =
        (path.flatMap fun p => readUntil rd (distInfos ls p)).find? (fun d => d.name = name)) := by
  intro s
  have hs : Fits rd s := uses_fits hE us _ (by intro p o hp; simp at hp) hL hO
  constructor
  · intro filename
    obtain ⟨o, h1, h2⟩ := (scanPath_static hE (fun d => d.files.contains filename) path (fun p _ => hL p)
      (fun _ _ d _ => hO d) s hs).2
    refine ⟨o, h1, h2.trans ?_⟩
    congr 1
    funext d
    simp
  · intro name
    obtain ⟨o, h1, h2⟩ := (scanPath_static hE (fun d => d.name == name) path (fun p _ => hL p)
      (fun _ _ d _ => hO d) s hs).2
    refine ⟨o, h1, h2.trans ?_⟩
    congr 1
    funext d
    rw [Bool.eq_iff_iff]; simp

theorem scanDir_error {env : DistEnv W} {ls rd} (hE : Static env ls rd) {stop : Dist → Bool} {entry : Str}
    {l : List Str} (hN : ∀ f ∈ l, '/' ∉ f) {s : DSt W} (h : Fits rd s) :
    Fits rd (scanDir env stop entry l s).2 ∧ ∀ e, (scanDir env stop entry l s).1 = .error e →
      ∃ f ∈ l, DistInfo f ∧ rd (inDir entry f) = .error e := by
  induction l generalizing s with
  | nil => exact ⟨h, fun e he => by cases he⟩
  | cons f l ih =>
    have ih := @ih fun f' hf' => hN f' (by simp [hf'])
    unfold scanDir
    rw [pathJoin_eq (hN f (by simp))]
    split
    · obtain ⟨h1, h2⟩ := ih h
      exact ⟨h1, fun e he => (h2 e he).imp fun g hg => ⟨by simp [hg.1], hg.2⟩⟩
    · rename_i hf
      obtain ⟨h1, h2, h3⟩ := cached_static hE (inDir entry f) s h
      have hd : DistInfo f := by
        unfold endsWith at hf
        simp only [Bool.not_eq_true', Bool.not_eq_false, List.isSuffixOf_iff_suffix] at hf
        obtain ⟨p, hp⟩ := hf
        exact ⟨p, hp.symm⟩
      rcases hr : cachedDistribution env (inDir entry f) s with ⟨e | o, s1⟩
      · rw [hr] at h1 h2
        refine ⟨h1, fun e' he => ⟨f, by simp, hd, ?_⟩⟩
        simp only [Except.error.injEq] at he
        exact (h2 e').mp (by rw [he])
      · rw [hr] at h1
        simp only []
        split
        · exact ⟨h1, fun e he => by cases he⟩
        · obtain ⟨h4, h5⟩ := ih (s := { s1 with yielded := s1.yielded ++ [(inDir entry f, o)] }) h1
          exact ⟨h4, fun e he => (h5 e he).imp fun g hg => ⟨by simp [hg.1], hg.2⟩⟩

theorem scanPath_error {env : DistEnv W} {ls rd} (hE : Static env ls rd) {stop : Dist → Bool} {path : List Str}
    {s : DSt W} (h : Fits rd s) {e} (he : (scanPath env stop path s).1 = .error e) :
    e ≠ .osError ∧ ∃ p ∈ path, ls p = .error e ∨ ∃ d ∈ distInfos ls p, rd d = .error e := by
  induction path generalizing s with
  | nil => cases he
  | cons p path ih =>
    have step : ∀ {s : DSt W}, Fits rd s → (scanPath env stop path s).1 = .error e →
        e ≠ .osError ∧ ∃ p' ∈ p :: path, ls p' = .error e ∨ ∃ d ∈ distInfos ls p', rd d = .error e :=
      fun h1 h2 => ⟨(ih h1 h2).1, (ih h1 h2).2.imp fun q hq => ⟨by simp [hq.1], hq.2⟩⟩
    unfold scanPath at he
    rw [hE.listdir] at he
    cases hl : ls p with
    | error e' =>
      rw [hl] at he
      simp only [] at he
      split at he
      · exact step h he
      · rename_i hne
        simp only [Except.error.injEq] at he
        subst he
        exact ⟨hne, p, by simp, .inl hl⟩
    | ok names =>
      rw [hl] at he
      simp only [] at he
      obtain ⟨h1, h2⟩ := scanDir_error (stop := stop) (entry := p) hE (hE.names p names hl) h
      rcases hr : scanDir env stop p names s with ⟨e' | o, s1⟩
      · rw [hr] at he h1 h2
        simp only [] at he
        split at he
        · exact step h1 he
        · rename_i hne
          simp only [Except.error.injEq] at he
          subst he
          obtain ⟨f, hf, hd, hx⟩ := h2 e' rfl
          refine ⟨hne, p, by simp, .inr ⟨inDir p f, ?_, hx⟩⟩
          unfold distInfos
          rw [hl]
          exact List.mem_map_of_mem (by simp [hf, hd])
      · rw [hr] at he h1
        cases o with
        | some o => cases he
        | none => exact step h1 he

/-- C29: a lookup fails only with the exception of a directory on the path, and never with an `OSError`. -/
theorem C29_error {env : DistEnv W} {ls rd} (hE : Static env ls rd) (s : DSt W) (h : Fits rd s) (path : List Str) {e}
    (he : (∃ filename, (distributionForFile env filename (some path) s).1 = .error e) ∨
      ∃ name, (distributionNamed env name (some path) s).1 = .error e) :
    e ≠ .osError ∧ ∃ p ∈ path, ls p = .error e ∨ ∃ d ∈ distInfos ls p, rd d = .error e := by
  rcases he with ⟨_, he⟩ | ⟨_, he⟩
  · exact scanPath_error hE h he
  · exact scanPath_error hE h he

/-- C28: a directory that could not be read is read again by the next lookup, in the world that the first one left. -/
theorem C28_retry {env : DistEnv W} {s : DSt W} {p f : Str} {w0 w1 w2 w3 : W} {x : Dist} {stop : Dist → Bool}
    (hf : DistInfo f) (hn : '/' ∉ f) (hc : s.cache.lookup (inDir p f) = none)
    (h0 : env.listdir p s.world = (.ok [f], w0)) (h1 : createDistribution env (inDir p f) w0 = (.error .osError, w1))
    (h2 : env.listdir p w1 = (.ok [f], w2)) (h3 : createDistribution env (inDir p f) w2 = (.ok x, w3))
    (hs : stop x = true) :
    ∃ s1 o s2, allDistributions env stop (some [p]) s = (.ok none, s1) ∧
      allDistributions env stop (some [p]) s1 = (.ok (some o), s2) ∧ o.dist = x ∧ s2.world = w3 := by
  have hd : endsWith c!".dist-info" f = true := by
    obtain ⟨q, rfl⟩ := hf
    unfold endsWith
    rw [List.isSuffixOf_iff_suffix]
    exact ⟨q, rfl⟩
  refine ⟨{ s with world := w1 }, ⟨s.next, x⟩, { s with
    world := w3, cache := (inDir p f, ⟨s.next, x⟩) :: s.cache, next := s.next + 1,
    created := s.created ++ [(inDir p f, ⟨s.next, x⟩)], yielded := s.yielded ++ [(inDir p f, ⟨s.next, x⟩)] },
    ?_, ?_, rfl, rfl⟩
  rotate_left
  · simp only [allDistributions, Option.getD_some, scanPath, h2, scanDir, hd, Bool.not_true, Bool.false_eq_true, if_false,
      pathJoin_eq hn, cachedDistribution, hc, h3, hs, if_true]
  · simp only [allDistributions, Option.getD_some, scanPath, h0, scanDir, hd, Bool.not_true, Bool.false_eq_true, if_false,
      pathJoin_eq hn, cachedDistribution, hc, h1, if_true]

/-- A world in which the file RECORD appears after the first attempt to read it. -/
example : ∃ env : DistEnv Nat, env.listdir c!"/p/" 0 = (.ok [c!"x.dist-info"], 0) ∧
    createDistribution env (inDir c!"/p/" c!"x.dist-info") 0 = (.error .osError, 1) ∧
    env.listdir c!"/p/" 1 = (.ok [c!"x.dist-info"], 1) ∧
    ∃ x, createDistribution env (inDir c!"/p/" c!"x.dist-info") 1 = (.ok x, 2) ∧ x.identifier = c!"/p/x.dist-info" :=
  ⟨{ sysPath := fun _ => [], listdir := fun _ w => (.ok [c!"x.dist-info"], w),
     metadata := fun _ w => (.ok c!"Name: x\nVersion: 1\n", w),
     record := fun _ w => (if w = 0 then .error .osError else .ok [], w + 1),
     extSuffixes := [] }, rfl, rfl, rfl, _, rfl, rfl⟩

/-- A file system: `/a` cannot be listed; `/b` has a distribution `x`, and `/c` has `y` after one
without RECORD file. -/
def distDemo : DistEnv Unit where
  sysPath _ := []
  listdir p w := (if p = c!"/b" then .ok [c!"x.txt", c!"x.dist-info"]
    else if p = c!"/c" then .ok [c!"broken.dist-info", c!"y.dist-info"]
    else if p = c!"/d" then .ok [c!"y.dist-info"] else .error .osError, w)
  metadata p w := (.ok (c!"Metadata-Version: 2.1\nName: " ++ (if p = c!"/b/x.dist-info" then c!"x" else c!"y") ++
    c!"\nVersion: 1\n\nVersion: 2"), w)
  record p w := (if p = c!"/c/broken.dist-info" then .error .osError
    else .ok (if p = c!"/b/x.dist-info" then c!"x.py,,\n" else c!"y.py,,\n"), w)
  extSuffixes := [c!".so"]

/-- C29 is false in general: a dist-info directory that cannot be read hides the distributions that
come after it in the same directory. -/
theorem C29_unreadable_hides :
    (distributionNamed distDemo c!"y" (some [c!"/c"]) { world := () }).1 = .ok none ∧
      (createDistribution distDemo c!"/c/y.dist-info" ()).1.toOption.map Dist.name = some c!"y" := by
  decide +kernel

theorem distDemo_static : Static distDemo (fun p => (distDemo.listdir p ()).1)
    (fun d => (createDistribution distDemo d ()).1) :=
  ⟨fun _ _ => rfl, fun e l h f hf => (by
    simp only [distDemo] at h
    split at h
    · cases h; revert f; decide
    · split at h
      · cases h; revert f; decide
      · split at h
        · cases h; revert f; decide
        · cases h), fun _ _ => rfl⟩

/-- The hypotheses of `C29_first_match_partial` hold for the path `/a`, `/b`, `/d`. -/
example : (∀ p ∈ [c!"/a", c!"/b", c!"/d"],
      ∀ d ∈ distInfos (fun p => (distDemo.listdir p ()).1) p,
        ((createDistribution distDemo d ()).1).toOption.isSome) ∧
    (distributionNamed distDemo c!"y" (some [c!"/a", c!"/b", c!"/d"]) { world := () }).1.toOption.map
      (fun o => o.map fun o => o.dist.identifier) = some (some c!"/d/y.dist-info") ∧
    (distributionForFile distDemo c!"/b/x.py" (some [c!"/a", c!"/b", c!"/d"])
      { world := () }).1.toOption.map
      (fun o => o.map fun o => o.dist.identifier) = some (some c!"/b/x.dist-info") := by
  decide +kernel

/-- Two lookups, one object. -/
example : (Use.runAll distDemo [.search (fun _ => false) (some [c!"/b"]),
      .search (fun d => d.name == c!"x") (some [c!"/d", c!"/b"])] { world := () }).created.map Prod.fst
    = [c!"/b/x.dist-info", c!"/d/y.dist-info"] := by decide +kernel

end Verif.Props
