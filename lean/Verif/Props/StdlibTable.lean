import Verif.Props.NoFailureExample
import Verif.Spec.TableSpec
/-!
# C65: the table of the standard library

The graph builder has a built-in table of implied modules.  It cannot make the construction of a graph
fail, unless the packages `turtledemo` or `dbm` are not installed.
-/
namespace Verif.Props
open Verif Spec

/-- The modules that an entry of the table leads to. -/
def tableTargets : Implies → List Str
  | .excluded => []
  | .alias t | .virtual t => [t]
  | .refs l => l

theorem dictUpdate_mem {d e : List (Str × Implies)} {p : Str × Implies} (h : p ∈ dictUpdate d e) :
    p ∈ d ∨ p ∈ e := by
  induction e generalizing d with
  | nil => exact .inl h
  | cons a e ih =>
    obtain ⟨k, v⟩ := a
    rw [dictUpdate] at h
    split at h
    · rcases ih h with h | h
      · obtain ⟨q, hq, rfl⟩ := List.mem_map.mp h
        split
        · exact .inr (List.mem_cons_self ..)
        · exact .inl hq
      · exact .inr (List.mem_cons_of_mem _ h)
    · rcases ih h with h | h
      · rcases List.mem_append.mp h with h | h
        · exact .inl h
        · exact .inr (by rw [List.mem_singleton.mp h]; exact List.mem_cons_self ..)
      · exact .inr (List.mem_cons_of_mem _ h)

/-- The names in the table that have dots, their packages, and the other ones. -/
def dottedNames : List Str := [c!"asyncio.events", c!"asyncio.base_futures", c!"asyncio.base_tasks",
  c!"asyncio.coroutines", c!"xml.etree.ElementPath", c!"xml.etree", c!"json.decoder", c!"importlib.resources",
  c!"comtypes.server.inprocserver", c!"comtypes.server"]
def ownNames : List Str := [c!"turtledemo.colormixer", c!"turtledemo.nim", c!"turtledemo.rosette",
  c!"turtledemo.yinyang", c!"turtledemo.forest", c!"turtledemo.paint", c!"turtledemo.round_dance",
  c!"turtledemo.bytedesign", c!"turtledemo.fractalcurves", c!"turtledemo.peace",
  c!"turtledemo.sorting_animate", c!"turtledemo.chaos", c!"turtledemo.lindenmayer",
  c!"turtledemo.penrose", c!"turtledemo.tree", c!"turtledemo.clock",
  c!"turtledemo.minimal_hanoi", c!"turtledemo.planet_and_moon", c!"turtledemo.two_canvases",
  c!"dbm.gnu", c!"dbm.ndbm", c!"dbm.dumb"]

theorem base_split (o s : Str) : stdlibImpliesBase o s =
    (stdlibImpliesBase [] []).take 17 ++ (c!"os.path", .alias o) ::
      (((stdlibImpliesBase [] []).drop 18).take 2 ++ (c!"sysconfig", .refs [s]) ::
        (stdlibImpliesBase [] []).drop 21) := rfl

theorem base_cases {o s : Str} {p : Str × Implies} (h : p ∈ stdlibImpliesBase o s) :
    p ∈ stdlibImpliesBase [] [] ∨ p = (c!"os.path", .alias o) ∨ p = (c!"sysconfig", .refs [s]) := by
  rw [base_split] at h
  rcases List.mem_append.mp h with h | h
  · exact .inl (List.mem_of_mem_take h)
  rcases List.mem_cons.mp h with h | h
  · exact .inr (.inl h)
  rcases List.mem_append.mp h with h | h
  · exact .inl (List.mem_of_mem_drop (List.mem_of_mem_take h))
  rcases List.mem_cons.mp h with h | h
  · exact .inr (.inr h)
  · exact .inl (List.mem_of_mem_drop h)

section
variable {o s : Str} {win32 : Bool}

theorem table_cases {p : Str × Implies} (h : p ∈ stdlibImplies o s win32) :
    p ∈ stdlibImpliesBase [] [] ++ win32Implies ∨ p = (c!"os.path", .alias o) ∨ p = (c!"sysconfig", .refs [s]) := by
  rcases dictUpdate_mem h with h | h
  · exact (base_cases h).imp_left (List.mem_append_left _)
  · cases win32
    · cases h
    · exact .inl (List.mem_append_right _ h)

theorem table_targets (ho : '.' ∉ o) (hs : '.' ∉ s) {k : Str} {v : Implies} (h : (k, v) ∈ stdlibImplies o s win32)
    {t : Str} (ht : t ∈ tableTargets v) :
    '.' ∉ t ∨ t ∈ dottedNames ∨ t ∈ ownNames ∧ (k = c!"turtledemo" ∨ k = c!"dbm") := by
  rcases table_cases h with h | h | h
  · have key : ∀ p ∈ stdlibImpliesBase [] [] ++ win32Implies, ∀ t ∈ tableTargets p.2,
      '.' ∉ t ∨ t ∈ dottedNames ∨ t ∈ ownNames ∧ (p.1 = c!"turtledemo" ∨ p.1 = c!"dbm") := by decide +kernel
    exact key _ h t ht
  · cases h
    rw [List.mem_singleton.mp ht]
    exact .inl ho
  · cases h
    rw [List.mem_singleton.mp ht]
    exact .inl hs

/-- Names that are not configured in the table. -/
theorem table_keys {k : Str} {v : Implies} (h : (k, v) ∈ stdlibImplies o s win32) :
    k ∉ dottedNames ∧ k ≠ c!"asyncio" ∧ k ≠ c!"xml" ∧ k ≠ c!"json" ∧ k ≠ c!"importlib" ∧ k ≠ c!"comtypes" ∧
      k ≠ c!"pkgutil" ∧ k ≠ c!"pkg_resources" ∧ k ≠ [] := by
  rcases table_cases h with h | h | h
  · have key : ∀ p ∈ stdlibImpliesBase [] [] ++ win32Implies, p.1 ∉ dottedNames ∧ p.1 ≠ c!"asyncio" ∧ p.1 ≠ c!"xml" ∧
      p.1 ≠ c!"json" ∧ p.1 ≠ c!"importlib" ∧ p.1 ≠ c!"comtypes" ∧ p.1 ≠ c!"pkgutil" ∧ p.1 ≠ c!"pkg_resources" ∧
      p.1 ≠ [] := by decide +kernel
    exact key _ h
  · cases h; decide +kernel
  · cases h; decide +kernel

/-- The packages of the names with dots. -/
theorem dotted_package {y p : Str} (h : y ∈ dottedNames) (hp : HasPackage y p) :
    p ∈ dottedNames ∨ p = c!"asyncio" ∨ p = c!"xml" ∨ p = c!"json" ∨ p = c!"importlib" ∨ p = c!"comtypes" := by
  have key : ∀ y ∈ dottedNames, ∃ q, HasPackage y q ∧
      (q ∈ dottedNames ∨ q = c!"asyncio" ∨ q = c!"xml" ∨ q = c!"json" ∨ q = c!"importlib" ∨ q = c!"comtypes") := by
    have key' : ∀ y ∈ dottedNames, (rpartition '.' y).1 ++ '.' :: (rpartition '.' y).2.2 = y ∧
      ((rpartition '.' y).1 ∈ dottedNames ∨ (rpartition '.' y).1 = c!"asyncio" ∨ (rpartition '.' y).1 = c!"xml" ∨
        (rpartition '.' y).1 = c!"json" ∨ (rpartition '.' y).1 = c!"importlib" ∨ (rpartition '.' y).1 = c!"comtypes") := by
      decide +kernel
    intro y hy
    exact ⟨_, ⟨_, (key' y hy).1.symm, Verif.rpartition_last y⟩, (key' y hy).2⟩
  obtain ⟨q, h1, h2⟩ := key y h
  rw [hp.unique h1]
  exact h2

theorem configured_mem {excludes : List Str} {T : List (Str × Implies)} {x : Str} {v : Implies}
    (h : configured excludes T x = some v) : v = .excluded ∨ (x, v) ∈ T := by
  unfold configured at h
  split at h
  · cases h; exact .inl rfl
  · obtain ⟨q, hq, rfl⟩ := Option.map_eq_some_iff.mp h
    have h1 := List.mem_of_find?_eq_some hq
    have h2 := List.find?_some hq
    rw [← of_decide_eq_true h2]
    exact .inr (List.mem_reverse.mp h1)

/-- A set of names that is closed has everything that is brought. -/
theorem Brings.closed {S : Setup} {T : List (Str × Implies)} {excludes : List Str}
    (hc : S.conf = configured excludes T) (hown : ∀ x n infos, S.mods x = some (n, infos) → n.ident = x)
    (hload : ∀ x n infos, S.mods x = some (n, infos) → n.isLoaded = true)
    {P : Str → Prop} {x : Str} (hx : P x) (hp : ∀ y p, P y → HasPackage y p → P p)
    (ht : ∀ y v t, P y → S.conf y = some v → (y, v) ∈ T → t ∈ tableTargets v → P t)
    (hn : ∀ ns, P (Setup.nsModule ns)) {y : Str} (h : S.Brings x y) : P y := by
  induction h with
  | self => exact hx
  | package _ h2 ih => exact hp _ _ ih h2
  | @alias y n t _ h2 h3 ih =>
    have own : ∀ {z : Str} {n : Node}, S.NodeFor z n → (n.kind = .alias t ∨ n.kind = .virtual t) →
        ∃ v, S.conf z = some v ∧ t ∈ tableTargets v ∧ v ≠ .excluded := by
      intro z n h h'
      have : S.Own z n := by
        cases h with
        | top _ h => exact h
        | sub _ _ _ _ h => exact h
        | inMissing => simp at h'
        | inExcluded => simp at h'
      cases this with
      | excluded => simp at h'
      | alias hz => simp at h'; exact ⟨_, hz, by simp [tableTargets, h'], by simp⟩
      | virtual hz => simp at h'; exact ⟨_, hz, by simp [tableTargets, h'], by simp⟩
      | found _ hm _ =>
        have := hload _ _ _ hm
        rcases h' with h' | h' <;>
          simp [Node.isLoaded, Node.isModule, Node.isPackage, Node.isNamespacePkg, h'] at this
      | foundAs _ hm hne => exact absurd (hown _ _ _ hm) hne
      | absent => simp at h'
    obtain ⟨v, h4, h5, h6⟩ := own h2 h3
    refine ht _ v _ ih h4 ?_ h5
    rw [hc] at h4
    exact (configured_mem h4).resolve_left h6
  | @implied y l r _ _ h3 h4 ih =>
    refine ht _ _ _ ih h3 ?_ h4
    rw [hc] at h3
    exact (configured_mem h3).resolve_left (by simp)
  | explicitNamespace _ _ _ ih => exact hn _

theorem ownNames_package {y p : Str} (h : y ∈ ownNames) (hp : HasPackage y p) : p = c!"turtledemo" ∨ p = c!"dbm" := by
  have key : ∀ y ∈ ownNames, (rpartition '.' y).1 ++ '.' :: (rpartition '.' y).2.2 = y ∧
      ((rpartition '.' y).1 = c!"turtledemo" ∨ (rpartition '.' y).1 = c!"dbm") := by
    decide +kernel
  rw [hp.unique ⟨_, (key y h).1.symm, Verif.rpartition_last y⟩]
  exact (key y h).2

/-- With the built-in table, no missing or excluded package brings a module of that package. -/
theorem stdlib_once {S : Setup} (ho : '.' ∉ o) (hs : '.' ∉ s) {excludes : List Str}
    (hc : S.conf = configured excludes (stdlibImplies o s win32))
    (hown : ∀ x n infos, S.mods x = some (n, infos) → n.ident = x)
    (hload : ∀ x n infos, S.mods x = some (n, infos) → n.isLoaded = true)
    (hi : ∀ x, x = c!"turtledemo" ∨ x = c!"dbm" → S.NeedsModule x → S.mods x ≠ none) :
    ∀ y p q, S.NeedsModule y → HasPackage y p → S.NodeFor p q →
      (q.isMissing = true ∨ q.isExcluded = true) → ¬ S.Brings p y := by
  intro y p q hy hp hq hb hbr
  have hlen := hp.shorter
  have hns : ∀ ns, '.' ∉ Setup.nsModule ns := by intro ns; cases ns <;> decide
  have hD : y ∈ dottedNames ∨ y ∈ ownNames := by
    have := Brings.closed (P := fun z => z.length ≤ p.length ∨ '.' ∉ z ∨ z ∈ dottedNames ∨ z ∈ ownNames) hc hown hload
      (.inl (Nat.le_refl _)) ?_ ?_ (fun ns => .inr (.inl (hns ns))) hbr
    · rcases this with h | h | h | h
      · omega
      · exact absurd hp.dot h
      · exact .inl h
      · exact .inr h
    · intro z r hz hr
      rcases hz with h | h | h | h
      · exact .inl (by have := hr.shorter; omega)
      · exact absurd hr.dot h
      · rcases dotted_package h hr with h | h
        · exact .inr (.inr (.inl h))
        · refine .inr (.inl ?_)
          rcases h with rfl | rfl | rfl | rfl | rfl <;> decide
      · refine .inr (.inl ?_)
        rcases ownNames_package h hr with rfl | rfl <;> decide
    · intro z v t _ _ hv ht
      rcases table_targets ho hs hv ht with h | h | h
      · exact .inr (.inl h)
      · exact .inr (.inr (.inl h))
      · exact .inr (.inr (.inr h.1))
  rcases hD with hD | hD
  · have := Brings.closed (P := fun z => z.length ≤ p.length ∧ (z ∈ dottedNames ∨ z = c!"asyncio" ∨ z = c!"xml" ∨
        z = c!"json" ∨ z = c!"importlib" ∨ z = c!"comtypes") ∨ z = c!"pkgutil" ∨ z = c!"pkg_resources") hc hown hload
      (.inl ⟨Nat.le_refl _, dotted_package hD hp⟩) ?_ ?_ (fun ns => by cases ns <;> simp [Setup.nsModule]) hbr
    · rcases this with ⟨h, _⟩ | h
      · omega
      · have : '.' ∉ y := by rcases h with rfl | rfl <;> decide
        exact this hp.dot
    · intro z r hz hr
      rcases hz with ⟨h1, h⟩ | h
      · refine .inl ⟨by have := hr.shorter; omega, ?_⟩
        rcases h with h | h
        · exact dotted_package h hr
        · have : '.' ∉ z := by rcases h with rfl | rfl | rfl | rfl | rfl <;> decide
          exact absurd hr.dot this
      · have : '.' ∉ z := by rcases h with rfl | rfl <;> decide
        exact absurd hr.dot this
    · intro z v t hz _ hv ht
      obtain ⟨k1, k2, k3, k4, k5, k6, k7, k8, k9⟩ := table_keys hv
      rcases hz with ⟨_, h | h | h | h | h | h⟩ | h | h
      all_goals contradiction
  · have hpp := ownNames_package hD hp
    have hdot : '.' ∉ p := by rcases hpp with rfl | rfl <;> decide
    have hne : p ≠ c!"__main__" := by rcases hpp with rfl | rfl <;> decide
    have hown' : S.Own p q := by
      cases hq with
      | top _ h => exact h
      | sub h => exact absurd h.dot hdot
      | inMissing h => exact absurd h.dot hdot
      | inExcluded h => exact absurd h.dot hdot
    have hex : S.conf p = some .excluded := by
      obtain ⟨tr, hy⟩ := hy
      cases hown' with
      | excluded h => exact h
      | alias => simp [Node.isMissing, Node.isExcluded] at hb
      | virtual => simp [Node.isMissing, Node.isExcluded] at hb
      | found _ hm =>
        have := hload _ _ _ hm
        unfold Node.isLoaded Node.isModule Node.isPackage Node.isNamespacePkg at this
        unfold Node.isMissing Node.isExcluded at hb
        cases hk : q.kind <;> simp_all
      | foundAs => simp [Node.isMissing, Node.isExcluded] at hb
      | absent _ h => exact absurd h (hi p hpp ⟨_, .package hy hp⟩)
    have := Brings.closed (P := fun z => z = p ∨ z = c!"pkgutil" ∨ z = c!"pkg_resources") hc hown hload
      (.inl rfl) ?_ ?_ (fun ns => by cases ns <;> simp [Setup.nsModule]) hbr
    · rcases this with h | h
      · rw [h] at hlen; omega
      · have : '.' ∉ y := by rcases h with rfl | rfl <;> decide
        exact this hp.dot
    · intro z r hz hr
      have : '.' ∉ z := by
        rcases hz with rfl | rfl | rfl
        · exact hdot
        · decide
        · decide
      exact absurd hr.dot this
    · intro z v t hz hcz hv ht
      obtain ⟨k1, k2, k3, k4, k5, k6, k7, k8, k9⟩ := table_keys hv
      rcases hz with rfl | h | h
      · rw [hex] at hcz
        cases hcz
        cases ht
      · contradiction
      · contradiction

/-- Nothing but the table is configured, besides excludes; all modules are found under their own names;
`turtledemo` and `dbm` are installed, if they are needed. -/
structure OnlyTable (S : Setup) (o s : Str) (win32 : Bool) (excludes : List Str) : Prop where
  osPath : '.' ∉ o
  sysconfigData : '.' ∉ s
  conf : S.conf = configured excludes (stdlibImplies o s win32)
  own : ∀ x n infos, S.mods x = some (n, infos) → n.ident = x
  installed : ∀ x, x = c!"turtledemo" ∨ x = c!"dbm" → S.NeedsModule x → S.mods x ≠ none

/-- C65: the table of the standard library does not make calls fail, whatever is excluded.  Missing:
installations without `turtledemo` (or `dbm`), see `C63_turtledemo`; modules found under other names. -/
theorem C65_table_partial {W : Type} (S : Setup) (hT : S.Tame) {excludes : List Str}
    (ht : OnlyTable S o s win32 excludes) (hn : ∀ x, S.NeedsModule x → ∃ pre last, IsSplit x 0 pre last)
    (hcode : ∀ x n infos, S.mods x = some (n, infos) → n.isNamespacePkg = true → infos = [])
    (env : Env W) (hD : S.Describes env) (hW : S.Works env) (hO : env.OrderExact) (ops : List ApiOp)
    (ha : S.AskedBy ops) (hs : ScriptsOnce ops) (w : W) (builtin : Bool) (n : Nat) :
    let r := runClient env (n + 1) (configureThen excludes [] (doAll ops))
      (initState w (stdlibImplies o s win32) builtin)
    r.1 ≠ .error .fuel → (∃ x, r.1 = .ok x) ∧ Event.failed ∉ r.2.log :=
  C63_no_failure S hT ⟨hn, hcode, stdlib_once ht.osPath ht.sysconfigData ht.conf ht.own hT.loaded ht.installed⟩
    env hD hW hO ops ha hs w _ builtin excludes [] (by rw [ht.conf, List.append_nil]) n

end

/-! ## The entries -/

/-- An entry for other modules. -/
def asRefs (p : Str × Str) : Str × Implies := (p.1, .refs (splitAll ' ' p.2))

/-- The entries for aliases and virtual modules. -/
def tableRest (o : Str) : List (Str × Implies) := [(c!"typing.io", .virtual c!"typing"), (c!"typing.re", .virtual c!"typing"),
      (c!"os.path", .alias o), (c!"xml.parsers.expat.model", .alias c!"pyexpat"),
      (c!"xml.parsers.expat.errors", .alias c!"pyexpat")]

theorem table_plain (o s : Str) : stdlibImplies o s false =
    (impliedText.take 15).map asRefs ++ tableRest o ++ (c!"sysconfig", .refs [s]) :: (impliedText.drop 15).map asRefs := rfl

theorem table_windows (o s : Str) : stdlibImplies o s true =
    (impliedText.take 11).map asRefs ++ [(c!"posix", .refs []), asRefs (c!"signal", c!"_signal _socket")] ++
      ((impliedText.drop 13).take 2).map asRefs ++ tableRest o ++ (c!"sysconfig", .refs []) :: (impliedText.drop 15).map asRefs
      ++ [asRefs (c!"ctypes", c!"comtypes.server.inprocserver")] := rfl

theorem implied_split (p : Str × Str) : p ∈ impliedText ↔
    p ∈ impliedText.take 15 ∨ p ∈ impliedText.drop 15 := by
  rw [← List.mem_append, List.take_append_drop]

theorem implied_unlike : ∀ p ∈ impliedText, (p.1 ≠ c!"signal" ∧ p.1 ≠ c!"posix") ↔
    p ∈ impliedText.take 11 ∨ p ∈ (impliedText.drop 13).take 2 ∨ p ∈ impliedText.drop 15 := by decide +kernel

theorem implied_part (p : Str × Str) (h : p ∈ impliedText.take 11 ∨ p ∈ (impliedText.drop 13).take 2 ∨ p ∈ impliedText.drop 15) :
    p ∈ impliedText := by
  rcases h with h | h | h
  · exact List.mem_of_mem_take h
  · exact List.mem_of_mem_drop (List.mem_of_mem_take h)
  · exact List.mem_of_mem_drop h

theorem mem_asRefs {k : Str} {v : Implies} {l : List (Str × Str)} :
    (k, v) ∈ l.map asRefs ↔ ∃ text, (k, text) ∈ l ∧ v = .refs (splitAll ' ' text) := by
  constructor
  · intro h
    obtain ⟨⟨k', t⟩, h1, h2⟩ := List.mem_map.mp h
    cases h2
    exact ⟨t, h1, rfl⟩
  · rintro ⟨t, h1, rfl⟩
    exact List.mem_map.mpr ⟨_, h1, rfl⟩

theorem mem_tableRest {o s : Str} {b : Bool} {k : Str} {v : Implies} (h : (k, v) ∈ tableRest o) : TableEntry o s b k v := by
  simp only [tableRest, List.mem_cons, List.not_mem_nil, or_false, Prod.mk.injEq] at h
  rcases h with ⟨rfl, rfl⟩ | ⟨rfl, rfl⟩ | ⟨rfl, rfl⟩ | ⟨rfl, rfl⟩ | ⟨rfl, rfl⟩
  · exact .typing (.inl rfl)
  · exact .typing (.inr rfl)
  · exact .osPath rfl
  · exact .expat (.inl rfl)
  · exact .expat (.inr rfl)

/-- C65: the entries of the table are the ones in `_implies.py`. -/
theorem C65_entries (o s : Str) (win32 : Bool) (k : Str) (v : Implies) :
    (k, v) ∈ stdlibImplies o s win32 ↔ TableEntry o s win32 k v := by
  cases win32 with
  | false =>
    rw [table_plain]
    simp only [List.mem_append, List.mem_cons, mem_asRefs]
    constructor
    · rintro ((⟨t, h1, rfl⟩ | h) | h | ⟨t, h1, rfl⟩)
      · exact .refs ((implied_split _).mpr (.inl h1)) (by simp)
      · exact mem_tableRest h
      · cases h; exact .sysconfig rfl rfl
      · exact .refs ((implied_split _).mpr (.inr h1)) (by simp)
    · intro h
      cases h with
      | refs h _ => exact ((implied_split _).mp h).elim (fun h => .inl (.inl ⟨_, h, rfl⟩)) (fun h => .inr (.inr ⟨_, h, rfl⟩))
      | windows h => cases h
      | empty h => cases h
      | sysconfig _ h => exact .inr (.inl (by rw [h]))
      | osPath h => exact .inl (.inr (by simp [tableRest, h]))
      | expat h => exact .inl (.inr (by rcases h with h | h <;> simp [tableRest, h]))
      | typing h => exact .inl (.inr (by rcases h with h | h <;> simp [tableRest, h]))
  | true =>
    rw [table_windows]
    simp only [List.mem_append, List.mem_cons, mem_asRefs, List.not_mem_nil, or_false]
    constructor
    · have hr : ∀ t, (k, t) ∈ impliedText.take 11 ∨ (k, t) ∈ (impliedText.drop 13).take 2 ∨ (k, t) ∈ impliedText.drop 15 →
          TableEntry o s true k (.refs (splitAll ' ' t)) :=
        fun t h => .refs (implied_part _ h) fun _ => (implied_unlike _ (implied_part _ h)).mpr h
      rintro (((((⟨t, h1, rfl⟩ | h | h) | ⟨t, h1, rfl⟩) | h) | h | ⟨t, h1, rfl⟩) | h)
      · exact hr t (.inl h1)
      · cases h; exact .empty rfl (.inr rfl)
      · cases h; exact .windows (text := c!"_signal _socket") rfl (by simp [windowsText])
      · exact hr t (.inr (.inl h1))
      · exact mem_tableRest h
      · cases h; exact .empty rfl (.inl rfl)
      · exact hr t (.inr (.inr h1))
      · cases h; exact .windows (text := c!"comtypes.server.inprocserver") rfl (by simp [windowsText])
    · intro h
      cases h with
      | refs h hn =>
        rcases (implied_unlike _ h).mp (hn rfl) with h | h | h
        · exact .inl (.inl (.inl (.inl (.inl ⟨_, h, rfl⟩))))
        · exact .inl (.inl (.inl (.inr ⟨_, h, rfl⟩)))
        · exact .inl (.inr (.inr ⟨_, h, rfl⟩))
      | windows _ h =>
        simp only [windowsText, List.mem_cons, Prod.mk.injEq, List.not_mem_nil, or_false] at h
        rcases h with ⟨rfl, rfl⟩ | ⟨rfl, rfl⟩
        · exact .inl (.inl (.inl (.inl (.inr (.inr rfl)))))
        · exact .inr rfl
      | empty _ h =>
        rcases h with h | h
        · exact .inl (.inr (.inl (by rw [h])))
        · exact .inl (.inl (.inl (.inl (.inr (.inl (by rw [h]))))))
      | sysconfig h => cases h
      | osPath h => exact .inl (.inl (.inr (by simp [tableRest, h])))
      | expat h => exact .inl (.inl (.inr (by rcases h with h | h <;> simp [tableRest, h])))
      | typing h => exact .inl (.inl (.inr (by rcases h with h | h <;> simp [tableRest, h])))

/-- On Windows `signal` implies two modules. -/
example : TableEntry c!"posixpath" c!"_sysconfigdata" true c!"signal" (.refs [c!"_signal", c!"_socket"]) :=
  .windows (text := c!"_signal _socket") rfl (by simp [windowsText])

end Verif.Props
