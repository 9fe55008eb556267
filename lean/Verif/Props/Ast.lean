import Verif.Proofs.Ast
/-!
# Properties C22, C23, C24: the AST scanner
-/
namespace Verif.Props
open Verif Verif.Spec

/-- A set order that keeps the first of equal elements; used in the examples. -/
def exOrd : SetOrder := fun l => l.foldr (fun x acc => if x ∈ acc then acc else x :: acc) []

theorem exOrd_ok : exOrd.Ok := by
  intro l
  induction l with
  | nil => simp [exOrd]
  | cons a l ih =>
    simp only [exOrd, List.foldr_cons] at *
    split
    · refine ⟨ih.1, fun x => ?_⟩
      rw [ih.2 x]
      have := ih.2 a
      grind
    · refine ⟨List.nodup_cons.mpr ⟨by assumption, ih.1⟩, fun x => ?_⟩
      simp [ih.2 x]

/-- `if c: try: import a.b as x, os; finally: def f(): from ..p import *, q` -/
def exTree : Ast :=
  .other [.if_ [.other [], .try_
    [.import_ [(c!"a.b", some c!"x"), (c!"os", none)]] [] []
    [.funcDef [.importFrom (some c!"p") [(c!"*", none), (c!"q", none)] 2]]]]

/-- **C22.** For every tree: the records are, up to order, in one-to-one correspondence with
the `import` aliases and `from` statements that occur anywhere in the tree.  (Termination is
part of `extractAstInfo` being a function; `es` pairs each record with its statement.) -/
theorem C22_ast_scan_exactly_once (ord : SetOrder) (h : ord.Ok) (root : Ast) :
    ∃ es : List Entry, es.Perm ((occurrences root).flatMap entries) ∧
      Forall2 Describes (extractAstInfo ord root) es := by
  obtain ⟨es, hp, he⟩ := astLoop_perm ord
    [{ node := root, inDef := false, inIf := false, inTry := false }]
  refine ⟨es, ?_, ?_⟩
  · simpa [entriesOf_root] using hp
  · rw [extractAstInfo, he]
    clear he hp
    induction es with
    | nil => exact .nil
    | cons e es ih => exact .cons (recordOf_describes (fun l => (h l).2) e) ih

/-- The nodes listed by `occurrences` are exactly the nodes nested in the tree. -/
theorem C22_occurrences_are_nested (root : Ast) (way : List Via) (x : Ast) :
    (way, x) ∈ occurrences root ↔ Nested root way x := mem_occurrences_iff root way x

/-- Exactly one record per alias and `from` statement, as a count. -/
theorem C22_count (ord : SetOrder) (h : ord.Ok) (root : Ast) :
    (extractAstInfo ord root).length =
      ((occurrences root).map fun o => match o.2 with
        | .import_ names => names.length
        | .importFrom _ _ _ => 1
        | _ => 0).sum := by
  obtain ⟨es, hp, hf⟩ := C22_ast_scan_exactly_once ord h root
  rw [hf.length_eq, hp.length_eq, List.length_flatMap]
  congr 1
  apply List.map_congr_left
  rintro ⟨w, x⟩ _
  cases x <;> simp [entries]

example : (occurrences exTree).flatMap entries =
    [⟨c!"a.b", some c!"x", 0, none, false, true, true⟩, ⟨c!"os", none, 0, none, false, true, true⟩,
     ⟨c!"p", none, 2, some [(c!"*", none), (c!"q", none)], true, true, false⟩] := by
  simp [exTree, occurrences, entries]

/-- The statement belonging to a record, as the English property C23 sees it: the record
`i` comes from the `import`/`from` statement `x` that is reached from `root` along `way`. -/
def ComesFrom (root : Ast) (i : ImportInfo) (way : List Via) : Prop :=
  (∃ names, Nested root way (.import_ names) ∧ (i.importModule.name, i.importModule.asname) ∈ names)
  ∨ (∃ m names l, Nested root way (.importFrom m names l) ∧ i.importModule.name = m.getD [] ∧
      i.importLevel = l)

/-- **C23**, partial.  Each record comes from a statement such that the record is marked "in
function" iff the statement is nested in a `def`, "in conditional" iff nested in an `if`, "in
try/except" iff nested in the body, handlers or else part of a `try`; conversely every import
statement has such a record.  *Missing from the full claim:* `try ... except*` statements do not
count as `try` statements (see `C23_counterexample_trystar`); the full claim reads
`i.inTryExcept = true ↔ Via.inTry ∈ way ∨ Via.inTryStar ∈ way`. -/
theorem C23_ast_flags_partial (ord : SetOrder) (h : ord.Ok) (root : Ast) :
    (∀ i ∈ extractAstInfo ord root, ∃ way, ComesFrom root i way ∧
      (i.inFunction = true ↔ Via.inDef ∈ way) ∧
      (i.inConditional = true ↔ Via.inIf ∈ way) ∧
      (i.inTryExcept = true ↔ Via.inTry ∈ way)) ∧
    (∀ way names, Nested root way (.import_ names) → ∀ nm ∈ names,
      ∃ i ∈ extractAstInfo ord root, (i.importModule.name, i.importModule.asname) = nm ∧
        (i.inFunction = true ↔ Via.inDef ∈ way) ∧
        (i.inConditional = true ↔ Via.inIf ∈ way) ∧
        (i.inTryExcept = true ↔ Via.inTry ∈ way)) ∧
    (∀ way m names l, Nested root way (.importFrom m names l) →
      ∃ i ∈ extractAstInfo ord root, i.importModule.name = m.getD [] ∧ i.importLevel = l ∧
        (i.inFunction = true ↔ Via.inDef ∈ way) ∧
        (i.inConditional = true ↔ Via.inIf ∈ way) ∧
        (i.inTryExcept = true ↔ Via.inTry ∈ way)) := by
  obtain ⟨es, hp, hf⟩ := C22_ast_scan_exactly_once ord h root
  have back : ∀ e ∈ (occurrences root).flatMap entries,
      ∃ i ∈ extractAstInfo ord root, Describes i e := by
    intro e he
    have := hp.mem_iff.mpr he
    generalize extractAstInfo ord root = l at hf
    clear hp he
    induction hf with
    | nil => cases this
    | cons hd _ ih =>
      rcases List.mem_cons.mp this with rfl | hm
      · exact ⟨_, by simp, hd⟩
      · obtain ⟨i, hi, hd⟩ := ih hm
        exact ⟨i, by simp [hi], hd⟩
  have forth : ∀ i ∈ extractAstInfo ord root,
      ∃ e ∈ (occurrences root).flatMap entries, Describes i e := by
    intro i hi
    have : ∃ e ∈ es, Describes i e := by
      generalize extractAstInfo ord root = l at hf hi
      clear hp back
      induction hf with
      | nil => cases hi
      | cons hd _ ih =>
        rcases List.mem_cons.mp hi with rfl | hm
        · exact ⟨_, by simp, hd⟩
        · obtain ⟨i, hi, hd⟩ := ih hm
          exact ⟨i, by simp [hi], hd⟩
    obtain ⟨e, he, hd⟩ := this
    exact ⟨e, hp.mem_iff.mp he, hd⟩
  have hmemC : ∀ (way : List Via) (v : Via), way.contains v = true ↔ v ∈ way := by
    intro way v; simp
  refine ⟨?_, ?_, ?_⟩
  · intro i hi
    obtain ⟨e, he, hd⟩ := forth i hi
    obtain ⟨⟨way, x⟩, ho, hx⟩ := List.mem_flatMap.mp he
    have hn := (mem_occurrences_iff root way x).mp ho
    refine ⟨way, ?_, ?_⟩
    · cases x <;> simp only [entries, List.mem_map, List.not_mem_nil, List.mem_cons,
        or_false] at hx
      case import_ names =>
        obtain ⟨nm, hnm, rfl⟩ := hx
        refine .inl ⟨names, hn, ?_⟩
        rw [hd.module, hd.asname]; exact hnm
      case importFrom m names l =>
        subst hx
        exact .inr ⟨m, names, l, hn, hd.module, hd.level⟩
    · cases x <;> simp only [entries, List.mem_map, List.not_mem_nil, List.mem_cons,
        or_false] at hx
      case import_ names =>
        obtain ⟨nm, hnm, rfl⟩ := hx
        rw [hd.inFunction, hd.inConditional, hd.inTryExcept]
        exact ⟨hmemC _ _, hmemC _ _, hmemC _ _⟩
      case importFrom m names l =>
        subst hx
        rw [hd.inFunction, hd.inConditional, hd.inTryExcept]
        exact ⟨hmemC _ _, hmemC _ _, hmemC _ _⟩
  · intro way names hn nm hnm
    have ho := (mem_occurrences_iff root way _).mpr hn
    obtain ⟨i, hi, hd⟩ := back _ (List.mem_flatMap.mpr ⟨_, ho, List.mem_map.mpr ⟨nm, hnm, rfl⟩⟩)
    refine ⟨i, hi, by rw [hd.module, hd.asname], ?_⟩
    rw [hd.inFunction, hd.inConditional, hd.inTryExcept]
    exact ⟨hmemC _ _, hmemC _ _, hmemC _ _⟩
  · intro way m names l hn
    have ho := (mem_occurrences_iff root way _).mpr hn
    obtain ⟨i, hi, hd⟩ := back _ (List.mem_flatMap.mpr ⟨_, ho, List.mem_cons_self⟩)
    refine ⟨i, hi, hd.module, hd.level, ?_⟩
    rw [hd.inFunction, hd.inConditional, hd.inTryExcept]
    exact ⟨hmemC _ _, hmemC _ _, hmemC _ _⟩

/-- Non-vacuity: a statement nested in `finally` inside a `def` inside an `if`. -/
example : Nested exTree [.plain, .inIf, .inFinally, .inDef]
    (.importFrom (some c!"p") [(c!"*", none), (c!"q", none)] 2) :=
  .plain List.mem_cons_self (.inIf (List.mem_cons_of_mem _ List.mem_cons_self)
    (.inFinally List.mem_cons_self (.inDef List.mem_cons_self (.here _))))

/-- C23: `is_optional` is the disjunction of the three flags and `is_global` the negation of
"in function". -/
theorem C23_is_optional_is_global (i : ImportInfo) :
    (i.isOptional = true ↔ i.inFunction = true ∨ i.inConditional = true ∨ i.inTryExcept = true) ∧
    (i.isGlobal = true ↔ ¬ i.inFunction = true) := by
  constructor
  · simp [ImportInfo.isOptional, or_assoc]
  · simp [ImportInfo.isGlobal]

/-- The full C23 is false of the code: an import in the body of `try: ... except* E: ...` is not
marked as being inside a try/except statement. -/
theorem C23_counterexample_trystar :
    ∃ root way, Nested root way (.import_ [(c!"m", none)]) ∧ Via.inTryStar ∈ way ∧
      ∀ i ∈ extractAstInfo exOrd root, i.inTryExcept = false ∧ i.isOptional = false := by
  refine ⟨.tryStar [.import_ [(c!"m", none)]] [] [] [], [.inTryStar],
    .inTryStarBody (by simp) (.here _), by simp, ?_⟩
  intro i hi
  simp [extractAstInfo, astLoop, astRecords, astPushes, createImportInfo] at hi
  subst hi
  exact ⟨rfl, rfl⟩

/-- **C24**, partial.  For every from-list (given to `create_importinfo` in any iteration order):
the record keeps module, as-name, level and flags; its names are exactly the from-list's names
other than `*`, each once; it is a star import iff `*` occurs; each name carries an as-name the
statement gives for it, and if the statement gives no name two different as-names, all pairs
are kept.  *Missing:* when a name is imported twice under different as-names only one of the
two is kept (`C24_counterexample_two_asnames`). -/
theorem C24_record_names_partial (module : Str × Option Str)
    (l : List (Str × Option Str)) (level : Nat) (d c t : Bool) :
    let i := createImportInfo module (some l) level d c t
    i.importModule = ⟨module.1, module.2⟩ ∧ i.importLevel = level ∧
    i.inFunction = d ∧ i.inConditional = c ∧ i.inTryExcept = t ∧
    (i.importNames.map ImpName.name).Nodup ∧
    (∀ nm, nm ∈ i.importNames.map ImpName.name ↔ nm ≠ c!"*" ∧ nm ∈ l.map Prod.fst) ∧
    (i.starImport = true ↔ c!"*" ∈ l.map Prod.fst) ∧
    (∀ n ∈ i.importNames, (n.name, n.asname) ∈ l) ∧
    ((∀ nm a b, (nm, a) ∈ l → (nm, b) ∈ l → a = b) →
      ∀ nm a, (nm, a) ∈ l → nm ≠ c!"*" → ⟨nm, a⟩ ∈ i.importNames) := by
  intro i
  have hd : Describes i ⟨module.1, module.2, level, some l, d, c, t⟩ :=
    recordOf_describes (ord := fun l => l) (fun _ _ => Iff.rfl)
      ⟨module.1, module.2, level, some l, d, c, t⟩
  have hs : ∀ n ∈ i.importNames, (n.name, n.asname) ∈ l := by
    intro n hn
    obtain ⟨_, l', he, hm⟩ := hd.names_sound n hn
    cases he; exact hm
  refine ⟨rfl, hd.level, hd.inFunction, hd.inConditional, hd.inTryExcept, hd.names_nodup,
    ?_, ?_, hs, ?_⟩
  · intro nm
    simp only [List.mem_map]
    constructor
    · rintro ⟨n, hn, rfl⟩
      exact ⟨(hd.names_sound n hn).1, _, hs n hn, rfl⟩
    · rintro ⟨hne, ⟨a, b⟩, hm, rfl⟩
      exact hd.names_complete l rfl a b hm hne
  · rw [hd.star]
    simp only [List.mem_map, Prod.exists, Option.some.injEq]
    constructor
    · rintro ⟨l', rfl, a, hm⟩; exact ⟨_, a, hm, rfl⟩
    · rintro ⟨x, a, hm, rfl⟩; exact ⟨l, rfl, a, hm⟩
  · intro hf nm a hm hne
    obtain ⟨n, hn, he⟩ := hd.names_complete l rfl nm a hm hne
    have : n.asname = a := hf nm _ _ (he ▸ hs n hn) hm
    obtain ⟨x, y⟩ := n
    simp only at he this
    subst he this
    exact hn

/-- Non-vacuity of the last clause's hypothesis: `from m import a as x, b, *`. -/
example : ∀ nm a b, (nm, a) ∈ [(c!"a", some c!"x"), (c!"b", none), (c!"*", none)] →
    (nm, b) ∈ [(c!"a", some c!"x"), (c!"b", none), (c!"*", none)] → a = b := by
  simp; grind

/-- C24 for plain imports: no names, not a star import. -/
theorem C24_plain_import (module : Str × Option Str) (level : Nat) (d c t : Bool) :
    createImportInfo module none level d c t =
      { importModule := ⟨module.1, module.2⟩, importLevel := level, importNames := [],
        starImport := false, inFunction := d, inConditional := c, inTryExcept := t } := rfl

/-- The full C24 is false: `from m import a as b, a as c` keeps only one of the as-names, in
whatever order the set is iterated. -/
theorem C24_counterexample_two_asnames (ord : SetOrder) (h : ord.Ok) :
    let l := [(c!"a", some c!"b"), (c!"a", some c!"c")]
    ∀ i ∈ extractAstInfo ord (.importFrom (some c!"m") l 0),
      i.importNames.length = 1 := by
  intro l i hi
  simp [extractAstInfo, astLoop, astRecords, astPushes] at hi
  have := C24_record_names_partial (c!"m", none) (ord l) 0 false false false
  rw [← hi] at this
  obtain ⟨-, -, -, -, -, hnd, hmem, -⟩ := this
  have hall : ∀ nm ∈ i.importNames.map ImpName.name, nm = c!"a" := by
    intro nm hnm
    obtain ⟨_, hm⟩ := (hmem nm).mp hnm
    obtain ⟨p, hp, rfl⟩ := List.mem_map.mp hm
    have := ((h l).2 p).mp hp
    simp [l] at this
    rcases this with rfl | rfl <;> rfl
  have hin : c!"a" ∈ i.importNames.map ImpName.name :=
    (hmem _).mpr ⟨by decide, List.mem_map.mpr ⟨(c!"a", some c!"b"), ((h l).2 _).mpr (by simp [l]), rfl⟩⟩
  rw [← List.length_map (f := ImpName.name)]
  generalize i.importNames.map ImpName.name = q at *
  match q, hin with
  | [x], _ => rfl
  | x :: y :: r, _ =>
    have hx := hall x (by simp)
    have hy := hall y (by simp)
    subst hx hy
    simp at hnd

end Verif.Props
