import Verif.Spec.AstSpec
/-! Correctness of the AST scanner. -/
namespace Verif
open Spec

/-- Record for an entry. -/
def recordOf (ord : SetOrder) (e : Entry) : ImportInfo :=
  createImportInfo (e.module, e.asname) (e.names.map ord) e.level e.inFunction e.inConditional
    e.inTryExcept

/-- Entries of an occurrence below a queue item: the item's flags are added. -/
def entriesW (w : AstWork) (occ : List Via × Ast) : List Entry :=
  (entries occ).map fun e =>
    { e with inFunction := w.inDef || e.inFunction, inConditional := w.inIf || e.inConditional,
             inTryExcept := w.inTry || e.inTryExcept }

def entriesOf (w : AstWork) : List Entry := (occurrences w.node).flatMap (entriesW w)

theorem entriesW_shift (w w' : AstWork) (v : Via) (p : List Via) (x : Ast)
    (h1 : w'.inDef = (w.inDef || v == .inDef)) (h2 : w'.inIf = (w.inIf || v == .inIf))
    (h3 : w'.inTry = (w.inTry || v == .inTry)) :
    entriesW w (v :: p, x) = entriesW w' (p, x) := by
  unfold entriesW entries
  have e : ∀ a b : Via, (a == b) = decide (a = b) := by intro a b; cases a <;> cases b <;> rfl
  cases x <;> cases v <;> simp_all

theorem flatMap_shift (w : AstWork) (v : Via) (f : Ast → AstWork) (cs : List Ast)
    (hf : ∀ c, (f c).node = c) (h1 : ∀ c, (f c).inDef = (w.inDef || v == .inDef))
    (h2 : ∀ c, (f c).inIf = (w.inIf || v == .inIf))
    (h3 : ∀ c, (f c).inTry = (w.inTry || v == .inTry)) :
    (((cs.map occurrences).flatten.map (fun p => (v :: p.1, p.2))).flatMap (entriesW w))
      = (cs.map f).flatMap entriesOf := by
  induction cs with
  | nil => simp
  | cons c cs ih =>
    simp only [List.map_cons, List.flatten_cons, List.map_append, List.flatMap_append, ih,
      List.flatMap_cons]
    congr 1
    simp only [entriesOf, hf, List.flatMap_map]
    apply congrArg List.flatten
    apply List.map_congr_left
    intro p _
    exact entriesW_shift w (f c) v p.1 p.2 (h1 c) (h2 c) (h3 c)

theorem astRecords_eq (ord : SetOrder) (w : AstWork) :
    astRecords ord w = (entriesW w ([], w.node)).map (recordOf ord) := by
  obtain ⟨node, d, i, t⟩ := w
  cases node <;> simp [entriesW, entries, astRecords, recordOf]

theorem entriesOf_eq (w : AstWork) :
    entriesOf w = entriesW w ([], w.node) ++ (astPushes w).flatMap entriesOf := by
  obtain ⟨node, d, i, t⟩ := w
  cases node with
  | import_ names => simp [entriesOf, occurrences, astPushes]
  | importFrom m names l => simp [entriesOf, occurrences, astPushes]
  | if_ cs =>
    simp only [entriesOf, occurrences, List.flatMap_cons, astPushes]
    rw [flatMap_shift _ .inIf (fun c => { node := c, inDef := d, inIf := true, inTry := t }) cs
      (by simp) (by simp) (by simp) (by simp)]
  | funcDef cs =>
    simp only [entriesOf, occurrences, List.flatMap_cons, astPushes]
    rw [flatMap_shift _ .inDef (fun c => { node := c, inDef := true, inIf := i, inTry := t }) cs
      (by simp) (by simp) (by simp) (by simp)]
  | try_ b h o f =>
    simp only [entriesOf, occurrences, List.flatMap_cons, astPushes,
      List.flatMap_append, List.map_append]
    rw [flatMap_shift _ .inTry (fun c => { node := c, inDef := d, inIf := i, inTry := true }) b
      (by simp) (by simp) (by simp) (by simp),
      flatMap_shift _ .inTry (fun c => { node := c, inDef := d, inIf := i, inTry := true }) h
      (by simp) (by simp) (by simp) (by simp),
      flatMap_shift _ .inTry (fun c => { node := c, inDef := d, inIf := i, inTry := true }) o
      (by simp) (by simp) (by simp) (by simp),
      flatMap_shift _ .inFinally (fun c => { node := c, inDef := d, inIf := i, inTry := t }) f
      (by simp) (by simp) (by simp) (by simp)]
  | tryStar b h o f =>
    simp only [entriesOf, occurrences, List.flatMap_cons, astPushes,
      List.flatMap_append, List.map_append]
    rw [flatMap_shift _ .inTryStar (fun c => { node := c, inDef := d, inIf := i, inTry := t }) b
      (by simp) (by simp) (by simp) (by simp),
      flatMap_shift _ .inTryStar (fun c => { node := c, inDef := d, inIf := i, inTry := t }) h
      (by simp) (by simp) (by simp) (by simp),
      flatMap_shift _ .inTryStar (fun c => { node := c, inDef := d, inIf := i, inTry := t }) o
      (by simp) (by simp) (by simp) (by simp),
      flatMap_shift _ .inFinally (fun c => { node := c, inDef := d, inIf := i, inTry := t }) f
      (by simp) (by simp) (by simp) (by simp)]
  | other cs =>
    simp only [entriesOf, occurrences, List.flatMap_cons, astPushes]
    rw [flatMap_shift _ .plain (fun c => { node := c, inDef := d, inIf := i, inTry := t }) cs
      (by simp) (by simp) (by simp) (by simp)]

/-- The loop's yields are the records of some rearrangement of the entries below the queue. -/
theorem astLoop_perm (ord : SetOrder) (q : List AstWork) :
    ∃ es : List Entry, es.Perm (q.flatMap entriesOf) ∧ astLoop ord q = es.map (recordOf ord) := by
  fun_induction astLoop ord q with
  | case1 => exact ⟨[], by simp, rfl⟩
  | case2 w rest ih =>
    obtain ⟨es, hp, he⟩ := ih
    refine ⟨entriesW w ([], w.node) ++ es, ?_, ?_⟩
    · rw [List.flatMap_cons, entriesOf_eq, List.append_assoc]
      refine List.Perm.append_left _ (hp.trans ?_)
      rw [List.flatMap_append]
      exact List.perm_append_comm
    · rw [List.map_append, he, astRecords_eq]

theorem dedupNames_sublist (l : List ImpName) : (dedupNames l).Sublist l := by
  induction l with
  | nil => simp [dedupNames]
  | cons x xs ih =>
    simp only [dedupNames]
    exact (List.filter_sublist.trans ih).cons_cons x

theorem dedupNames_nodup (l : List ImpName) : ((dedupNames l).map ImpName.name).Nodup := by
  induction l with
  | nil => simp [dedupNames]
  | cons x xs ih =>
    simp only [dedupNames, List.map_cons, List.nodup_cons]
    constructor
    · simp
    · exact List.Sublist.nodup (List.filter_sublist.map _) ih

theorem dedupNames_complete (l : List ImpName) : ∀ x ∈ l, ∃ y ∈ dedupNames l, y.name = x.name := by
  induction l with
  | nil => simp
  | cons a xs ih =>
    intro x hx
    simp only [dedupNames]
    by_cases h : x.name = a.name
    · exact ⟨a, by simp, h.symm⟩
    · rcases List.mem_cons.mp hx with rfl | hx
      · exact absurd rfl h
      · obtain ⟨y, hy, he⟩ := ih x hx
        refine ⟨y, ?_, he⟩
        simp only [List.mem_cons, List.mem_filter]
        right
        exact ⟨hy, by simp [he, h]⟩

theorem recordOf_describes {ord : SetOrder} (h : ∀ l x, x ∈ ord l ↔ x ∈ l) (e : Entry) :
    Describes (recordOf ord e) e := by
  obtain ⟨m, a, l, ns, f, c, t⟩ := e
  cases ns with
  | none =>
    constructor <;> simp [recordOf, createImportInfo]
  | some ns =>
    have hs : ∀ n ∈ dedupNames ((ord ns).map fun t => ({ name := t.1, asname := t.2 } : ImpName)),
        (n.name, n.asname) ∈ ns := by
      intro n hn
      have := (dedupNames_sublist _).subset hn
      obtain ⟨t, ht, rfl⟩ := List.mem_map.mp this
      exact (h ns _).mp ht
    have hc : ∀ nm a, (nm, a) ∈ ns →
        ∃ n ∈ dedupNames ((ord ns).map fun t => ({ name := t.1, asname := t.2 } : ImpName)),
          n.name = nm := by
      intro nm a hm
      have hm' := (h ns _).mpr hm
      exact dedupNames_complete _ ⟨nm, a⟩ (List.mem_map.mpr ⟨(nm, a), hm', rfl⟩)
    have hn := dedupNames_nodup ((ord ns).map fun t => ({ name := t.1, asname := t.2 } : ImpName))
    generalize hd : dedupNames ((ord ns).map fun t => ({ name := t.1, asname := t.2 } : ImpName))
      = d at hs hc hn
    have hmem : ∀ n, n ∈ (recordOf ord ⟨m, a, l, some ns, f, c, t⟩).importNames ↔
        n ∈ d ∧ n.name ≠ c!"*" := by
      intro n
      simp only [recordOf, createImportInfo, Option.map_some, hd]
      split
      · simp
      · rename_i hst
        simp only [List.any_eq_true, not_exists, not_and, beq_iff_eq] at hst
        exact ⟨fun hx => ⟨hx, hst n hx⟩, And.left⟩
    constructor
    case star =>
      simp only [recordOf, createImportInfo, Option.map_some, hd, List.any_eq_true, beq_iff_eq]
      constructor
      · rintro ⟨n, hn, he⟩
        exact ⟨ns, rfl, n.asname, he ▸ hs n hn⟩
      · rintro ⟨l, he, a, hm⟩
        cases he
        obtain ⟨n, h1, h2⟩ := hc _ _ hm
        exact ⟨n, h1, h2⟩
    case names_nodup =>
      simp only [recordOf, createImportInfo, Option.map_some, hd]
      split
      · exact List.Sublist.nodup (List.filter_sublist.map _) hn
      · exact hn
    case names_sound =>
      intro n hn
      obtain ⟨h1, h2⟩ := (hmem n).mp hn
      exact ⟨h2, ns, rfl, hs n h1⟩
    case names_complete =>
      intro l he nm a hm hne
      cases he
      obtain ⟨n, h1, h2⟩ := hc _ _ hm
      exact ⟨n, (hmem n).mpr ⟨h1, by rw [h2]; exact hne⟩, h2⟩
    all_goals rfl

theorem Spec.Forall2.length_eq {α β : Type} {R : α → β → Prop} {l : List α} {m : List β}
    (h : Forall2 R l m) : l.length = m.length := by
  induction h <;> simp_all

theorem entriesOf_root (a : Ast) :
    entriesOf { node := a, inDef := false, inIf := false, inTry := false }
      = (occurrences a).flatMap entries := by
  simp only [entriesOf]
  congr 1
  funext o
  simp [entriesW]

theorem mem_below {cs : List Ast} {p : List Via × Ast} :
    p ∈ (cs.map occurrences).flatten ↔ ∃ c ∈ cs, p ∈ occurrences c := by
  simp only [List.mem_flatten, List.mem_map]
  grind

theorem mem_shift {v : Via} {l : List (List Via × Ast)} {way : List Via} {x : Ast} :
    (way, x) ∈ l.map (fun p => (v :: p.1, p.2)) ↔
      ∃ way', way = v :: way' ∧ (way', x) ∈ l := by
  simp only [List.mem_map, Prod.mk.injEq, Prod.exists]
  constructor
  · rintro ⟨w, y, h, rfl, rfl⟩
    exact ⟨w, rfl, h⟩
  · rintro ⟨w, rfl, h⟩
    exact ⟨w, x, h, rfl, rfl⟩

theorem mem_occurrences_iff (a : Ast) :
    ∀ (way : List Via) (x : Ast), (way, x) ∈ occurrences a ↔ Nested a way x := by
  intro way
  induction way generalizing a with
  | nil =>
    intro x
    constructor
    · intro h
      have : x = a := by
        cases a <;> simp only [occurrences, List.mem_cons, List.mem_append, mem_shift] at h <;>
          simp_all only [reduceCtorEq, false_and, exists_false, or_false, Prod.mk.injEq, true_and,
            List.not_mem_nil]
      subst this; exact .here _
    · intro h
      cases h
      cases a <;> simp [occurrences]
  | cons v way ih =>
    intro x
    constructor
    · intro h
      cases a <;> simp only [occurrences, List.mem_cons, List.mem_append, mem_shift, mem_below,
        Prod.mk.injEq, reduceCtorEq, false_and, false_or, List.not_mem_nil, List.cons.injEq,
        or_false] at h
      case if_ cs =>
        obtain ⟨w, ⟨rfl, rfl⟩, c, hc, h⟩ := h
        exact .inIf hc ((ih c x).mp h)
      case funcDef cs =>
        obtain ⟨w, ⟨rfl, rfl⟩, c, hc, h⟩ := h
        exact .inDef hc ((ih c x).mp h)
      case try_ b h' o f =>
        rcases h with ⟨w, ⟨rfl, rfl⟩, (⟨c, hc, h⟩ | ⟨c, hc, h⟩) | ⟨c, hc, h⟩⟩ |
          ⟨w, ⟨rfl, rfl⟩, c, hc, h⟩
        · exact .inTryBody hc ((ih c x).mp h)
        · exact .inTryHandler hc ((ih c x).mp h)
        · exact .inTryElse hc ((ih c x).mp h)
        · exact .inFinally hc ((ih c x).mp h)
      case tryStar b h' o f =>
        rcases h with ⟨w, ⟨rfl, rfl⟩, (⟨c, hc, h⟩ | ⟨c, hc, h⟩) | ⟨c, hc, h⟩⟩ |
          ⟨w, ⟨rfl, rfl⟩, c, hc, h⟩
        · exact .inTryStarBody hc ((ih c x).mp h)
        · exact .inTryStarHandler hc ((ih c x).mp h)
        · exact .inTryStarElse hc ((ih c x).mp h)
        · exact .inStarFinally hc ((ih c x).mp h)
      case other cs =>
        obtain ⟨w, ⟨rfl, rfl⟩, c, hc, h⟩ := h
        exact .plain hc ((ih c x).mp h)
    · intro h
      cases h <;> rename_i hc h <;> have := (ih _ x).mpr h <;>
        simp only [occurrences, List.mem_cons, List.mem_append, mem_shift, mem_below] <;> grind

end Verif
