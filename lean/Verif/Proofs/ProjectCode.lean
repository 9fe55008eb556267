import Verif.Proofs.ProjectText
import Verif.Props.Bytecode
/-!
# The records for code, in a project
-/
namespace Verif.Proj
open Verif Spec

theorem ext_split {a a' t t' : List Instr} {x x' : Instr} (ha : ExtArgs a) (ha' : ExtArgs a') (hx : x.op ≠ .extendedArg)
    (hx' : x'.op ≠ .extendedArg) (h : a ++ x :: t = a' ++ x' :: t') : a = a' ∧ x = x' ∧ t = t' := by
  induction a generalizing a' with
  | nil =>
    cases a' with
    | nil => cases h; exact ⟨rfl, rfl, rfl⟩
    | cons y a' =>
      cases h
      exact absurd (ha' x (List.mem_cons_self ..)) hx
  | cons y a ih =>
    cases a' with
    | nil =>
      cases h
      exact absurd (ha x' (List.mem_cons_self ..)) hx'
    | cons z a' =>
      obtain ⟨rfl, h1⟩ := List.cons_eq_cons.mp h
      obtain ⟨rfl, h2⟩ := ih (fun x hx => ha x (.tail _ hx)) (fun x hx => ha' x (.tail _ hx)) h1
      exact ⟨rfl, h2⟩

/-- An instruction imports one module. -/
theorem import_unique {e e' c i m l n m' l' n'} (h : ImportAt e c i m l n) (h' : ImportAt e' c i m' l' n') :
    m = m' ∧ l = l' ∧ n = n' := by
  obtain ⟨pre, li, e1, f, e2, k, post, hi, hat, he1, he2, -, -, hl, hf, hk⟩ := h
  obtain ⟨pre', li', e1', f', e2', k', post', hi', hat', he1', he2', -, -, hl', hf', hk'⟩ := h'
  have hh : (pre ++ li :: (e1 ++ f :: e2)) ++ (⟨.importName, some k⟩ :: post) =
      (pre' ++ li' :: (e1' ++ f' :: e2')) ++ (⟨.importName, some k'⟩ :: post') := by
    simpa using hi.symm.trans hi'
  obtain ⟨h1, h2⟩ := List.append_inj hh (by simp; omega)
  cases h2
  have h3 := congrArg List.reverse h1
  simp only [List.reverse_append, List.reverse_cons, List.append_assoc, List.cons_append, List.nil_append] at h3
  have hr : ∀ {e}, ExtArgs e → ExtArgs e.reverse := fun he x hx => he x (List.mem_reverse.mp hx)
  have hfo : ∀ {f : Instr} {n}, LoadsNames c f n → f.op ≠ .extendedArg := by
    rintro f n ⟨k, rfl, _⟩
    simp
  have hlo : ∀ {f : Instr} {n}, LoadsInt c f n → f.op ≠ .extendedArg := by
    rintro f n (rfl | ⟨k, rfl, _⟩) <;> simp
  obtain ⟨-, rfl, h4⟩ := ext_split (hr he2) (hr he2') (hfo hf) (hfo hf') h3
  obtain ⟨-, rfl, -⟩ := ext_split (hr he1) (hr he1') (hlo hl) (hlo hl') h4
  refine ⟨Option.some.inj (hk.symm.trans hk'), ?_, ?_⟩
  · rcases hl with rfl | ⟨a, rfl, ha⟩ <;> rcases hl' with h | ⟨b, h, hb⟩ <;> cases h
    · rfl
    · rw [ha] at hb
      cases hb
      rfl
  · obtain ⟨a, rfl, ha⟩ := hf
    obtain ⟨b, h, hb⟩ := hf'
    cases h
    rw [ha] at hb
    cases n <;> cases n' <;> simp_all

theorem forall2_right {α β : Type} {R : α → β → Prop} {l : List α} {m : List β} (h : Forall2 R l m) {b : β} (hb : b ∈ m) :
    ∃ a ∈ l, R a b := by
  induction h with
  | nil => cases hb
  | cons hr _ ih =>
    rcases List.mem_cons.mp hb with rfl | hb
    · exact ⟨_, List.mem_cons_self .., hr⟩
    · obtain ⟨a, ha, h⟩ := ih hb
      exact ⟨a, .tail _ ha, h⟩

theorem forall2_left {α β : Type} {R : α → β → Prop} {l : List α} {m : List β} (h : Forall2 R l m) {a : α} (ha : a ∈ l) :
    ∃ b ∈ m, R a b := by
  induction h with
  | nil => cases ha
  | cons hr _ ih =>
    rcases List.mem_cons.mp ha with rfl | ha
    · exact ⟨_, List.mem_cons_self .., hr⟩
    · obtain ⟨b, hb, h⟩ := ih ha
      exact ⟨b, .tail _ hb, h⟩

theorem import_number {e c i m l n} (h : ImportAt e c i m l n) : i ∈ importInstrs c := by
  obtain ⟨a, ha⟩ := h.instr
  unfold importInstrs
  refine List.mem_map.mpr ⟨(⟨.importName, a⟩, i), List.mem_filter.mpr ⟨?_, rfl⟩, rfl⟩
  exact List.mem_zipIdx_iff_getElem?.mpr ha

/-- The records for code. -/
theorem Recs.code {new : Bool} {code : Code} {tree : Ast} (h : CodeOf new code tree) {imports : List ImportInfo}
    {g r : List Str} (he : extractBytecodeInfo new code = .ok (imports, g, r)) : Recs tree imports := by
  obtain ⟨imports', g', r', parts, h1, h2, h3, h4⟩ := Props.C37_records_partial new code h.nodup h.compiled
  rw [he] at h1
  cases h1
  have no : ∀ {way : List Via} {v}, v ∉ way → way.contains v = false := by
    intro way v hv
    simpa using hv
  have fnEq : ∀ {fn : Bool} {way : List Via} {c}, (fn = true ↔ InFunction new code c) →
      (.inDef ∈ way ↔ InFunction new code c) → way.contains .inDef = fn := by
    intro fn way c h5 h6
    rw [Bool.eq_iff_iff, List.contains_iff_mem, h6, h5]
  -- the record of an instruction
  have found : ∀ {c i m l names}, c ∈ codes code → ImportAt 1 c i m l names →
      ∃ r ∈ imports, ∃ fn : Bool, (fn = true ↔ InFunction new code c) ∧ Describes r (bEntry fn m l names) := by
    intro c i m l names hc hi
    obtain ⟨x, hx, rfl⟩ := List.mem_map.mp (h2.mem_iff.mpr hc)
    obtain ⟨r, hr, m', l', names', h5, fn, h6, h7⟩ := forall2_left (h4 x hx) (import_number hi)
    obtain ⟨rfl, rfl, rfl⟩ := import_unique hi h5
    exact ⟨r, h3 ▸ List.mem_flatMap.mpr ⟨x, hx, hr⟩, fn, h6, h7⟩
  constructor
  · intro i hi
    rw [h3] at hi
    obtain ⟨x, hx, hi⟩ := List.mem_flatMap.mp hi
    have hc : x.1 ∈ codes code := h2.mem_iff.mp (List.mem_map_of_mem hx)
    obtain ⟨k, hk, m, l, names, h5, fn, h6, h7⟩ := forall2_right (h4 x hx) hi
    obtain ⟨way, h8, h9, h10, h11⟩ := h.fromTree _ hc _ _ _ _ h5
    cases names with
    | none =>
      obtain ⟨rfl, ns, h12, h13⟩ := h11
      refine ⟨way, _, _, h12, ?_, h7⟩
      simp only [entries]
      refine List.mem_map.mpr ⟨_, h13, ?_⟩
      simp [bEntry, ← fnEq h6 h8, h9, h10]
    | some t =>
      obtain ⟨name, rfl, h12⟩ := h11
      refine ⟨way, _, _, h12, ?_, h7⟩
      simp [entries, bEntry, ← fnEq h6 h8, h9, h10]
  · intro way x e hn hx
    cases x with
    | import_ ns =>
      obtain ⟨⟨m, a⟩, hm, rfl⟩ := List.mem_map.mp hx
      obtain ⟨rfl, h9, h10, c, hc, i, h8, h5⟩ := h.imports _ _ _ _ hn hm
      obtain ⟨r, hr, fn, h6, h7⟩ := found hc h5
      refine ⟨r, hr, ?_⟩
      simpa [bEntry, ← fnEq h6 h8, h9, h10] using h7
    | importFrom name ns l =>
      obtain ⟨h9, h10, t, rfl, c, hc, i, h8, h5⟩ := h.froms _ _ _ _ hn
      obtain ⟨r, hr, fn, h6, h7⟩ := found hc h5
      refine ⟨r, hr, ?_⟩
      cases List.mem_singleton.mp hx
      simpa [bEntry, ← fnEq h6 h8, h9, h10] using h7
    | _ => cases hx

end Verif.Proj
