import Verif.Proofs.EdgeFacts
/-! # Symbolic execution of the methods -/
namespace Verif
open Spec
variable {W : Type} {α β γ : Type}

namespace M
theorem bind_assoc (m : M W α) (f : α → M W β) (g : β → M W γ) :
    M.bind (M.bind m f) g = M.bind m fun a => M.bind (f a) g := by
  funext s
  unfold M.bind
  cases m s with
  | mk r s1 => cases r <;> rfl
theorem bind_ofExcept (a : α) (f : α → M W β) (s : St W) :
    M.bind (M.ofExcept (.ok a)) f s = f a s := rfl
theorem bind_pure (a : α) (f : α → M W β) (s : St W) : M.bind (M.pure a) f s = f a s := rfl
theorem bind_get (f : St W → M W β) (s : St W) : M.bind M.get f s = f s s := rfl
theorem bind_modify (g : St W → St W) (f : Unit → M W β) (s : St W) :
    M.bind (M.modify g) f s = f () (g s) := rfl
theorem bind_schedule (n i) (f : Unit → M W β) (s : St W) :
    M.bind (M.schedule n i) f s = f () (s.schedule n i) := rfl
theorem bind_findNode (n) (f : Option Node → M W β) (s : St W) :
    M.bind (M.findNode n) f s = f (s.find n) s := rfl
theorem bind_findModule_none {n} (f : Option Node → M W β) {s : St W} (h : s.find n = none) :
    M.bind (M.findModule n) f s = f none s :=
  bind_of_ok (by unfold M.findModule; rw [h])
theorem bind_findModule_some {n x} (f : Option Node → M W β) {s : St W} (h : s.find n = some x)
    (hb : x.isBaseNode = true) : M.bind (M.findModule n) f s = f (some x) s :=
  bind_of_ok (by unfold M.findModule; rw [h]; simp [hb])
theorem bind_addNode {n : Node} (f : Unit → M W β) {s : St W} (h : s.has n.ident = false) :
    M.bind (M.addNode n) f s = f () (s.addNode n) :=
  bind_of_ok (by unfold M.addNode; rw [if_neg (by simp [h])])
theorem bind_addEdge {a b d} (f : Unit → M W β) {s : St W} (h : s.has a = true)
    (h' : s.has b = true) : M.bind (M.addEdge a b d) f s = f () (s.addEdge a b d) :=
  bind_of_ok (by unfold M.addEdge; rw [if_pos (by simp [h, h'])])
theorem addEdge_apply {a b d} {s : St W} (h : s.has a = true)
    (h' : s.has b = true) : M.addEdge a b d s = (.ok (), s.addEdge a b d) := by
  unfold M.addEdge; rw [if_pos (by simp [h, h'])]
theorem bind_addRoot {a} (f : Unit → M W β) {s : St W} (h : s.has a = true) :
    M.bind (M.addRoot a) f s = f () (s.addRoot a) :=
  bind_of_ok (by unfold M.addRoot; rw [if_pos h])
theorem bind_assert {b : Bool} (f : Unit → M W β) {s : St W} (h : b = true) :
    M.bind (M.assert b) f s = f () s := by subst h; rfl
theorem bind_ext {x : Ext W α} {a w} (f : α → M W β) {s : St W} (h : x s.world = (.ok a, w)) :
    M.bind (M.ext x) f s = f a { s with world := w } :=
  bind_of_ok (by unfold M.ext; rw [h])
theorem findModule_ok {n r} {s s' : St W} (h : M.findModule n s = (.ok r, s')) :
    s' = s ∧ r = s.find n ∧ (∀ x, r = some x → x.isBaseNode = true) := by
  unfold M.findModule at h
  cases hf : s.find n with
  | none => rw [hf] at h; simp at h; simp [← h.1, ← h.2]
  | some x =>
    rw [hf] at h
    simp only [] at h
    split at h
    · simp only [Prod.mk.injEq, Except.ok.injEq] at h
      rename_i hb
      exact ⟨h.2.symm, h.1.symm, by intro y hy; rw [← h.1] at hy; simp at hy; exact hy ▸ hb⟩
    · simp at h
theorem addEdge_ok {a b d} {s s' : St W} {u} (h : M.addEdge a b d s = (.ok u, s')) :
    s.has a = true ∧ s.has b = true ∧ s' = s.addEdge a b d := by
  unfold M.addEdge at h
  split at h
  · rename_i hh
    simp at h hh
    exact ⟨hh.1, hh.2, h.symm⟩
  · simp at h
theorem addRoot_ok {a} {s s' : St W} {u} (h : M.addRoot a s = (.ok u, s')) :
    s.has a = true ∧ s' = s.addRoot a := by
  unfold M.addRoot at h
  split at h
  · rename_i hh
    simp at h
    exact ⟨hh, h.symm⟩
  · simp at h
theorem addNode_ok {n} {s s' : St W} {u} (h : M.addNode n s = (.ok u, s')) :
    s.has n.ident = false ∧ s' = s.addNode n := by
  unfold M.addNode at h
  split at h
  · simp at h
  · rename_i hh
    simp at h hh
    exact ⟨by simpa using hh, h.symm⟩
theorem ext_ok {x : Ext W α} {s s' : St W} {a} (h : M.ext x s = (.ok a, s')) :
    (x s.world).1 = .ok a ∧ s' = { s with world := (x s.world).2 } := by
  unfold M.ext at h
  simp at h
  exact ⟨h.1, h.2.symm⟩
theorem assert_ok {b} {s s' : St W} {u} (h : M.assert b s = (.ok u, s')) : b = true ∧ s' = s := by
  unfold M.assert at h
  split at h
  · simp [M.pure] at h; exact ⟨by assumption, h.symm⟩
  · simp [M.throw] at h
theorem ofExcept_ok {x : Except Exc α} {s s' : St W} {a} (h : M.ofExcept x s = (.ok a, s')) :
    x = .ok a ∧ s' = s := by
  unfold M.ofExcept at h
  simp at h
  exact ⟨h.1, h.2.symm⟩
end M

theorem schedule_nodes (s : St W) (n i) : (s.schedule n i).nodes = s.nodes := by
  unfold St.schedule; simp only []; split <;> rfl
theorem schedule_roots (s : St W) (n i) : (s.schedule n i).roots = s.roots := by
  unfold St.schedule; simp only []; split <;> rfl
theorem schedule_world (s : St W) (n i) : (s.schedule n i).world = s.world := by
  unfold St.schedule; simp only []; split <;> rfl
theorem schedule_gw (s : St W) (n i) : (s.schedule n i).gw = s.gw := by
  unfold St.schedule; simp only []; split <;> rfl
theorem schedule_missHooks (s : St W) (n i) : (s.schedule n i).missHooks = s.missHooks := by
  unfold St.schedule; simp only []; split <;> rfl
theorem schedule_postHooks (s : St W) (n i) : (s.schedule n i).postHooks = s.postHooks := by
  unfold St.schedule; simp only []; split <;> rfl
theorem addEdge_missHooks (s : St W) (a b d) : (s.addEdge a b d).missHooks = s.missHooks := by
  unfold St.addEdge; split <;> rfl
theorem addEdge_postHooks (s : St W) (a b d) : (s.addEdge a b d).postHooks = s.postHooks := by
  unfold St.addEdge; split <;> rfl
theorem addEdge_nodes (s : St W) (a b d) : (s.addEdge a b d).nodes = s.nodes := by
  unfold St.addEdge; split <;> rfl
theorem addEdge_roots (s : St W) (a b d) : (s.addEdge a b d).roots = s.roots := by
  unfold St.addEdge; split <;> rfl
theorem addEdge_world (s : St W) (a b d) : (s.addEdge a b d).world = s.world := by
  unfold St.addEdge; split <;> rfl
theorem addEdge_gw (s : St W) (a b d) : (s.addEdge a b d).gw = s.gw := by
  unfold St.addEdge; split <;> rfl
theorem addEdge_stack (s : St W) (a b d) : (s.addEdge a b d).stack = s.stack := by
  unfold St.addEdge; split <;> rfl
theorem mem_addEdge (s : St W) (a b d e) :
    e ∈ (s.addEdge a b d).edges ↔ e ∈ s.edges ∨ e = (a, b, d) := by
  unfold St.addEdge; split
  · constructor
    · exact .inl
    · rintro (h | rfl) <;> assumption
  · simp
theorem has_addEdge (s : St W) (a b d x) : (s.addEdge a b d).has x = s.has x := by
  unfold St.has; rw [addEdge_nodes]
theorem find_addEdge (s : St W) (a b d x) : (s.addEdge a b d).find x = s.find x := by
  unfold St.find; rw [addEdge_nodes]
theorem has_schedule (s : St W) (n i x) : (s.schedule n i).has x = s.has x := by
  unfold St.has; rw [schedule_nodes]
theorem find_schedule (s : St W) (n i x) : (s.schedule n i).find x = s.find x := by
  unfold St.find; rw [schedule_nodes]
theorem has_addNode (s : St W) (n : Node) (x) : (s.addNode n).has x = (s.has x || n.ident == x) := by
  simp [St.has, St.addNode]
theorem schedule_stack (s : St W) (n : Node) : (s.schedule n []).stack = s.stack ∨
    (s.schedule n []).stack = s.stack ++ [.pp n] := by
  unfold St.schedule; simp only [List.map_nil, List.append_nil]; split
  · exact .inl rfl
  · exact .inr rfl

theorem absoluteName_of_outside {m : Node} {i : ImportInfo} (h : PointsOutside m i) :
    absoluteName m i = .ok none := by
  obtain ⟨hl, comps, hne, hn, hc, hle⟩ := h
  unfold absoluteName relativePackage
  have h0 : ¬ i.importLevel = 0 := by omega
  rw [if_neg h0, if_neg h0]
  change (match (if (rsplit '.' (dropped m i) m.ident).length < dropped m i + 1 then _ else
    match rsplit '.' (dropped m i) m.ident with
      | [] => Except.error Exc.indexError
      | b :: _ => Except.ok (some b)) with
    | Except.error e => Except.error e
    | Except.ok none => Except.ok none
    | Except.ok (some pkg) => _) = _
  rw [hn, rsplit_dotted hne hc, if_neg (by omega : ¬ dropped m i < comps.length), if_pos (by omega)]

theorem has_of_find {s : St W} {name} {n : Node} (h : s.find name = some n) : s.has name = true :=
  has_of_Has ⟨n, find_some h⟩

end Verif
