import Verif.Spec.MovedSpec
import Verif.Proofs.SixTable
import Verif.Props.Loaders
import Verif.Props.Locate
import Verif.Props.FromImport
import Verif.Proofs.ExactNames
/-!
# C74: modules that importers serve from elsewhere
-/
namespace Verif.Props
open Verif Spec
variable {W : Type} {L : Loaders W} {spec : Verif.Spec} {w w' : W}

/-! ## Names -/

theorem endsWith_append_iff {sfx s : Str} : endsWith sfx s = true ↔ ∃ pre, s = pre ++ sfx := by
  unfold endsWith
  rw [List.isSuffixOf_iff_suffix]
  exact ⟨fun ⟨p, h⟩ => ⟨p, h.symm⟩, fun ⟨p, h⟩ => ⟨p, h.symm⟩⟩

theorem strFind_spec {sub : Str} (hs : sub ≠ []) : ∀ {s : Str} {k}, strFind sub s = some k →
    s = s.take k ++ sub ++ s.drop (k + sub.length) ∧
      ∀ pre rel, s = pre ++ sub ++ rel → k ≤ pre.length
  | [], k, h => by
    cases sub with
    | nil => exact absurd rfl hs
    | cons a l => simp [strFind] at h
  | x :: xs, k, h => by
    rw [strFind] at h
    split at h
    · rename_i hp
      obtain ⟨t, ht⟩ := List.isPrefixOf_iff_prefix.mp hp
      obtain rfl := Option.some.inj h
      refine ⟨?_, fun _ _ _ => Nat.zero_le _⟩
      rw [← ht]
      simp
    · rename_i hp
      cases hf : strFind sub xs with
      | none => rw [hf] at h; cases h
      | some j =>
        rw [hf] at h
        obtain rfl := Option.some.inj h
        obtain ⟨h1, h2⟩ := strFind_spec hs hf
        refine ⟨?_, ?_⟩
        · have : j + 1 + sub.length = (j + sub.length) + 1 := by omega
          rw [this, List.take_succ_cons, List.drop_succ_cons, List.cons_append, List.cons_append, ← h1]
        · intro pre rel hp'
          cases pre with
          | nil =>
            refine absurd (List.isPrefixOf_iff_prefix.mpr ⟨rel, ?_⟩) hp
            rw [hp']; rfl
          | cons y pre =>
            simp only [List.cons_append, List.cons.injEq] at hp'
            have := h2 pre rel hp'.2
            simp only [List.length_cons]
            omega

theorem strFind_none {sub : Str} : ∀ {s : Str}, strFind sub s = none → ∀ pre rel, s ≠ pre ++ sub ++ rel
  | [], h, pre, rel => by
    intro he
    have : sub = [] := by
      have := congrArg List.length he
      simp only [List.length_nil, List.length_append] at this
      exact List.length_eq_zero_iff.mp (by omega)
    simp [strFind, this] at h
  | x :: xs, h, pre, rel => by
    intro he
    rw [strFind] at h
    split at h
    · cases h
    · rename_i hp
      cases pre with
      | nil =>
        refine hp (List.isPrefixOf_iff_prefix.mpr ⟨rel, ?_⟩)
        rw [he]; rfl
      | cons y pre =>
        simp only [List.cons_append, List.cons.injEq] at he
        exact strFind_none (Option.map_eq_none_iff.mp h) pre rel he.2

theorem below_unique {name a b : Str} (h : BelowMoves name a) (h' : BelowMoves name b) : a = b := by
  obtain ⟨p, hp⟩ := h.split
  obtain ⟨q, hq⟩ := h'.split
  have h1 := h.first _ _ hq
  have h2 := h'.first _ _ hp
  have : p ++ c!".moves." ++ a = q ++ c!".moves." ++ b := hp.symm.trans hq
  exact (List.append_inj' this (by omega)).2

/-- A name with `.moves.` in it has a part below `.moves.`. -/
theorem sixRelative_below {name : Str} (h : ∃ pre rel, name = pre ++ c!".moves." ++ rel) :
    BelowMoves name (sixRelative name) := by
  unfold sixRelative
  cases hf : strFind c!".moves." name with
  | none =>
    obtain ⟨pre, rel, h⟩ := h
    exact absurd h (strFind_none hf pre rel)
  | some k =>
    obtain ⟨h1, h2⟩ := strFind_spec (by simp) hf
    refine ⟨⟨_, h1⟩, fun pre rel' h3 => ?_⟩
    have h4 := h2 _ _ h3
    have h5 := congrArg List.length h3
    simp only [List.length_append, List.length_cons, List.length_nil] at h5
    simp only [List.length_drop]
    omega

theorem sixRelative_eq {name rel : Str} (h : BelowMoves name rel) : sixRelative name = rel := by
  obtain ⟨p, hp⟩ := h.split
  exact below_unique (sixRelative_below ⟨p, rel, hp⟩) h

/-! ## Searches -/

theorem looks_eq {self actual : Str} {r} (h : Looks L self actual w r w') : findAgain L self actual w = (r, w') := by
  unfold findAgain Ext.bind
  cases h with
  | other h h1 =>
    rw [h]
    cases r with
    | error e => rfl
    | ok o =>
      cases o with
      | none => rfl
      | some m => simp only [if_neg (h1 m rfl)]; rfl
  | again h h1 h2 h3 h4 => simp [h, h1, h2, h3, h4]
  | noEntry h h1 h2 => simp [h, h1, h2]
  | noReset h h1 h2 h3 => simp [h, h1, h2, h3]

theorem looks_total (self actual : Str) (w : W) :
    Looks L self actual w (findAgain L self actual w).1 (findAgain L self actual w).2 := by
  have key : ∃ r w', Looks L self actual w r w' := by
    rcases h : L.findSpec actual w with ⟨r, w1⟩
    by_cases hm : ∃ m, r = .ok (some m) ∧ m.name = self
    · obtain ⟨m, rfl, hm⟩ := hm
      rcases h1 : L.delModule actual w1 with ⟨_ | _, w2⟩
      · exact ⟨_, _, .noEntry h hm h1⟩
      · rcases h2 : L.invalidate w2 with ⟨_ | _, w3⟩
        · exact ⟨_, _, .noReset h hm h1 h2⟩
        · rcases h3 : L.findSpec actual w3 with ⟨r, w4⟩
          exact ⟨_, _, .again h hm h1 h2 h3⟩
    · exact ⟨_, _, .other h fun m h1 h2 => hm ⟨m, h1, h2⟩⟩
  obtain ⟨r, w', h⟩ := key
  rw [looks_eq h]
  exact h

/-! ## The theorems -/

/-- What a fate of the module means for its node. -/
def Outcome (L : Loaders W) (n : Nat) (spec : Verif.Spec) (w' : W) (r : Except Exc (Node × List ImportInfo) × W) :
    Fate → Prop
  | .served m => r = nodeForSpec L n m w'
  | .absent name => r = (.ok (missingNode name, []), w')
  | .moves => ∃ node, r = (.ok (node, []), w') ∧ MovesNode spec.name node
  | .fails e => r = (.error e, w')

theorem endsWith_append_not {sfx s : Str} (h : ∀ pre, s ≠ pre ++ sfx) : endsWith sfx s = false := by
  cases he : endsWith sfx s with
  | false => rfl
  | true => obtain ⟨p, hp⟩ := endsWith_append_iff.mp he; exact absurd hp (h p)

theorem fate_outcome {n : Nat} {name : Str} {r : Except Exc (Option Verif.Spec)} {x : Ext W (Option Verif.Spec)}
    (h : x w = (r, w')) :
    Outcome L n spec w' ((Ext.bind x fun sp =>
      match sp with
      | none => Ext.pure (missingNode name, [])
      | some moved => if spec.name = moved.name then Ext.throw .assertion else nodeForSpec L n moved) w)
      (fate spec.name name r) := by
  unfold Ext.bind
  rw [h]
  cases r with
  | error e => rfl
  | ok o =>
    cases o with
    | none => rfl
    | some m =>
      unfold fate
      by_cases hm : m.name = spec.name
      · simp only [hm, if_true]; rfl
      · simp only [hm, if_false, Ne.symm hm]; rfl

/-- C74: the node of a module that is served from elsewhere is the node of the module it is served from, or a
`MissingModule`, or the package `six.moves`, as the importer would have it. -/
theorem C74_fares (n : Nat) {f : Fate} (h : Fares L spec w f w') :
    Outcome L n spec w' (nodeForSpec L (n + 1) spec w) f := by
  rw [nodeForSpec]
  cases h with
  | moves hl hn ho =>
    simp only [hl, endsWith_append_iff.mpr hn, if_true, ho, distFor]
    exact ⟨_, rfl, rfl, rfl, rfl, rfl, rfl, fun _ => Iff.rfl⟩
  | movesIn hl hn ho hd =>
    simp only [hl, endsWith_append_iff.mpr hn, if_true, ho, distFor, Ext.bind, hd]
    exact ⟨_, rfl, rfl, rfl, rfl, rfl, rfl, fun _ => Iff.rfl⟩
  | movesFails hl hn ho hd =>
    simp only [hl, endsWith_append_iff.mpr hn, if_true, ho, distFor, Ext.bind, hd]
    rfl
  | six hl hn hb hs hk =>
    simp only [hl, endsWith_append_not hn, Bool.false_eq_true, if_false, sixRelative_eq hb, sixMove_iff.mpr hs]
    exact fate_outcome (looks_eq hk)
  | @sixUnknown rel hl hn hb hs =>
    have : sixMove rel = none := by
      cases hm : sixMove rel with
      | none => rfl
      | some a => exact absurd (sixMove_iff.mp hm) (hs a)
    simp only [hl, endsWith_append_not hn, Bool.false_eq_true, if_false, sixRelative_eq hb, this]
    rfl
  | @vendor root pkg rel r _ hl hn hk hr =>
    have hd : spec.name.drop (root.length + 1) = rel := by rw [hn]; simp [List.drop_append]
    simp only [hl, hd]
    refine fate_outcome ?_
    unfold Ext.catching
    rw [looks_eq hk]
    cases r with
    | ok o => rfl
    | error e =>
      cases e <;> first | rfl | exact absurd rfl (hr _)
  | @outside root pkg rel b r w1 _ hl hn hk hr =>
    have hd : spec.name.drop (root.length + 1) = rel := by rw [hn]; simp [List.drop_append]
    simp only [hl, hd]
    refine fate_outcome ?_
    unfold Ext.catching
    rw [looks_eq hk]
    exact hr
  | distutils hl hn h1 h2 h3 =>
    simp only [hl, hn, ne_eq, not_true_eq_false, if_false]
    have := fate_outcome (L := L) (n := n) (spec := spec) (name := c!"distutils") h3
    rw [hn] at this
    simp only [Ext.bind, h1, h2] at this ⊢
    exact this
  | noEntry hl hn h1 =>
    simp only [hl, hn, ne_eq, not_true_eq_false, if_false, Ext.bind, h1]
    rfl
  | noReset hl hn h1 h2 =>
    simp only [hl, hn, ne_eq, not_true_eq_false, if_false, Ext.bind, h1, h2]
    rfl

/-- C74: there are no other possibilities. -/
theorem C74_total (h : Serves spec) (w : W) : ∃ f w', Fares L spec w f w' := by
  unfold Serves at h
  split at h
  · rename_i hl
    by_cases hm : ∃ pre, spec.name = pre ++ c!".moves"
    · cases ho : spec.origin with
      | none => exact ⟨_, _, .moves hl hm ho⟩
      | some f =>
        rcases hd : L.distributionForFile f w with ⟨_ | _, w1⟩
        · exact ⟨_, _, .movesFails hl hm ho hd⟩
        · exact ⟨_, _, .movesIn hl hm ho hd⟩
    · have hb := sixRelative_below (h.resolve_left hm)
      have hm' : ∀ pre, spec.name ≠ pre ++ c!".moves" := fun p hp => hm ⟨p, hp⟩
      by_cases hs : ∃ a, SixName (sixRelative spec.name) a
      · obtain ⟨a, hs⟩ := hs
        exact ⟨_, _, .six hl hm' hb hs (looks_total _ _ w)⟩
      · exact ⟨_, _, .sixUnknown hl hm' hb fun a ha => hs ⟨a, ha⟩⟩
  · rename_i root pkg hl
    obtain ⟨rel, hn⟩ := h
    have hk := looks_total (L := L) spec.name (pkg ++ '.' :: rel) w
    by_cases hr : ∃ b, (findAgain L spec.name (pkg ++ '.' :: rel) w).1 = .error (.moduleNotFound b)
    · obtain ⟨b, hr⟩ := hr
      rw [hr] at hk
      rcases h3 : L.findSpec rel (findAgain L spec.name (pkg ++ '.' :: rel) w).2 with ⟨r, w1⟩
      exact ⟨_, _, .outside hl hn hk h3⟩
    · exact ⟨_, _, .vendor hl hn hk fun b h => hr ⟨b, h⟩⟩
  · rename_i hl
    rcases h1 : L.delModule c!"setuptools._distutils" w with ⟨_ | _, w1⟩
    · exact ⟨_, _, .noEntry hl h h1⟩
    · rcases h2 : L.invalidate w1 with ⟨_ | _, w2⟩
      · exact ⟨_, _, .noReset hl h h1 h2⟩
      · rcases h3 : L.findSpec c!"setuptools._distutils" w2 with ⟨r, w3⟩
        exact ⟨_, _, .distutils hl h h1 h2 h3⟩
  · cases h

/-- C74: a module that is served from another one, maybe by way of yet others, has the node of that module. -/
theorem C74_served {m : Verif.Spec} {k : Nat} (n : Nat) (h : ServedFrom L spec w m w' k) :
    nodeForSpec L (n + k) spec w = nodeForSpec L n m w' := by
  induction h with
  | self => rfl
  | step h1 _ ih =>
    rw [← ih]
    exact C74_fares _ h1

/-- C74: a name below `six.moves` that is not in the table is missing, whatever is installed. -/
theorem C74_unknown (n : Nat) {rel : Str} (hl : spec.loader = .six) (hn : spec.name = c!"six.moves." ++ rel)
    (hd : '.' ∉ rel) (hm : rel ≠ c!"moves") (hs : ∀ a, ¬ SixName rel a) (w : W) :
    nodeForSpec L (n + 1) spec w = (.ok (missingNode (c!"six.moves." ++ rel), []), w) := by
  have hb : BelowMoves spec.name rel := by
    have h := sixRelative_below (name := spec.name) ⟨c!"six", rel, by rw [hn]; rfl⟩
    have he : sixRelative spec.name = rel := by
      rw [hn]; simp [sixRelative, strFind, List.isPrefixOf]
    rwa [he] at h
  rw [← hn]
  refine C74_fares n (.sixUnknown hl (fun q h => ?_) hb hs)
  have h' : rpartition '.' (c!"six.moves" ++ '.' :: rel) = rpartition '.' (q ++ '.' :: c!"moves") := by
    rw [← h, hn]; rfl
  rw [rpartition_eq hd, rpartition_eq (by decide)] at h'
  exact hm (congrArg (·.2.2) h')

/-- `six.moves.collections_abc` is such a name. -/
theorem C74_collections_abc (n : Nat) (o : Option Str) (l : Option (List Str)) (w : W) :
    nodeForSpec L (n + 1) ⟨c!"six.moves.collections_abc", .six, o, l⟩ w =
      (.ok (missingNode c!"six.moves.collections_abc", []), w) :=
  C74_unknown (rel := c!"collections_abc") n rfl rfl (by decide) (by decide) (fun a h => by
    have := sixMove_iff.mpr h
    simp [sixMove, sixMovesTo] at this) w

/-! ## The graph -/

section
variable {env : Env W} {x : Str} {imp : Option Node} {s s' : St W}

/-- What becomes of the graph when the module `x` is served from `node`. -/
structure Aliased (s : St W) (x : Str) (node : Node) (imports : List ImportInfo) (s' : St W) : Prop where
  alias : aliasNode x node.ident ∈ s'.nodes
  edge : (x, node.ident, defaultDep) ∈ s'.edges
  kept : ∀ m ∈ s.nodes, m ∈ s'.nodes
  edges : ∀ e ∈ s.edges, e ∈ s'.edges
  roots : s'.roots = s.roots
  queue : s.stack <+: s'.stack
  /-- a module that is there already is left alone -/
  old : (∃ m ∈ s.nodes, m.ident = node.ident) → s'.nodes = s.nodes ++ [aliasNode x node.ident] ∧
    ∀ m i, .imp m i ∈ s'.stack → .imp m i ∈ s.stack
  /-- another one is added, its imports are queued, and it is linked to its package -/
  new : (∀ m ∈ s.nodes, m.ident ≠ node.ident) → node ∈ s'.nodes ∧ (∀ i ∈ imports, .imp node i ∈ s'.stack) ∧
    ∀ p, node.ident.head? ≠ some '.' → HasPackage node.ident p → (node.ident, p, defaultDep) ∈ s'.edges ∧ ∃ q ∈ s'.nodes, q.ident = p

theorem loads_schedule (s : St W) (n i) : Loads s (s.schedule n i) := loads_rel.schedule s n i

theorem add_alias (hM : ∀ k i n, (env.userMissing k i n).Passive) {node imports} (hnew : s.has x = false)
    (h : env.nodeForSpec spec s.world = (.ok (node, imports), w')) (hid : node.ident ≠ x) {n : Nat} {r}
    (hr : addLoaded env (calls env n) x spec s = (.ok r, s')) :
    r = aliasNode x node.ident ∧ Aliased s x node imports s' := by
  unfold addLoaded at hr
  rw [M.bind_ext _ h] at hr
  simp only [] at hr
  rw [if_pos hid, M.bind_addNode _ (by exact hnew), M.bind_schedule, M.bind_findNode] at hr
  let s1 := ((({ s with world := w' } : St W).addNode (aliasNode x node.ident)).schedule (aliasNode x node.ident) [])
  have hs1 : Loads s s1 := loads_rel.trans (loads_rel.world s w')
    (loads_rel.trans (loads_rel.addNode _ (aliasNode x node.ident) hnew) (loads_schedule ..))
  have hn1 : s1.nodes = s.nodes ++ [aliasNode x node.ident] := schedule_nodes ..
  obtain ⟨_, s2, h2, k2⟩ := M.bind_ok hr
  clear hr
  obtain ⟨_, s3, h3, k3⟩ := M.bind_ok k2
  clear k2
  obtain ⟨-, -, rfl⟩ := M.addEdge_ok h3
  clear h3
  obtain ⟨rfl, rfl⟩ := M.pure_ok k3
  clear k3
  change (match s1.find node.ident with
    | some _ => M.pure ()
    | none => _) s1 = _ at h2
  refine ⟨rfl, ?_⟩
  have fin : Loads s2 (s2.addEdge x node.ident defaultDep) := loads_rel.addEdge ..
  have hstack : ∀ m i, .imp m i ∈ s1.stack → .imp m i ∈ s.stack := by
    intro m i hm
    simp only [s1, St.schedule, List.map_nil, List.append_nil] at hm
    split at hm
    · exact hm
    · simpa [St.addNode] using hm
  cases hf : s1.find node.ident with
  | some m =>
    rw [hf] at h2
    obtain ⟨-, rfl⟩ := M.pure_ok h2
    have hl := loads_rel.trans hs1 fin
    refine ⟨fin.nodes.subset (by rw [hn1]; simp), addEdge_mem .., fun m hm => hl.nodes.subset hm, hl.edges, hl.roots, hl.stack,
      fun _ => ⟨by rw [addEdge_nodes, hn1], ?_⟩, fun hno => ?_⟩
    · intro m i hm
      refine hstack m i ?_
      unfold St.addEdge at hm
      split at hm <;> exact hm
    · obtain ⟨hm, hi⟩ := find_some hf
      rw [hn1] at hm
      rcases List.mem_append.mp hm with hm | hm
      · exact absurd hi (hno m hm)
      · rw [List.mem_singleton.mp hm] at hi
        exact absurd hi.symm hid
  | none =>
    rw [hf] at h2
    replace h2 : M.bind (M.addNode node) (fun _ =>
        M.bind (M.schedule node imports) fun _ =>
        M.bind (M.ofExcept (splitPackage node.ident)) fun sp =>
        match sp.1 with
        | none => M.pure ()
        | some pkg =>
          M.bind ((calls env n).findOrLoad none pkg true) fun parent =>
          M.addEdge node.ident parent.ident defaultDep) s1 = _ := h2
    obtain ⟨_, s3, h3, k3⟩ := M.bind_ok h2
    obtain ⟨hno, rfl⟩ := M.addNode_ok h3
    rw [M.bind_schedule] at k3
    have hs3 : Loads s1 ((s1.addNode node).schedule node imports) :=
      loads_rel.trans (loads_rel.addNode _ _ hno) (loads_schedule ..)
    have hi3 : ∀ i ∈ imports, .imp node i ∈ ((s1.addNode node).schedule node imports).stack := by
      intro i hi
      simp only [St.schedule]
      exact List.mem_append_right _ (List.mem_map_of_mem hi)
    obtain ⟨sp, s4, h4, k4⟩ := M.bind_ok k3
    obtain ⟨hsp, rfl⟩ := M.ofExcept_ok h4
    have key : Loads ((s1.addNode node).schedule node imports) s2 ∧
        ∀ p, node.ident.head? ≠ some '.' → HasPackage node.ident p →
          (node.ident, p, defaultDep) ∈ s2.edges ∧ ∃ q ∈ s2.nodes, q.ident = p := by
      obtain ⟨pk, b⟩ := sp
      cases pk with
      | none =>
        obtain ⟨-, rfl⟩ := M.pure_ok k4
        refine ⟨loads_rel.refl _, fun p _ hp => ?_⟩
        obtain ⟨last, hl, -⟩ := hp
        refine absurd ?_ (dotless_of_split hsp)
        rw [hl]; simp
      | some pkg =>
        obtain ⟨q, s5, h5, k5⟩ := M.bind_ok k4
        obtain ⟨hq, hq', hl⟩ := find_sub hM (.inl rfl) h5
        obtain ⟨-, -, rfl⟩ := M.addEdge_ok k5
        refine ⟨loads_rel.trans hl (loads_rel.addEdge ..), fun p hd hp => ?_⟩
        obtain rfl := hp.unique (hasPackage_of_split hd hsp)
        rw [← hq]
        exact ⟨addEdge_mem .., q, by rw [addEdge_nodes]; exact hq', rfl⟩
    obtain ⟨hl, hp⟩ := key
    have hl' := loads_rel.trans hs3 (loads_rel.trans hl fin)
    have hl'' := loads_rel.trans hs1 hl'
    refine ⟨hl'.nodes.subset (by rw [hn1]; simp), addEdge_mem .., fun m hm => hl''.nodes.subset hm, hl''.edges,
      hl''.roots, hl''.stack, fun ⟨m, hm, hi⟩ => ?_, fun _ => ⟨?_, ?_, fun p hd h => ?_⟩⟩
    · have : s1.has node.ident = true := has_of_Has ⟨m, by rw [hn1]; exact List.mem_append_left _ hm, hi⟩
      rw [hno] at this; cases this
    · exact (loads_rel.trans hl fin).nodes.subset (by rw [schedule_nodes]; simp [St.addNode])
    · exact fun i hi => (loads_rel.trans hl fin).stack.subset (hi3 i hi)
    · obtain ⟨h1, q, h2, h3⟩ := hp p hd h
      exact ⟨fin.edges _ h1, q, fin.nodes.subset h2, h3⟩

/-- C74: in the graph, a module that is served from elsewhere is an alias of the module it is served from.  That
module is added along with its imports and with a link to its package, unless it is there already. -/
theorem C74_alias (hM : ∀ k i n, (env.userMissing k i n).Passive) (n : Nat) {node imports w1 w2 r}
    (hdot : x.head? ≠ some '.') (hnew : ∀ m ∈ s.nodes, m.ident ≠ x) (hf : Finds env x s.world spec w1)
    (h : env.nodeForSpec spec w1 = (.ok (node, imports), w2)) (hid : node.ident ≠ x)
    (hr : (calls env n).loadModule imp x s = (.ok r, s')) :
    r = aliasNode x node.ident ∧ Aliased s x node imports s' := by
  have hdot' := startsWith_false hdot
  have hnew' : s.has x = false := by
    cases h : s.has x with
    | false => rfl
    | true => obtain ⟨m, hm, hi⟩ := Has_of_has h; exact absurd hi (hnew m hm)
  cases n with
  | zero => cases hr
  | succ n =>
    replace hr : loadModuleBody env (calls env n) imp x s = _ := hr
    rcases hf with hf | ⟨w3, h3, hf⟩
    · rw [load_found hdot' hnew' hf] at hr
      obtain ⟨h1, h2⟩ := add_alias hM (s := { s with world := w1 }) hnew' h hid hr
      exact ⟨h1, h2.alias, h2.edge, h2.kept, h2.edges, h2.roots, h2.queue, h2.old, h2.new⟩
    · rw [load_retry hdot' hnew' h3] at hr
      cases n with
      | zero => cases hr
      | succ n =>
        replace hr : loadModuleBody env (calls env n) imp x { s with world := w3 } = _ := hr
        rw [load_found (s := { s with world := w3 }) hdot' hnew' hf] at hr
        obtain ⟨h1, h2⟩ := add_alias hM (s := { s with world := w1 }) hnew' h hid hr
        exact ⟨h1, h2.alias, h2.edge, h2.kept, h2.edges, h2.roots, h2.queue, h2.old, h2.new⟩
end

/-! ## Examples -/

/-- A world in which these importers are at work; its state is the list of names in `sys.modules`.  `extern.a` is
vendored, but `sys.modules` may have the wrong module for it; for `extern.b` there is no vendored module, for
`extern.c` there is neither, and `extern.d` is broken. -/
def movedSpec (n : Str) (w : List Str) : Except Exc (Option Verif.Spec) :=
  if n = c!"six" ∨ n = c!"extern" ∨ n = c!"setuptools" ∨ n = c!"urllib" then
    .ok (some { name := n, loader := .builtin, searchLocations := some [] })
  else if n = c!"six.moves" ∨ n = c!"six.moves.urllib.parse" ∨ n = c!"six.moves.tkinter" ∨ n = c!"six.moves.abc" then
    .ok (some { name := n, loader := .six })
  else if n = c!"extern.a" ∨ n = c!"extern.b" ∨ n = c!"extern.c" ∨ n = c!"extern.d" then
    .ok (some { name := n, loader := .vendor c!"extern" c!"_vendor" })
  else if n = c!"_vendor.a" then
    if n ∈ w then .ok (some { name := c!"extern.a", loader := .vendor c!"extern" c!"_vendor" })
    else .ok (some { name := n, loader := .builtin })
  else if n = c!"_vendor.b" then .error (.moduleNotFound true)
  else if n = c!"_vendor.d" then .error .syntaxError
  else if n = c!"distutils" then .ok (some { name := n, loader := .distutils })
  else if n = c!"b" ∨ n = c!"d" ∨ n = c!"setuptools._distutils" ∨ n = c!"urllib.parse" then
    .ok (some { name := n, loader := .builtin })
  else .ok none

def movedLoaders : Loaders (List Str) where
  findSpec := fun n w => (movedSpec n w, w)
  getSource := fun _ w => (.ok none, w)
  parse := fun _ _ w => (.error .syntaxError, w)
  getCode := fun _ w => (.ok none, w)
  isPackage := fun s w => (.ok (s.name = c!"six" || s.name = c!"extern" || s.name = c!"urllib"), w)
  distributionForFile := fun _ w => (.ok none, w)
  containsDatafiles := fun _ w => (.ok false, w)
  importPath := fun _ w => (.error .importError, w)
  delModule := fun n w => if n ∈ w then (.ok (), w.filter (· != n)) else (.error (.keyError), w)
  invalidate := fun w => (.ok (), w)
  parent := id
  new := true
  order := fun l => l

/-- `extern.a` is served from `_vendor.a`, once the wrong entry for that is gone. -/
example : Fares movedLoaders ⟨c!"extern.a", .vendor c!"extern" c!"_vendor", none, none⟩ [c!"_vendor.a", c!"x"]
    (.served ⟨c!"_vendor.a", .builtin, none, none⟩) [c!"x"] :=
  .vendor (root := c!"extern") (pkg := c!"_vendor") (rel := c!"a") (r := .ok (some ⟨c!"_vendor.a", .builtin, none, none⟩))
    rfl rfl (.again rfl rfl rfl rfl rfl) (by simp)

/-- `extern.b` is served from `b`, since there is no `_vendor.b`. -/
example : Fares movedLoaders ⟨c!"extern.b", .vendor c!"extern" c!"_vendor", none, none⟩ []
    (.served ⟨c!"b", .builtin, none, none⟩) [] :=
  .outside (root := c!"extern") (rel := c!"b") rfl rfl (.other rfl (by simp)) rfl

/-- `extern.c` is not there. -/
example : Fares movedLoaders ⟨c!"extern.c", .vendor c!"extern" c!"_vendor", none, none⟩ [] (.absent c!"_vendor.c") [] :=
  .vendor (root := c!"extern") (pkg := c!"_vendor") (rel := c!"c") (r := .ok none) rfl rfl (.other rfl (by simp)) (by simp)

/-- `extern.d` is not served from `d`, although `_vendor.d` is broken. -/
example : Fares movedLoaders ⟨c!"extern.d", .vendor c!"extern" c!"_vendor", none, none⟩ [] (.fails .syntaxError) [] :=
  .vendor (root := c!"extern") (pkg := c!"_vendor") (rel := c!"d") (r := .error .syntaxError) rfl rfl
    (.other rfl (by simp)) (by simp)

/-- `distutils` is served from `setuptools._distutils`, if that is in `sys.modules`. -/
example : Fares movedLoaders ⟨c!"distutils", .distutils, none, none⟩ [c!"setuptools._distutils"]
    (.served ⟨c!"setuptools._distutils", .builtin, none, none⟩) [] ∧
    Fares movedLoaders ⟨c!"distutils", .distutils, none, none⟩ [] (.fails .keyError) [] :=
  ⟨.distutils rfl rfl rfl rfl rfl, .noEntry rfl rfl rfl⟩

/-- `six.moves.urllib.parse` is served from `urllib.parse`. -/
example : Fares movedLoaders ⟨c!"six.moves.urllib.parse", .six, none, none⟩ []
    (.served ⟨c!"urllib.parse", .builtin, none, none⟩) [] := by
  refine .six (rel := c!"urllib.parse") (actual := c!"urllib.parse") rfl ?_ (sixRelative_below ⟨c!"six", _, rfl⟩)
    (sixMove_iff.mp (by decide +kernel)) (.other rfl ?_)
  · intro pre h
    have := endsWith_append_iff.mpr ⟨pre, h⟩
    revert this
    decide +kernel
  · intro m h
    obtain rfl := Option.some.inj (Except.ok.inj h)
    decide

/-- The graph builder in this world. -/
def movedEnv : Env (List Str) where
  findSpec := fun n w => (movedSpec n w, w)
  findSpecRel := fun n p w => (movedSpec (p ++ '.' :: n) w, w)
  inSysModules := fun n w => decide (n ∈ w)
  popModule := fun _ w => (.ok 0, w)
  setModule := fun _ _ w => w
  setFake := fun _ _ w => w
  delModule := fun n w => (.ok (), w.filter (· != n))
  isInspectLoader := fun _ _ => true
  isPackage := fun _ w => (.ok false, w)
  nodeForSpec := nodeForSpec movedLoaders 3
  loadScript := fun _ w => (.error .osError, w)
  parseSource := fun _ w => (.error .osError, w)
  distributionNamed := fun _ w => (.ok none, w)
  globPy := fun _ w => (.ok [], w)
  subdirs := fun _ w => (.ok [], w)
  isIdentifier := fun _ => true
  outOrder := fun _ l => l
  isFile := fun _ w => (.ok false, w)
  readBytes := fun _ w => (.ok [], w)
  compileAst := fun _ w => (.error .osError, w)
  userPost := fun _ _ => .ret none
  userMissing := fun _ _ _ => .ret none

/-- `six.moves.urllib.parse` is an alias of `urllib.parse`, which is linked to `urllib`. -/
example : ∃ r s', (calls movedEnv 9).loadModule none c!"six.moves.urllib.parse" (initState [] [] false) = (.ok r, s') ∧
    s'.nodes.map (·.ident) = [c!"six.moves.urllib.parse", c!"urllib.parse", c!"urllib"] ∧
    s'.edges.map (fun e => (e.1, e.2.1)) = [(c!"urllib.parse", c!"urllib"), (c!"six.moves.urllib.parse", c!"urllib.parse")] := by
  refine ⟨_, _, rfl, ?_⟩
  decide +kernel

/-- The hypotheses of `C74_alias` hold. -/
example : Finds movedEnv c!"six.moves.urllib.parse" [] ⟨c!"six.moves.urllib.parse", .six, none, none⟩ [] ∧
    ∃ node imports, movedEnv.nodeForSpec ⟨c!"six.moves.urllib.parse", .six, none, none⟩ [] = (.ok (node, imports), []) ∧
      node.ident = c!"urllib.parse" :=
  ⟨.inl (.plain rfl), _, _, rfl, rfl⟩

end Verif.Props
