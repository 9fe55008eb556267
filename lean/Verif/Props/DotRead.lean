import Verif.Spec.DotSpec
import Verif.Props.MainOutput
/-!
# C68: the Graphviz export can be read back
-/
namespace Verif.Props
open Verif Verif.Spec Verif.Spec.Dot
variable {W : Type}

/-! ## Tokens -/

theorem lexRun_append {st st' st'' : LexState} {a b : Str} {ts us : List Tok}
    (h : lexRun st a = some (ts, st')) (h' : lexRun st' b = some (us, st'')) :
    lexRun st (a ++ b) = some (ts ++ us, st'') := by
  induction a generalizing st ts with
  | nil => simp only [lexRun, Option.some.injEq, Prod.mk.injEq] at h; obtain ⟨rfl, rfl⟩ := h; simpa using h'
  | cons c a ih =>
    simp only [List.cons_append, lexRun] at h ⊢
    cases hs : lexStep st c with
    | none => simp [hs] at h
    | some p =>
      obtain ⟨t, s1⟩ := p
      simp only [hs] at h ⊢
      cases hr : lexRun s1 a with
      | none => simp [hr] at h
      | some q =>
        obtain ⟨u, s2⟩ := q
        simp only [hr, Option.some.injEq, Prod.mk.injEq] at h
        obtain ⟨rfl, rfl⟩ := h
        rw [ih hr]
        simp

/-- The text consists of these tokens. -/
def Lexes (t : Str) (ts : List Tok) : Prop := lexRun .start t = some (ts, .start)

instance (t : Str) (ts : List Tok) : Decidable (Lexes t ts) := inferInstanceAs (Decidable (_ = _))

theorem Lexes.append {a b : Str} {ts us : List Tok} (h : Lexes a ts) (h' : Lexes b us) : Lexes (a ++ b) (ts ++ us) :=
  lexRun_append h h'

theorem lex_string (x : Str) (h1 : '"' ∉ x) (h2 : '\n' ∉ x) (h3 : x.getLast? ≠ some '\\') :
    (∀ acc, lexRun (.str acc) (x ++ ['"']) = some ([.quoted (acc ++ x)], .start)) ∧
    (x ≠ [] → ∀ acc, lexRun (.esc acc) (x ++ ['"']) = some ([.quoted (acc ++ '\\' :: x)], .start)) := by
  induction x with
  | nil => exact ⟨fun acc => by simp [lexRun, lexStep], fun h => absurd rfl h⟩
  | cons c r ih =>
    have hc : c ≠ '"' := fun h => h1 (by simp [h])
    have hn : c ≠ '\n' := fun h => h2 (by simp [h])
    have h3' : r.getLast? ≠ some '\\' := by
      intro h; apply h3; cases r with
      | nil => simp at h
      | cons d r => simpa [List.getLast?_cons_cons] using h
    obtain ⟨ha, hb⟩ := ih (fun h => h1 (by simp [h])) (fun h => h2 (by simp [h])) h3'
    constructor
    · intro acc
      simp only [List.cons_append, lexRun, lexStep, if_neg hc]
      by_cases hs : c = '\\'
      · subst hs
        have hr : r ≠ [] := by rintro rfl; exact h3 rfl
        rw [if_pos rfl]
        simp only [hb hr, List.nil_append]
      · rw [if_neg hs]
        simp only [ha, List.nil_append, List.append_assoc, List.cons_append]
    · intro _ acc
      simp only [List.cons_append, lexRun, lexStep, if_neg hc, if_neg hn]
      simp only [ha, List.nil_append, List.append_assoc, List.cons_append]

theorem lexes_quoted {x : Str} (h : Plain x) : Lexes ('"' :: x ++ ['"']) [.quoted x] := by
  have := (lex_string x h.1 h.2.1 h.2.2).1 []
  unfold Lexes
  rw [List.cons_append, lexRun]
  simp only [lexStep, lexStart]
  simp [this]

theorem lex_word (x : Str) (h : ∀ c ∈ x, isWordChar c = true) (acc : Str) :
    lexRun (.word acc) x = some ([], .word (acc ++ x)) := by
  induction x generalizing acc with
  | nil => simp [lexRun]
  | cons c r ih =>
    simp only [lexRun, lexStep, h c (by simp), if_true]
    rw [ih fun d hd => h d (by simp [hd])]
    simp

/-! ## Statements -/

/-- A statement can begin here (or the graph can end). -/
def Fresh : List Tok → Prop
  | .quoted _ :: _ | .word _ :: _ | .rbrace :: _ => True
  | _ => False

theorem optSemi_fresh {r : List Tok} (h : Fresh r) : optSemi r = r := by
  cases r with
  | nil => rfl
  | cons t r => cases t <;> first | rfl | exact absurd h id

/-- The tokens of an attribute list. -/
def AttrToks (ts : List Tok) (as : Attrs) : Prop :=
  ∀ r, Fresh r → (∀ x, stmt (.quoted x :: (ts ++ r)) = some (.node x as, r)) ∧
    ∀ x y, stmt (.quoted x :: .arrow :: .quoted y :: (ts ++ r)) = some (.edge x y as, r)

theorem attrToks_nil : AttrToks [] [] := by
  intro r h
  cases r with
  | nil => exact absurd h id
  | cons t r => cases t <;> first | exact absurd h id | exact ⟨fun _ => rfl, fun _ _ => rfl⟩

/-- A text after a node or an edge that gives these attributes. -/
def AttrText (t : Str) (as : Attrs) : Prop := ∃ ts, Lexes (t ++ ['\n']) ts ∧ AttrToks ts as

/-- The attributes of edges. -/
def edgeAttrs (dashed parent : Bool) : Attrs :=
  (if parent then [(c!"arrowhead", c!"none")] else []) ++ (if dashed then [(c!"style", c!"dashed")] else []) ++
    if parent then [(c!"weight", c!"10")] else []

theorem edgeAttrs_text (dashed parent : Bool) :
    AttrText (match dashed, parent with
      | false, false => []
      | true, false => c!" [style=dashed]"
      | false, true => c!" [arrowhead=none, weight=10]"
      | true, true => c!" [arrowhead=none, style=dashed, weight=10]") (edgeAttrs dashed parent) := by
  cases dashed <;> cases parent
  · exact ⟨[], by decide +kernel, attrToks_nil⟩
  · exact ⟨[.lbrack, .word c!"arrowhead", .eq, .word c!"none", .comma, .word c!"weight", .eq, .word c!"10", .rbrack],
      by decide +kernel, fun _ _ => ⟨fun _ => rfl, fun _ _ => rfl⟩⟩
  · exact ⟨[.lbrack, .word c!"style", .eq, .word c!"dashed", .rbrack],
      by decide +kernel, fun _ _ => ⟨fun _ => rfl, fun _ _ => rfl⟩⟩
  · exact ⟨[.lbrack, .word c!"arrowhead", .eq, .word c!"none", .comma, .word c!"style", .eq, .word c!"dashed", .comma,
      .word c!"weight", .eq, .word c!"10", .rbrack],
      by decide +kernel, fun _ _ => ⟨fun _ => rfl, fun _ _ => rfl⟩⟩

/-- The attributes of nodes. -/
def nodeAttrs (missing root : Bool) (shape : Option Str) : Attrs :=
  (if missing then [(c!"color", c!"red")] else []) ++
    (if root then [(c!"penwidth", c!"2"), (c!"root", c!"true")] else []) ++ (shape.map (c!"shape", ·)).toList

/-- The tokens of a list of attributes. -/
def attrsToks : Attrs → List Tok
  | [] => []
  | [(k, v)] => [.word k, .eq, .word v]
  | (k, v) :: a :: l => .word k :: .eq :: .word v :: .comma :: attrsToks (a :: l)

theorem nodeAttrs_text (missing root : Bool) (k : Kind) :
    let parts := (if missing then [c!"color=red"] else []) ++
      (if root then [c!"penwidth=2", c!"root=true"] else []) ++ ((shapeOf k).map (c!"shape=" ++ ·)).toList
    AttrText (if parts = [] then [] else c!" [" ++ [',', ' '].intercalate parts ++ c!"]")
      (nodeAttrs missing root (shapeOf k)) := by
  have : shapeOf k ∈ [none, some c!"note", some c!"folder", some c!"rectangle", some c!"parallelogram",
      some c!"hexagon"] := by
    unfold shapeOf
    split <;> simp
  generalize shapeOf k = s at this ⊢
  simp only [List.mem_cons, List.not_mem_nil, or_false] at this
  by_cases hall : missing = false ∧ root = false ∧ s = none
  · obtain ⟨rfl, rfl, rfl⟩ := hall
    exact ⟨[], by decide +kernel, attrToks_nil⟩
  · refine ⟨.lbrack :: attrsToks (nodeAttrs missing root s) ++ [.rbrack], ?_, ?_⟩
    · rcases this with h | h | h | h | h | h <;> subst h <;> cases missing <;> cases root <;>
        first | exact absurd ⟨rfl, rfl, rfl⟩ hall | decide +kernel
    · intro r _
      rcases this with h | h | h | h | h | h <;> subst h <;> cases missing <;> cases root <;>
        first | exact absurd ⟨rfl, rfl, rfl⟩ hall | exact ⟨fun _ => rfl, fun _ _ => rfl⟩

/-! ## Blocks -/

theorem lexes_lf : Lexes ['\n'] [] := by decide
theorem lexes_indent : Lexes c!"    " [] := by decide

/-- These tokens are these statements of a block. -/
def BlockOf (ts : List Tok) (ss : List Stmt) : Prop :=
  ∀ r, Fresh r → Fresh (ts ++ r) ∧ ∀ n l r', (∀ m, n ≤ m → block m r = some (l, r')) →
    ∀ m, n + ts.length ≤ m → block m (ts ++ r) = some (ss ++ l, r')

theorem blockOf_nil : BlockOf [] [] := fun _ h => ⟨h, fun _ _ _ h' _ hm => h' _ hm⟩

theorem BlockOf.append {ts us : List Tok} {ss ss' : List Stmt} (h : BlockOf ts ss) (h' : BlockOf us ss') :
    BlockOf (ts ++ us) (ss ++ ss') := by
  intro r hr
  obtain ⟨h1, h2⟩ := h' r hr
  obtain ⟨h3, h4⟩ := h (us ++ r) h1
  refine ⟨by rw [List.append_assoc]; exact h3, fun n l r' hb m hm => ?_⟩
  rw [List.append_assoc, List.append_assoc]
  rw [List.length_append] at hm
  exact h4 (n + us.length) _ _ (fun k hk => h2 n l r' hb k hk) m (by omega)

/-- One statement. -/
theorem blockOf_stmt {ts : List Tok} {s : Stmt} (hne : ts ≠ []) (hb : ts.head? ≠ some .rbrace) (hf : ∀ r, Fresh (ts ++ r))
    (h : ∀ r, Fresh r → stmt (ts ++ r) = some (s, r)) : BlockOf ts [s] := by
  intro r hr
  refine ⟨hf r, fun n l r' hbl m hm => ?_⟩
  have hlen : 0 < ts.length := List.length_pos_iff.mpr hne
  obtain ⟨m, rfl⟩ : ∃ k, m = k + 1 := ⟨m - 1, by omega⟩
  have hh : (ts ++ r).head? ≠ some .rbrace := by
    cases ts with
    | nil => exact absurd rfl hne
    | cons t ts => simpa using hb
  rw [block, if_neg hh, h r hr]
  simp only [optSemi_fresh hr, hbl m (by omega), List.cons_append, List.nil_append]

/-- These tokens are these statements and subgraphs of a graph. -/
def BodyOf (ts : List Tok) (ss : List Stmt) (cs : List (Str × List Stmt)) : Prop :=
  ∀ r, Fresh r → Fresh (ts ++ r) ∧ ∀ n l c, (∀ m, n ≤ m → body m r = some (l, c)) →
    ∀ m, n + ts.length ≤ m → body m (ts ++ r) = some (ss ++ l, cs ++ c)

theorem bodyOf_nil : BodyOf [] [] [] := fun _ h => ⟨h, fun _ _ _ h' _ hm => h' _ hm⟩

theorem BodyOf.append {ts us : List Tok} {ss ss' : List Stmt} {cs cs' : List (Str × List Stmt)} (h : BodyOf ts ss cs)
    (h' : BodyOf us ss' cs') : BodyOf (ts ++ us) (ss ++ ss') (cs ++ cs') := by
  intro r hr
  obtain ⟨h1, h2⟩ := h' r hr
  obtain ⟨h3, h4⟩ := h (us ++ r) h1
  refine ⟨by rw [List.append_assoc]; exact h3, fun n l c hb m hm => ?_⟩
  rw [List.append_assoc, List.append_assoc, List.append_assoc]
  rw [List.length_append] at hm
  exact h4 (n + us.length) _ _ (fun k hk => h2 n l c hb k hk) m (by omega)

/-- One statement. -/
theorem bodyOf_stmt {x : Str} {ts : List Tok} {s : Stmt} (h : ∀ r, Fresh r → stmt (.quoted x :: ts ++ r) = some (s, r)) :
    BodyOf (.quoted x :: ts) [s] [] := by
  intro r hr
  refine ⟨trivial, fun n l r' hbl m hm => ?_⟩
  obtain ⟨m, rfl⟩ : ∃ k, m = k + 1 := ⟨m - 1, by simp at hm; omega⟩
  rw [body, if_neg (by simp), if_neg (by simp [isKeyword]), h r hr]
  simp only [optSemi_fresh hr, hbl m (by simp at hm; omega), List.cons_append, List.nil_append]

/-- A text of statements and subgraphs. -/
def Holds (t : Str) (ss : List Stmt) (cs : List (Str × List Stmt)) : Prop := ∃ ts, Lexes t ts ∧ BodyOf ts ss cs

theorem Holds.append {a b : Str} {ss ss' : List Stmt} {cs cs' : List (Str × List Stmt)} (h : Holds a ss cs)
    (h' : Holds b ss' cs') : Holds (a ++ b) (ss ++ ss') (cs ++ cs') := by
  obtain ⟨ts, h1, h2⟩ := h
  obtain ⟨us, h3, h4⟩ := h'
  exact ⟨ts ++ us, h1.append h3, h2.append h4⟩

theorem holds_nil : Holds [] [] [] := ⟨[], rfl, bodyOf_nil⟩

theorem holds_flatMap {α : Type} (l : List α) (t : α → Str) (ss : α → List Stmt) (cs : α → List (Str × List Stmt))
    (h : ∀ x ∈ l, Holds (t x) (ss x) (cs x)) : Holds (l.flatMap t) (l.flatMap ss) (l.flatMap cs) := by
  induction l with
  | nil => exact holds_nil
  | cons x l ih => exact (h x (by simp)).append (ih fun y hy => h y (by simp [hy]))

theorem holds_node {x : Str} (h : Plain x) {t : Str} {as : Attrs} (ht : AttrText t as) :
    Holds (c!"    \"" ++ x ++ c!"\"" ++ t ++ c!"\n") [.node x as] [] := by
  obtain ⟨ts, h1, h2⟩ := ht
  refine ⟨.quoted x :: ts, ?_, bodyOf_stmt fun r hr => (h2 r hr).1 x⟩
  have := (lexes_indent.append (lexes_quoted h)).append h1
  simpa using this

theorem holds_edge {x y : Str} (h : Plain x) (h' : Plain y) {t : Str} {as : Attrs} (ht : AttrText t as) :
    Holds (c!"    \"" ++ x ++ c!"\" -> \"" ++ y ++ c!"\"" ++ t ++ c!"\n") [.edge x y as] [] := by
  obtain ⟨ts, h1, h2⟩ := ht
  refine ⟨.quoted x :: .arrow :: .quoted y :: ts, ?_, bodyOf_stmt fun r hr => (h2 r hr).2 x y⟩
  have harr : Lexes c!" -> " [.arrow] := by decide
  have := ((lexes_indent.append (lexes_quoted h)).append harr).append ((lexes_quoted h').append h1)
  simpa using this

/-! ## Clusters -/

/-- The name of a cluster. -/
def clusterName (i : Nat) : Str := c!"cluster_" ++ (toString i).toList

theorem digits_eq (i : Nat) : (toString i).toList = Nat.toDigits 10 i := by
  rw [Nat.toString_eq_repr, Nat.toList_repr]

theorem clusterName_inj {i j : Nat} (h : clusterName i = clusterName j) : i = j := by
  unfold clusterName at h
  rw [List.append_cancel_left_eq, digits_eq, digits_eq] at h
  rw [← Nat.ofDigitChars_ten_toDigits (n := i), h, Nat.ofDigitChars_ten_toDigits]

theorem lexes_clusterName (i : Nat) : Lexes (clusterName i ++ [' ']) [.word (clusterName i)] := by
  have hd : ∀ c ∈ c!"luster_" ++ (toString i).toList, isWordChar c = true := by
    intro c hc
    rcases List.mem_append.mp hc with h | h
    · clear hc; revert h; revert c; decide
    · rw [digits_eq] at h
      simp [isWordChar, Char.isAlphanum, Nat.isDigit_of_mem_toDigits (by decide) (by decide) h]
  have h1 : lexRun .start c!"c" = some ([], .word c!"c") := by decide
  have h2 := lexRun_append h1 (lex_word _ hd c!"c")
  have h3 : lexRun (.word (clusterName i)) [' '] = some ([.word (clusterName i)], .start) := by
    have hw : wordOk (clusterName i) = true := rfl
    simp [lexRun, lexStep, hw, show isWordChar ' ' = false from by decide, lexStart]
  exact lexRun_append h2 h3

theorem ident_clusterName (i : Nat) : ident (.word (clusterName i)) = some (clusterName i) := by
  have : keyword (clusterName i) = false := by
    unfold keyword clusterName
    simp only [List.map_append, List.contains_eq_mem, List.mem_cons, List.not_mem_nil, or_false, decide_eq_false_iff_not]
    have e : List.map Char.toLower c!"cluster_" = c!"cluster_" := by decide
    rw [e]
    simp
  simp [ident, this]

/-- The statements of a cluster. -/
def clusterStmts (label : Str) (l : List Node) : List Stmt :=
  [.attr c!"label" label, .attr c!"shape" c!"tab", .attr c!"style" c!"filled", .attr c!"color" c!"lightgray"] ++
    l.map fun n => .node n.ident []

/-- The tokens of the fixed part. -/
def clusterToks (label : Str) : List Tok :=
  [.word c!"label", .eq, .quoted label, .word c!"shape", .eq, .word c!"tab", .word c!"style", .eq, .word c!"filled",
   .semi, .word c!"color", .eq, .word c!"lightgray"]

theorem clusterToks_block (label : Str) : BlockOf (clusterToks label)
    [.attr c!"label" label, .attr c!"shape" c!"tab", .attr c!"style" c!"filled", .attr c!"color" c!"lightgray"] := by
  intro r hr
  refine ⟨trivial, fun n l r' hb m hm => ?_⟩
  obtain ⟨m, rfl⟩ : ∃ k, m = k + 4 := ⟨m - 4, by simp [clusterToks] at hm; omega⟩
  have hx := hb m (by simp [clusterToks] at hm; omega)
  have e1 : stmt (clusterToks label ++ r) = some (.attr c!"label" label, (clusterToks label).drop 3 ++ r) := rfl
  have e2 : stmt ((clusterToks label).drop 3 ++ r) = some (.attr c!"shape" c!"tab", (clusterToks label).drop 6 ++ r) := rfl
  have e3 : stmt ((clusterToks label).drop 6 ++ r) =
    some (.attr c!"style" c!"filled", (clusterToks label).drop 9 ++ r) := rfl
  have e4 : stmt ((clusterToks label).drop 10 ++ r) = some (.attr c!"color" c!"lightgray", r) := rfl
  have o1 : optSemi ((clusterToks label).drop 3 ++ r) = (clusterToks label).drop 3 ++ r := rfl
  have o2 : optSemi ((clusterToks label).drop 6 ++ r) = (clusterToks label).drop 6 ++ r := rfl
  have o3 : optSemi ((clusterToks label).drop 9 ++ r) = (clusterToks label).drop 10 ++ r := rfl
  rw [block, if_neg (by simp [clusterToks]), e1]
  simp only [o1]
  rw [block, if_neg (by simp [clusterToks]), e2]
  simp only [o2]
  rw [block, if_neg (by simp [clusterToks]), e3]
  simp only [o3]
  rw [block, if_neg (by simp [clusterToks]), e4]
  simp only [optSemi_fresh hr, hx, List.cons_append, List.nil_append]

theorem members_block (l : List Node) : BlockOf (l.map fun n => .quoted n.ident) (l.map fun n => .node n.ident []) := by
  induction l with
  | nil => exact blockOf_nil
  | cons n l ih =>
    refine BlockOf.append (ts := [.quoted n.ident]) (ss := [.node n.ident []]) ?_ ih
    exact blockOf_stmt (by simp) (by simp) (fun _ => trivial) fun r hr => (attrToks_nil r hr).1 n.ident

theorem lexes_members (l : List Node) (h : ∀ n ∈ l, Plain n.ident) :
    Lexes (l.flatMap fun n => c!"   \"" ++ n.ident ++ c!"\"\n") (l.map fun n => .quoted n.ident) := by
  induction l with
  | nil => rfl
  | cons n l ih =>
    have hi : Lexes c!"   " [] := by decide
    have := ((hi.append (lexes_quoted (h n (by simp)))).append lexes_lf).append (ih fun m hm => h m (by simp [hm]))
    simpa using this

theorem holds_cluster (i : Nat) {label : Str} (hl : Plain label) {l : List Node} (h : ∀ n ∈ l, Plain n.ident) :
    Holds (clusterText i label l) [] [(clusterName i, clusterStmts label l)] := by
  refine ⟨[.word c!"subgraph", .word (clusterName i), .lbrace] ++ clusterToks label ++
    (l.map fun n => .quoted n.ident) ++ [.rbrace], ?_, ?_⟩
  · have h1 : Lexes c!"subgraph " [.word c!"subgraph"] := by decide
    have h2 : Lexes c!"{\n   label = " [.lbrace, .word c!"label", .eq] := by decide
    have h3 : Lexes c!"\n   shape = tab\n   style=filled; color=lightgray\n"
        [.word c!"shape", .eq, .word c!"tab", .word c!"style", .eq, .word c!"filled", .semi, .word c!"color", .eq,
          .word c!"lightgray"] := by decide +kernel
    have h4 : Lexes c!"}\n\n" [.rbrace] := by decide
    have := ((((h1.append (lexes_clusterName i)).append h2).append ((lexes_quoted hl).append h3)).append
      (lexes_members l h)).append h4
    simpa [clusterText, clusterName, clusterToks] using this
  · have hb := (clusterToks_block label).append (members_block l)
    intro r hr
    refine ⟨trivial, fun n ls c hbody m hm => ?_⟩
    obtain ⟨m, rfl⟩ : ∃ k, m = k + 1 := ⟨m - 1, by simp at hm; omega⟩
    have hrb : ∀ m, 1 ≤ m → block m (.rbrace :: r) = some ([], r) := by
      intro m hm
      obtain ⟨m, rfl⟩ : ∃ k, m = k + 1 := ⟨m - 1, by omega⟩
      rfl
    have hbl := (hb (.rbrace :: r) trivial).2 1 [] r hrb m (by simp at hm ⊢; omega)
    rw [body, if_neg (by simp), if_pos (by rfl)]
    have hs : subgraph ([.word c!"subgraph", .word (clusterName i), .lbrace] ++ clusterToks label ++
        (l.map fun n => .quoted n.ident) ++ [.rbrace] ++ r) =
        some (clusterName i, clusterToks label ++ (l.map fun n => .quoted n.ident) ++ (.rbrace :: r)) := by
      show (if isKeyword c!"subgraph" (.word c!"subgraph") then _ else none) = _
      rw [if_pos (by decide), ident_clusterName]
      simp
      decide
    rw [hs]
    simp only [hbl, optSemi_fresh hr, hbody m (by simp at hm; omega), List.append_nil, List.nil_append,
      List.cons_append, clusterStmts]

/-! ## The whole file -/

theorem read_of_holds {t : Str} {ss : List Stmt} {cs : List (Str × List Stmt)} (h : Holds t ss cs) :
    Dot.read (c!"digraph modulegraph {\n" ++ t ++ c!"}\n") = some { name := c!"modulegraph", stmts := ss, subgraphs := cs } := by
  obtain ⟨ts, h1, h2⟩ := h
  have a1 : Lexes c!"digraph modulegraph {\n" [.word c!"digraph", .word c!"modulegraph", .lbrace] := by decide +kernel
  have a2 : Lexes c!"}\n" [Tok.rbrace] := by decide
  have h3 : tokens (c!"digraph modulegraph {\n" ++ t ++ c!"}\n") =
      some ([.word c!"digraph", .word c!"modulegraph", .lbrace] ++ ts ++ [Tok.rbrace]) := by
    unfold tokens
    rw [(a1.append h1).append a2]
  have h4 : body ((ts ++ [Tok.rbrace]).length + 1) (ts ++ [Tok.rbrace]) = some (ss, cs) := by
    have := (h2 [Tok.rbrace] trivial).2 1 [] [] (fun m hm => by
      obtain ⟨m, rfl⟩ : ∃ k, m = k + 1 := ⟨m - 1, by omega⟩
      rfl) ((ts ++ [Tok.rbrace]).length + 1) (by simp; omega)
    simpa using this
  unfold Dot.read
  rw [h3]
  simp only [List.cons_append, List.nil_append]
  rw [if_pos (by decide), h4]
  rfl

/-! ## The graph -/

/-- The statements for a node and its edges. -/
def nodeStmts (node : Node → Attrs) (targets : Node → List Node) (edge : Node → Node → Attrs) (n : Node) : List Stmt :=
  .node n.ident (node n) :: (targets n).map fun t => .edge n.ident t.ident (edge n t)

theorem mem_edgesOf {l : List Stmt} {a b : Str} {as : Attrs} : (a, b, as) ∈ edgesOf l ↔ .edge a b as ∈ l := by
  unfold edgesOf
  rw [List.mem_filterMap]
  constructor
  · rintro ⟨s, hs, he⟩
    split at he
    · simp only [Option.some.injEq, Prod.mk.injEq] at he
      obtain ⟨rfl, rfl, rfl⟩ := he
      exact hs
    · simp at he
  · exact fun h => ⟨_, h, rfl⟩

theorem edgesOf_append (a b : List Stmt) : edgesOf (a ++ b) = edgesOf a ++ edgesOf b := List.filterMap_append ..

theorem edgesOf_nodeStmts (node : Node → Attrs) (targets : Node → List Node) (edge : Node → Node → Attrs) (n : Node) :
    edgesOf (nodeStmts node targets edge n) = (targets n).map fun t => (n.ident, t.ident, edge n t) := by
  unfold nodeStmts edgesOf
  rw [List.filterMap_cons]
  simp only [List.filterMap_map]
  induction targets n with
  | nil => rfl
  | cons t l ih => simp only [List.map_cons, List.filterMap_cons, Function.comp, ih]

theorem edgesOf_cluster (label : Str) (l : List Node) : edgesOf (clusterStmts label l) = [] := by
  unfold clusterStmts
  rw [edgesOf_append]
  have : edgesOf (l.map fun n => .node n.ident []) = [] := by
    unfold edgesOf
    rw [List.filterMap_map]
    induction l with
    | nil => rfl
    | cons t l ih => simp only [List.filterMap_cons, Function.comp, ih]
  rw [this]; rfl

theorem flatMap_none {α β : Type} (l : List α) : (l.flatMap fun _ => ([] : List β)) = [] := by
  induction l with
  | nil => rfl
  | cons x l ih => simp

theorem flatMap_one {α β : Type} (l : List α) (f : α → β) : (l.flatMap fun x => [f x]) = l.map f := by
  induction l with
  | nil => rfl
  | cons x l ih => simpa using ih

theorem edgesOf_flatMap {α : Type} (l : List α) (f : α → List Stmt) :
    edgesOf (l.flatMap f) = l.flatMap fun x => edgesOf (f x) := by
  induction l with
  | nil => rfl
  | cons x l ih => rw [List.flatMap_cons, List.flatMap_cons, edgesOf_append, ih]

theorem pairs_nodup (l : List Node) (targets : Node → List Node) (hl : (l.map Node.ident).Nodup)
    (ht : ∀ n ∈ l, ((targets n).map Node.ident).Nodup) :
    (l.flatMap fun n => (targets n).map fun t => (n.ident, t.ident)).Nodup := by
  induction l with
  | nil => simp
  | cons n l ih =>
    rw [List.map_cons, List.nodup_cons] at hl
    rw [List.flatMap_cons, List.nodup_append]
    refine ⟨?_, ih hl.2 fun m hm => ht m (by simp [hm]), ?_⟩
    · have := ht n (by simp)
      rw [List.nodup_iff_pairwise_ne, List.pairwise_map] at this ⊢
      exact this.imp fun h he => h (Prod.mk.inj he).2
    · rintro a ha b hb rfl
      rw [List.mem_map] at ha
      obtain ⟨t, -, rfl⟩ := ha
      rw [List.mem_flatMap] at hb
      obtain ⟨m, hm, hb⟩ := hb
      rw [List.mem_map] at hb
      obtain ⟨u, -, hb⟩ := hb
      exact hl.1 (List.mem_map.mpr ⟨m, hm, (Prod.mk.inj hb).1⟩)

theorem mem_nodeStmts {node : Node → Attrs} {targets : Node → List Node} {edge : Node → Node → Attrs} {l : List Node}
    {s : Stmt} : s ∈ l.flatMap (nodeStmts node targets edge) ↔
      ∃ n ∈ l, s = .node n.ident (node n) ∨ ∃ t ∈ targets n, s = .edge n.ident t.ident (edge n t) := by
  simp only [List.mem_flatMap, nodeStmts, List.mem_cons, List.mem_map, eq_comm]

theorem mem_clusterStmts {label : Str} {l : List Node} {s : Stmt} : s ∈ clusterStmts label l ↔
    s = .attr c!"label" label ∨ s = .attr c!"shape" c!"tab" ∨ s = .attr c!"style" c!"filled" ∨
      s = .attr c!"color" c!"lightgray" ∨ ∃ n ∈ l, s = .node n.ident [] := by
  simp only [clusterStmts, List.mem_append, List.mem_cons, List.mem_map, List.not_mem_nil, or_false, eq_comm, or_assoc]

theorem zipIdx_names (cs : List (Str × List Node)) :
    ((cs.zipIdx.map fun c => (clusterName c.2, clusterStmts c.1.1 c.1.2)).map Prod.fst).Nodup := by
  rw [List.map_map, List.nodup_iff_pairwise_ne, List.pairwise_map]
  have : (cs.zipIdx.map Prod.snd).Nodup := by
    rw [List.zipIdx_map_snd]
    exact List.nodup_range'
  rw [List.nodup_iff_pairwise_ne, List.pairwise_map] at this
  exact this.imp fun h he => h (clusterName_inj he)

/-- What is read. -/
def fileOf (l : List Node) (targets : Node → List Node) (cs : List (Str × List Node)) (nAs : Node → Attrs)
    (eAs : Node → Node → Attrs) : File where
  name := c!"modulegraph"
  stmts := l.flatMap (nodeStmts nAs targets eAs)
  subgraphs := cs.zipIdx.map fun c => (clusterName c.2, clusterStmts c.1.1 c.1.2)

theorem showsGraph {g : View} {l : List Node} {targets : Node → List Node} {cs : List (Str × List Node)}
    (hnd : (l.map Node.ident).Nodup) (hmem : ∀ n, n ∈ l ↔ n ∈ g.nodes ∧ Reach g n.ident)
    (hT : ∀ n ∈ l, Targets g n.ident (targets n)) (hc : Clusters g cs) (nAs : Node → Attrs)
    (hn : ∀ n, ∃ missing root : Bool, (missing = true ↔ n.kind = .missing) ∧ (root = true ↔ n.ident ∈ g.roots) ∧
      nAs n = nodeAttrs missing root (shapeOf n.kind)) (eAs : Node → Node → Attrs)
    (he : ∀ a b, ∃ dashed parent : Bool,
      (dashed = true ↔ ∀ d, (a.ident, b.ident, d) ∈ g.edges → d.isOptional = true) ∧
      (parent = true ↔ ∃ r, a.ident = b.ident ++ '.' :: r) ∧ eAs a b = edgeAttrs dashed parent) :
    ShowsGraph g (fileOf l targets cs nAs eAs) := by
  have hreach : ∀ n ∈ l, ∀ t ∈ targets n, t ∈ g.nodes ∧ Reach g t.ident := by
    intro n hnl t ht
    obtain ⟨h1, d, h2⟩ := ((hT n hnl).mem t).mp ht
    exact ⟨h1, .step ((hmem n).mp hnl).2 h2⟩
  have hcs : ∀ x : Str × List Stmt, x ∈ (cs.zipIdx.map fun c => (clusterName c.2, clusterStmts c.1.1 c.1.2)) →
      ∃ c ∈ cs, ∃ i, x = (clusterName i, clusterStmts c.1 c.2) := by
    intro x hx
    rw [List.mem_map] at hx
    obtain ⟨⟨c, i⟩, hci, rfl⟩ := hx
    refine ⟨c, ?_, i, rfl⟩
    rw [(List.mem_zipIdx hci).2.2]
    exact List.getElem_mem _
  have hcs' : ∀ c ∈ cs, ∃ i, (clusterName i, clusterStmts c.1 c.2) ∈
      (cs.zipIdx.map fun c => (clusterName c.2, clusterStmts c.1.1 c.1.2)) := by
    intro c hcm
    obtain ⟨i, hi, rfl⟩ := List.getElem_of_mem hcm
    exact ⟨i, List.mem_map.mpr ⟨(cs[i], i), List.mk_mem_zipIdx_iff_getElem?.mpr (List.getElem?_eq_getElem hi), rfl⟩⟩
  have hedges : (File.edges (fileOf l targets cs nAs eAs)) =
      l.flatMap fun n => (targets n).map fun t => (n.ident, t.ident, eAs n t) := by
    unfold File.edges fileOf
    simp only [edgesOf_flatMap, edgesOf_nodeStmts, List.flatMap_map, edgesOf_cluster, flatMap_none, List.append_nil]
  have hem : ∀ a b as, (a, b, as) ∈ (l.flatMap fun n => (targets n).map fun t => (n.ident, t.ident, eAs n t)) ↔
      ∃ n ∈ l, ∃ t ∈ targets n, a = n.ident ∧ b = t.ident ∧ as = eAs n t := by
    intro a b as
    simp only [List.mem_flatMap, List.mem_map, Prod.mk.injEq, eq_comm]
  have huniq : ∀ n ∈ l, ∀ m ∈ l, n.ident = m.ident → n = m := fun n hn m hm e => nodup_map_inj hnd hn hm e
  have hattr : ∀ n ∈ l, ∀ k v, File.NodeAttr (fileOf l targets cs nAs eAs) n.ident k v ↔ (k, v) ∈ nAs n := by
    intro n hnl k v
    constructor
    · rintro ⟨as, h1, h2 | ⟨c, hcm, h2⟩⟩
      · replace h2 := mem_nodeStmts.mp h2
        obtain ⟨m, hm, h2 | ⟨t, -, h2⟩⟩ := h2
        · injection h2 with e1 e2
          subst e2
          rw [huniq n hnl m hm e1]; exact h1
        · cases h2
      · obtain ⟨c, -, i, rfl⟩ := hcs c hcm
        rw [mem_clusterStmts] at h2
        rcases h2 with h2 | h2 | h2 | h2 | ⟨m, -, h2⟩ <;> injection h2
        subst as
        simp at h1
    · exact fun h => ⟨_, h, .inl (mem_nodeStmts.mpr ⟨n, hnl, .inl rfl⟩)⟩
  refine ⟨?_, ?_, ?_, ?_, ?_, ?_, ?_, ?_, ?_, zipIdx_names cs, ?_⟩
  · intro x
    constructor
    · rintro (⟨s, hs, hx⟩ | ⟨c, hcm, s, hs, hx⟩)
      · replace hs := mem_nodeStmts.mp hs
        obtain ⟨n, hnl, rfl | ⟨t, ht, rfl⟩⟩ := hs
        · cases hx
          exact ⟨((hmem n).mp hnl).2, n, ((hmem n).mp hnl).1, rfl⟩
        · rcases hx with rfl | rfl
          · exact ⟨((hmem n).mp hnl).2, n, ((hmem n).mp hnl).1, rfl⟩
          · exact ⟨(hreach n hnl t ht).2, t, (hreach n hnl t ht).1, rfl⟩
      · obtain ⟨c, hcc, i, rfl⟩ := hcs c hcm
        rw [mem_clusterStmts] at hs
        rcases hs with rfl | rfl | rfl | rfl | ⟨m, hm, rfl⟩
        · exact absurd hx id
        · exact absurd hx id
        · exact absurd hx id
        · exact absurd hx id
        · cases hx
          obtain ⟨h1, h2, -⟩ := (hc.mem m c.1).mp ⟨c.2, hcc, hm⟩
          exact ⟨h2, m, h1, rfl⟩
    · rintro ⟨hr, n, hng, rfl⟩
      exact .inl ⟨_, mem_nodeStmts.mpr ⟨n, (hmem n).mpr ⟨hng, hr⟩, .inl rfl⟩, rfl⟩
  · intro n hng hr
    rw [hattr n ((hmem n).mpr ⟨hng, hr⟩)]
    obtain ⟨missing, root, h1, h2, h3⟩ := hn n
    rw [h3, ← h2]
    cases missing <;> cases root <;> simp [nodeAttrs]
  · intro n hng hr s
    rw [hattr n ((hmem n).mpr ⟨hng, hr⟩)]
    obtain ⟨missing, root, h1, h2, h3⟩ := hn n
    rw [h3]
    cases missing <;> cases root <;> simp [nodeAttrs, Option.mem_toList]
  · intro n hng hr s
    rw [hattr n ((hmem n).mpr ⟨hng, hr⟩)]
    obtain ⟨missing, root, h1, h2, h3⟩ := hn n
    rw [h3, ← h1]
    cases missing <;> cases root <;> simp [nodeAttrs]
  · rw [hedges, List.map_flatMap]
    simp only [List.map_map, Function.comp_def]
    exact pairs_nodup l targets hnd fun n hnl => (hT n hnl).once
  · intro a b
    rw [hedges]
    simp only [hem]
    constructor
    · rintro ⟨as, n, hnl, t, ht, rfl, rfl, -⟩
      exact ⟨((hmem n).mp hnl).2, (((hT n hnl).mem t).mp ht).2, ⟨n, ((hmem n).mp hnl).1, rfl⟩,
        t, (hreach n hnl t ht).1, rfl⟩
    · rintro ⟨hr, ⟨d, hde⟩, ⟨n, hng, rfl⟩, t, htg, rfl⟩
      have hnl := (hmem n).mpr ⟨hng, hr⟩
      exact ⟨_, n, hnl, t, ((hT n hnl).mem t).mpr ⟨htg, d, hde⟩, rfl, rfl, rfl⟩
  · intro a b as h
    rw [hedges, hem] at h
    obtain ⟨n, hnl, t, ht, rfl, rfl, rfl⟩ := h
    obtain ⟨dashed, parent, h1, h2, h3⟩ := he n t
    rw [h3, ← h1]
    cases dashed <;> cases parent <;> simp [edgeAttrs]
  · intro a b as h
    rw [hedges, hem] at h
    obtain ⟨n, hnl, t, ht, rfl, rfl, rfl⟩ := h
    obtain ⟨dashed, parent, h1, h2, h3⟩ := he n t
    rw [h3, ← h2]
    cases dashed <;> cases parent <;> simp [edgeAttrs]
  · intro c hcm
    obtain ⟨c, hcc, i, rfl⟩ := hcs c hcm
    refine ⟨c.1, fun v => ?_⟩
    rw [mem_clusterStmts]
    simp
  · intro label x
    constructor
    · rintro ⟨c, hcm, -, hl, s, hs, hx⟩
      obtain ⟨c, hcc, i, rfl⟩ := hcs c hcm
      rw [mem_clusterStmts] at hs hl
      obtain rfl : label = c.1 := by simpa using hl
      rcases hs with rfl | rfl | rfl | rfl | ⟨m, hm, rfl⟩
      · exact absurd hx id
      · exact absurd hx id
      · exact absurd hx id
      · exact absurd hx id
      · cases hx
        obtain ⟨h1, h2, h3, h4⟩ := (hc.mem m c.1).mp ⟨c.2, hcc, hm⟩
        exact ⟨m, h1, rfl, h2, h3, h4⟩
    · rintro ⟨n, hng, rfl, hr, hm, hd⟩
      obtain ⟨ns, h1, h2⟩ := (hc.mem n label).mpr ⟨hng, hr, hm, hd⟩
      obtain ⟨i, hi⟩ := hcs' _ h1
      exact ⟨_, hi, ⟨'_' :: (toString i).toList, rfl⟩, mem_clusterStmts.mpr (.inl rfl), _,
        mem_clusterStmts.mpr (.inr (.inr (.inr (.inr ⟨n, h2, rfl⟩)))), rfl⟩

/-- C68: a Graphviz document (as in C33 and C54) can be read, and shows the graph. -/
theorem C68_read {g : View} {doc : Str} (h : Document .graphviz g doc)
    (hi : ∀ n ∈ g.nodes, Reach g n.ident → Plain n.ident)
    (hd : ∀ n ∈ g.nodes, Reach g n.ident → ∀ d, n.distribution = some d → Plain d.name) :
    ∃ D, Dot.read doc = some D ∧ ShowsGraph g D := by
  classical
  obtain ⟨l, node, targets, edge, cs, hnd, hmem, hn, hc, rfl⟩ := h
  let nAs : Node → Attrs := fun n =>
    nodeAttrs (decide (n.kind = .missing)) (decide (n.ident ∈ g.roots)) (shapeOf n.kind)
  let eAs : Node → Node → Attrs := fun a b =>
    edgeAttrs (decide (∀ d, (a.ident, b.ident, d) ∈ g.edges → d.isOptional = true))
      (decide (∃ r, a.ident = b.ident ++ '.' :: r))
  have hreach : ∀ n ∈ l, ∀ t ∈ targets n, t ∈ g.nodes ∧ Reach g t.ident := by
    intro n hnl t ht
    obtain ⟨h1, d, h2⟩ := ((hn n hnl).2.1.mem t).mp ht
    exact ⟨h1, .step ((hmem n).mp hnl).2 h2⟩
  have hnode : ∀ n ∈ l, Holds (node n) [.node n.ident (nAs n)] [] := by
    intro n hnl
    obtain ⟨⟨root, missing, h1, h2, h3⟩, -⟩ := hn n hnl
    obtain rfl : root = decide (n.ident ∈ g.roots) := by
      rw [Bool.eq_iff_iff, h1, decide_eq_true_iff]
    obtain rfl : missing = decide (n.kind = .missing) := by
      rw [Bool.eq_iff_iff, h2, decide_eq_true_iff]
    rw [h3]
    exact holds_node (hi n ((hmem n).mp hnl).1 ((hmem n).mp hnl).2) (nodeAttrs_text _ _ n.kind)
  have hedge : ∀ n ∈ l, ∀ t ∈ targets n, Holds (edge n t) [.edge n.ident t.ident (eAs n t)] [] := by
    intro n hnl t ht
    obtain ⟨dashed, parent, h1, h2, h3⟩ := (hn n hnl).2.2 t ht
    obtain rfl : dashed = decide (∀ d, (n.ident, t.ident, d) ∈ g.edges → d.isOptional = true) := by
      rw [Bool.eq_iff_iff, h1, decide_eq_true_iff]
    obtain rfl : parent = decide (∃ r, n.ident = t.ident ++ '.' :: r) := by
      rw [Bool.eq_iff_iff, h2, decide_eq_true_iff]
    rw [h3]
    exact holds_edge (hi n ((hmem n).mp hnl).1 ((hmem n).mp hnl).2)
      (hi t (hreach n hnl t ht).1 (hreach n hnl t ht).2) (edgeAttrs_text _ _)
  have hN : Holds (l.flatMap fun n => node n ++ (targets n).flatMap (edge n)) (l.flatMap (nodeStmts nAs targets eAs)) [] := by
    have := holds_flatMap l (fun n => node n ++ (targets n).flatMap (edge n)) (nodeStmts nAs targets eAs) (fun _ => [])
      (fun n hnl => by
        have := (hnode n hnl).append (holds_flatMap (targets n) (edge n)
          (fun t => [.edge n.ident t.ident (eAs n t)]) (fun _ => []) (hedge n hnl))
        rw [flatMap_none, flatMap_one] at this
        simpa [nodeStmts] using this)
    rwa [flatMap_none] at this
  have hplainC : ∀ c ∈ cs, ∀ n ∈ c.2, n ∈ g.nodes ∧ Reach g n.ident ∧ IsModuleNode n ∧
      ∃ d, n.distribution = some d ∧ d.name = c.1 := fun c hcm n hnc => (hc.mem n c.1).mp ⟨c.2, hcm, hnc⟩
  have hC : Holds (cs.zipIdx.flatMap fun c => clusterText c.2 c.1.1 c.1.2) []
      (cs.zipIdx.map fun c => (clusterName c.2, clusterStmts c.1.1 c.1.2)) := by
    have := holds_flatMap cs.zipIdx (fun c => clusterText c.2 c.1.1 c.1.2) (fun _ => [])
      (fun c => [(clusterName c.2, clusterStmts c.1.1 c.1.2)]) (fun c hcm => by
        obtain ⟨c, i⟩ := c
        have hcm := (List.mem_zipIdx hcm).2.2
        have hcm : c ∈ cs := by rw [hcm]; exact List.getElem_mem _
        refine holds_cluster i ?_ fun n hnc => hi n (hplainC c hcm n hnc).1 (hplainC c hcm n hnc).2.1
        obtain ⟨n, hnc⟩ := List.exists_mem_of_ne_nil _ (hc.nonempty c hcm)
        obtain ⟨h1, h2, -, d, h3, h4⟩ := hplainC c hcm n hnc
        rw [← h4]
        exact hd n h1 h2 d h3)
    rwa [flatMap_none, flatMap_one] at this
  refine ⟨_, read_of_holds (by simpa using hN.append hC), ?_⟩
  exact showsGraph hnd hmem (fun n hnl => (hn n hnl).2.1) hc nAs
    (fun n => ⟨_, _, decide_eq_true_iff, decide_eq_true_iff, rfl⟩) eAs
    fun a b => ⟨_, _, decide_eq_true_iff, decide_eq_true_iff, rfl⟩

/-- C68: the export of a graph can be read. -/
theorem C68_export {g : View} {it : Iter} (h : IterOf g it)
    (hi : ∀ n ∈ g.nodes, Reach g n.ident → Plain n.ident)
    (hd : ∀ n ∈ g.nodes, Reach g n.ident → ∀ d, n.distribution = some d → Plain d.name) :
    ∃ D, Dot.read (exportDot it) = some D ∧ ShowsGraph g D :=
  C68_read (C33_statements h) hi hd

/-- C68: when the program was called with `-f dot` and ended normally, what it has written can be read and shows the
graph that was built. -/
theorem C68_written (o : Output W) (f : Files W) (hf : OutputOk o f) (sp : SysPath W) (env : Env W)
    (n : Nat) (implies : List (Str × Implies)) (stdlib : List Str) (iter : St W → Iter)
    (hi : ObjectGraphOk iter) (argv : List Arg) (w w' : W) (hdot : (formats argv).getLast? = some c!"dot")
    (h : main o sp env n implies stdlib iter argv w = (.returned, w')) :
    ∃ a s w1 doc, Means stdlib argv a ∧ makeGraph sp env n implies a w = (.ok s, w1) ∧
      WrittenTo f a.outputFile doc w1 w' ∧
      ((∀ m ∈ s.nodes, Plain m.ident ∧ ∀ d, m.distribution = some d → Plain d.name) →
        ∃ D, Dot.read doc = some D ∧ ShowsGraph (view s) D) := by
  obtain ⟨a, s, w1, doc, h1, h2, h3, h4⟩ := C54_written o f hf sp env n implies stdlib iter hi argv w w' h
  refine ⟨a, s, w1, doc, h1, h2, h4, fun hp => ?_⟩
  rw [h1.format, if_pos hdot] at h3
  exact C68_read h3 (fun m hm _ => (hp m hm).1) fun m hm _ => (hp m hm).2

/-! ## Names that cannot stand between quotes -/

/-- The graph that consists of a script. -/
def scriptView (path : Str) : View where
  nodes := [{ ident := path, kind := .script, filename := some path }]
  edges := []
  roots := [path]

/-- Its iterators. -/
def scriptIter (path : Str) : Iter where
  iterGraph := [{ ident := path, kind := .script, filename := some path }]
  nodes := [{ ident := path, kind := .script, filename := some path }]
  roots := [{ ident := path, kind := .script, filename := some path }]
  outgoing _ := []
  incoming _ := []

theorem scriptIter_ok (path : Str) : IterOf (scriptView path) (scriptIter path) := by
  refine ⟨by simp [scriptIter], ?_, ?_, ?_, ?_, ?_, ?_, ?_, ?_⟩
  · intro n
    simp only [scriptIter, scriptView, List.mem_singleton]
    exact ⟨fun h => ⟨h, .root (by simp [h])⟩, fun h => h.1⟩
  all_goals simp [scriptIter, scriptView]
  all_goals grind

/-- C68 does not hold for all names: identifiers are not escaped, and the file for a graph with one node and no
edges, for a script called `a" -> "b`, shows an edge between two other nodes. -/
theorem C68_injection : ∃ g it, IterOf g it ∧ g.edges = [] ∧ (∀ n ∈ g.nodes, n.ident = c!"a\" -> \"b") ∧
    ∃ D, Dot.read (exportDot it) = some D ∧ (∃ as, (c!"a", c!"b", as) ∈ D.edges) ∧ D.Node c!"a" ∧ D.Node c!"b" := by
  refine ⟨_, _, scriptIter_ok c!"a\" -> \"b", rfl, by simp [scriptView], ?_⟩
  have : Dot.read (exportDot (scriptIter c!"a\" -> \"b")) = some
      { name := c!"modulegraph",
        stmts := [.edge c!"a" c!"b" [(c!"penwidth", c!"2"), (c!"root", c!"true"), (c!"shape", c!"note")]],
        subgraphs := [] } := by decide +kernel
  refine ⟨_, this, ⟨_, List.mem_singleton.mpr rfl⟩, .inl ⟨_, List.mem_singleton.mpr rfl, .inl rfl⟩,
    .inl ⟨_, List.mem_singleton.mpr rfl, .inr rfl⟩⟩

/-- C68: nor can the file always be read: a quote, or a backslash at the end of a name. -/
theorem C68_unreadable : Dot.read (exportDot (scriptIter c!"a\"")) = none ∧
    Dot.read (exportDot (scriptIter c!"a\\")) = none := by decide +kernel

/-! ## An example -/

/-- The hypotheses of `C68_export` are met by the graph of `C32_dangling_link`. -/
example : ∃ D, Dot.read (exportDot exportIter) = some D ∧ D.Node c!"m" ∧ D.Cluster c!"d" c!"m" ∧
    ∃ as, (c!"/d.dist-info", c!"m", as) ∈ D.edges := by
  obtain ⟨h1, h2, h3⟩ := exportView_eq
  have hp : Plain c!"m" ∧ Plain c!"d" ∧ Plain c!"/d.dist-info" := by unfold Plain; decide +kernel
  have hd : Reach exportView c!"/d.dist-info" := .root (by rw [h2]; simp)
  have hm : Reach exportView c!"m" :=
    .step (a := c!"/d.dist-info") hd (by rw [h3]; exact List.mem_singleton.mpr rfl)
  obtain ⟨D, hD, hs⟩ := C68_export exportIter_ok
    (by rw [h1]; simp [nodeD, nodeM]; exact ⟨fun _ => hp.2.2, fun _ => hp.1⟩)
    (by
      rw [h1]; intro n hn _ d hd
      simp only [List.mem_cons, List.not_mem_nil, or_false] at hn
      rcases hn with rfl | rfl
      · cases hd
      · cases hd; exact hp.2.1)
  refine ⟨D, hD, (hs.nodes _).mpr ⟨hm, nodeM, by rw [h1]; simp, rfl⟩, (hs.clusters _ _).mpr
    ⟨nodeM, by rw [h1]; simp, rfl, hm, fun d h => by (cases h), distD, rfl, rfl⟩,
    (hs.edges _ _).mpr ⟨hd, ⟨_, by rw [h3]; exact List.mem_singleton.mpr rfl⟩, ⟨nodeD, by rw [h1]; simp, rfl⟩,
      nodeM, by rw [h1]; simp, rfl⟩⟩

end Verif.Props
