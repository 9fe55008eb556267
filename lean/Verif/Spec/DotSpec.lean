import Verif.Spec.MainSpec
/-!
# A reader for Graphviz files

Written after the grammar of the DOT language (<https://graphviz.org/doc/info/lang.html>), for the part
of the language without comments, HTML strings, ports, default attributes, string concatenation, edge
chains and nested subgraphs: a text that uses any of these is rejected.
-/
namespace Verif.Spec.Dot
open Verif

/-! ## Tokens -/

/-- A word (identifier, numeral or keyword), a string in double quotes, or punctuation. -/
inductive Tok where
  | word (s : Str)
  | quoted (s : Str)
  | arrow | eq | comma | semi | lbrace | rbrace | lbrack | rbrack
deriving DecidableEq

/-- Between tokens, in a word, in a string, after a backslash in a string, after a dash. -/
inductive LexState where
  | start
  | word (seen : Str)
  | str (seen : Str)
  | esc (seen : Str)
  | dash
deriving DecidableEq

/-- Characters of words. -/
def isWordChar (c : Char) : Bool := c.isAlphanum || c == '_'

/-- A word that begins with a digit is a numeral. -/
def wordOk : Str → Bool
  | [] => false
  | c :: r => !c.isDigit || r.all Char.isDigit

/-- A character between tokens. -/
def lexStart (c : Char) : Option (List Tok × LexState) :=
  if c = ' ' ∨ c = '\n' ∨ c = '\t' ∨ c = '\r' then some ([], .start)
  else if c = '"' then some ([], .str [])
  else if isWordChar c then some ([], .word [c])
  else if c = '-' then some ([], .dash)
  else if c = '=' then some ([.eq], .start)
  else if c = ',' then some ([.comma], .start)
  else if c = ';' then some ([.semi], .start)
  else if c = '{' then some ([.lbrace], .start)
  else if c = '}' then some ([.rbrace], .start)
  else if c = '[' then some ([.lbrack], .start)
  else if c = ']' then some ([.rbrack], .start)
  else none

/-- One character.  In a string `\"` stands for a quote and a backslash before the end of a line for
nothing; any other backslash, and the character after it, stands for itself. -/
def lexStep : LexState → Char → Option (List Tok × LexState)
  | .start, c => lexStart c
  | .word seen, c =>
    if isWordChar c then some ([], .word (seen ++ [c]))
    else if wordOk seen then (lexStart c).map fun r => (.word seen :: r.1, r.2)
    else none
  | .str seen, c =>
    if c = '"' then some ([.quoted seen], .start)
    else if c = '\\' then some ([], .esc seen)
    else some ([], .str (seen ++ [c]))
  | .esc seen, c =>
    if c = '"' then some ([], .str (seen ++ ['"']))
    else if c = '\n' then some ([], .str seen)
    else some ([], .str (seen ++ ['\\', c]))
  | .dash, c => if c = '>' then some ([.arrow], .start) else none

/-- The tokens of a text, and the state at its end. -/
def lexRun : LexState → Str → Option (List Tok × LexState)
  | st, [] => some ([], st)
  | st, c :: r =>
    match lexStep st c with
    | none => none
    | some (ts, st') =>
      match lexRun st' r with
      | none => none
      | some (us, st'') => some (ts ++ us, st'')

/-- The tokens of a complete text. -/
def tokens (text : Str) : Option (List Tok) :=
  match lexRun .start text with
  | some (ts, .start) => some ts
  | some (ts, .word w) => if wordOk w then some (ts ++ [.word w]) else none
  | _ => none

/-! ## Statements -/

/-- Lists of attributes. -/
abbrev Attrs := List (Str × Str)

/-- Statements other than subgraphs. -/
inductive Stmt where
  | node (x : Str) (attrs : Attrs)
  | edge (a b : Str) (attrs : Attrs)
  | attr (key value : Str)
deriving DecidableEq

/-- Keywords (in any case). -/
def keyword (w : Str) : Bool :=
  [c!"node", c!"edge", c!"graph", c!"digraph", c!"subgraph", c!"strict"].contains (w.map Char.toLower)

/-- The identifier that a token stands for. -/
def ident : Tok → Option Str
  | .word w => if keyword w then none else some w
  | .quoted s => some s
  | _ => none

/-- The keyword is this one. -/
def isKeyword (k : Str) : Tok → Bool
  | .word w => w.map Char.toLower == k
  | _ => false

/-- The rest of an attribute list, up to the closing bracket. -/
def attrList : List Tok → Option (Attrs × List Tok)
  | .rbrack :: r => some ([], r)
  | k :: .eq :: v :: .comma :: r =>
    match ident k, ident v, attrList r with
    | some k, some v, some (l, r) => some ((k, v) :: l, r)
    | _, _, _ => none
  | k :: .eq :: v :: .semi :: r =>
    match ident k, ident v, attrList r with
    | some k, some v, some (l, r) => some ((k, v) :: l, r)
    | _, _, _ => none
  | k :: .eq :: v :: r =>
    match ident k, ident v, attrList r with
    | some k, some v, some (l, r) => some ((k, v) :: l, r)
    | _, _, _ => none
  | _ => none

/-- An optional attribute list. -/
def optAttrs : List Tok → Option (Attrs × List Tok)
  | .lbrack :: r => attrList r
  | r => some ([], r)

/-- A statement. -/
def stmt : List Tok → Option (Stmt × List Tok)
  | a :: .arrow :: b :: r =>
    match ident a, ident b, optAttrs r with
    | some a, some b, some (l, r) => some (.edge a b l, r)
    | _, _, _ => none
  | k :: .eq :: v :: r =>
    match ident k, ident v with
    | some k, some v => some (.attr k v, r)
    | _, _ => none
  | a :: r =>
    match ident a, optAttrs r with
    | some a, some (l, r) => some (.node a l, r)
    | _, _ => none
  | [] => none

/-- An optional semicolon. -/
def optSemi : List Tok → List Tok
  | .semi :: r => r
  | r => r

/-- Statements up to the closing brace (at most `n`). -/
def block : Nat → List Tok → Option (List Stmt × List Tok)
  | 0, _ => none
  | n + 1, ts =>
    if ts.head? = some .rbrace then some ([], ts.tail)
    else
      match stmt ts with
      | none => none
      | some (s, r) =>
        match block n (optSemi r) with
        | none => none
        | some (l, r) => some (s :: l, r)

/-- The contents of a file: statements, and subgraphs with their names. -/
structure File where
  name : Str
  stmts : List Stmt
  subgraphs : List (Str × List Stmt)
deriving DecidableEq

/-- The name of a subgraph and what follows its opening brace. -/
def subgraph : List Tok → Option (Str × List Tok)
  | k :: x :: .lbrace :: r => if isKeyword c!"subgraph" k then (ident x).map (·, r) else none
  | _ => none

/-- The statements of a graph up to the closing brace at the end of the text (at most `n`). -/
def body : Nat → List Tok → Option (List Stmt × List (Str × List Stmt))
  | 0, _ => none
  | n + 1, ts =>
    if ts.head? = some .rbrace then (if ts.tail = [] then some ([], []) else none)
    else if ts.head?.any (isKeyword c!"subgraph") then
      match subgraph ts with
      | none => none
      | some (x, r) =>
        match block n r with
        | none => none
        | some (b, r) =>
          match body n (optSemi r) with
          | none => none
          | some (l, c) => some (l, (x, b) :: c)
    else
      match stmt ts with
      | none => none
      | some (s, r) =>
        match body n (optSemi r) with
        | none => none
        | some (l, c) => some (s :: l, c)

/-- Read a directed graph. -/
def read (text : Str) : Option File :=
  match tokens text with
  | some (k :: x :: .lbrace :: r) =>
    if isKeyword c!"digraph" k then
      match ident x, body (r.length + 1) r with
      | some x, some (l, c) => some { name := x, stmts := l, subgraphs := c }
      | _, _ => none
    else none
  | _ => none

/-! ## The graph of a file -/

/-- The statement mentions the node. -/
def Stmt.Mentions (x : Str) : Stmt → Prop
  | .node y _ => x = y
  | .edge a b _ => x = a ∨ x = b
  | .attr _ _ => False

/-- The node is part of the graph. -/
def File.Node (D : File) (x : Str) : Prop :=
  (∃ s ∈ D.stmts, s.Mentions x) ∨ ∃ c ∈ D.subgraphs, ∃ s ∈ c.2, s.Mentions x

/-- All edges, with their attributes. -/
def edgesOf (l : List Stmt) : List (Str × Str × Attrs) :=
  l.filterMap fun s => match s with | .edge a b as => some (a, b, as) | _ => none

/-- All edges of the graph. -/
def File.edges (D : File) : List (Str × Str × Attrs) :=
  edgesOf D.stmts ++ D.subgraphs.flatMap fun c => edgesOf c.2

/-- The node has this attribute. -/
def File.NodeAttr (D : File) (x k v : Str) : Prop :=
  ∃ as, (k, v) ∈ as ∧ (.node x as ∈ D.stmts ∨ ∃ c ∈ D.subgraphs, .node x as ∈ c.2)

/-- There is a cluster (a subgraph with a name that begins with `cluster`) that shows this label and
has this node in it. -/
def File.Cluster (D : File) (label x : Str) : Prop :=
  ∃ c ∈ D.subgraphs, c!"cluster" <+: c.1 ∧ .attr c!"label" label ∈ c.2 ∧ ∃ s ∈ c.2, s.Mentions x

/-! ## Graphs of modules -/

/-- The text can stand between quotes: it has no quotes and no line ends in it and does not end with
a backslash. -/
def Plain (s : Str) : Prop := '"' ∉ s ∧ '\n' ∉ s ∧ s.getLast? ≠ some '\\'

/-- The file shows the reachable part of a graph of modules: the nodes, with a mark for roots, a shape
for the kind of node, and red for missing modules; one edge between any two nodes that are connected,
dashed when all imports are optional, and without arrow when it leads to a package of the module; and
one cluster for each distribution. -/
structure ShowsGraph (g : View) (D : File) : Prop where
  nodes : ∀ x, D.Node x ↔ Reach g x ∧ ∃ n ∈ g.nodes, n.ident = x
  root : ∀ n ∈ g.nodes, Reach g n.ident → (D.NodeAttr n.ident c!"root" c!"true" ↔ n.ident ∈ g.roots)
  shape : ∀ n ∈ g.nodes, Reach g n.ident → ∀ s, D.NodeAttr n.ident c!"shape" s ↔ shapeOf n.kind = some s
  color : ∀ n ∈ g.nodes, Reach g n.ident → ∀ s, D.NodeAttr n.ident c!"color" s ↔ n.kind = .missing ∧ s = c!"red"
  once : (D.edges.map fun e => (e.1, e.2.1)).Nodup
  edges : ∀ a b, (∃ as, (a, b, as) ∈ D.edges) ↔ Reach g a ∧ (∃ d, (a, b, d) ∈ g.edges) ∧
    (∃ n ∈ g.nodes, n.ident = a) ∧ ∃ n ∈ g.nodes, n.ident = b
  dashed : ∀ a b as, (a, b, as) ∈ D.edges →
    ((c!"style", c!"dashed") ∈ as ↔ ∀ d, (a, b, d) ∈ g.edges → d.isOptional = true)
  parent : ∀ a b as, (a, b, as) ∈ D.edges →
    ((c!"arrowhead", c!"none") ∈ as ↔ ∃ r, a = b ++ '.' :: r)
  labels : ∀ c ∈ D.subgraphs, ∃ label, ∀ l, .attr c!"label" l ∈ c.2 ↔ l = label
  names : (D.subgraphs.map Prod.fst).Nodup
  clusters : ∀ label x, D.Cluster label x ↔ ∃ n ∈ g.nodes, n.ident = x ∧ Reach g x ∧ IsModuleNode n ∧
    ∃ d, n.distribution = some d ∧ d.name = label

end Verif.Spec.Dot
