import Verif.Spec.MainSpec
/-!
# A reader for HTML pages

Written after the HTML standard, for pages made of tags with attributes in quotes, and text.  Comments,
character references, scripts and attributes without value are not known: a text that uses any of
these is rejected.
-/
namespace Verif.Spec.Html
open Verif

/-! ## Tokens -/

/-- A start tag with its attributes, an end tag, or a character of the text. -/
inductive Tok where
  | tag (name : Str) (attrs : List (Str × Str))
  | close (name : Str)
  | char (c : Char)
deriving DecidableEq

/-- In text; after `<`; in the name of a tag; in the name of an end tag; after white space in a tag; in
the name of an attribute; after the equals sign; in a value, with the kind of quote; after a value. -/
inductive LexState where
  | text
  | opened
  | tag (name : Str)
  | close (name : Str)
  | space (tag : Str) (attrs : List (Str × Str))
  | key (tag : Str) (attrs : List (Str × Str)) (key : Str)
  | value (tag : Str) (attrs : List (Str × Str)) (key : Str)
  | quoted (tag : Str) (attrs : List (Str × Str)) (key : Str) (quote : Char) (value : Str)
  | valued (tag : Str) (attrs : List (Str × Str))
deriving DecidableEq

/-- White space. -/
def isSpace (c : Char) : Bool := c == ' ' || c == '\n' || c == '\t' || c == '\r'

/-- One character.  The names of tags and attributes can be written in capitals. -/
def lexStep : LexState → Char → Option (List Tok × LexState)
  | .text, c => if c = '<' then some ([], .opened) else if c = '&' then none else some ([.char c], .text)
  | .opened, c =>
    if c.isAlpha then some ([], .tag [c.toLower]) else if c = '/' then some ([], .close []) else none
  | .tag n, c =>
    if c = '>' then some ([.tag n []], .text)
    else if isSpace c then some ([], .space n [])
    else if c.isAlphanum then some ([], .tag (n ++ [c.toLower]))
    else none
  | .close n, c =>
    if c = '>' then some ([.close n], .text)
    else if c.isAlphanum then some ([], .close (n ++ [c.toLower]))
    else none
  | .space t as, c =>
    if c = '>' then some ([.tag t as], .text)
    else if isSpace c then some ([], .space t as)
    else if c.isAlpha then some ([], .key t as [c.toLower])
    else none
  | .key t as k, c =>
    if c = '=' then some ([], .value t as k)
    else if c.isAlphanum then some ([], .key t as (k ++ [c.toLower]))
    else none
  | .value t as k, c => if c = '"' ∨ c = '\'' then some ([], .quoted t as k c []) else none
  | .quoted t as k q v, c =>
    if c = q then some ([], .valued t (as ++ [(k, v)]))
    else if c = '&' then none
    else some ([], .quoted t as k q (v ++ [c]))
  | .valued t as, c =>
    if c = '>' then some ([.tag t as], .text) else if isSpace c then some ([], .space t as) else none

/-- The tokens of a text, and the state at its end. -/
def lexRun : LexState → Str → Option (List Tok × LexState)
  | st, [] => some ([], st)
  | st, c :: r =>
    match lexStep st c with
    | none => none
    | some (ts, st') =>
      match lexRun st' r with
      | none => none
      | some (us, st'') => some (ts ++ us, st'')

/-! ## Pages -/

/-- A link: the anchor that it leads to (`none`: another place) and its text. -/
structure Link where
  target : Option Str
  text : Str
deriving DecidableEq

/-- A paragraph: its text without the links, and the links. -/
structure Para where
  text : Str := []
  links : List Link := []
deriving DecidableEq

/-- A section: what begins with an anchor (`<a name="...">`). -/
structure Section where
  anchor : Str
  heading : Str := []
  paras : List Para := []
deriving DecidableEq

/-- A page while it is read: the elements that are open, innermost first, and the sections, last one
first, with the last paragraph first and the last link first. -/
structure Page where
  elems : List Str := []
  sections : List Section := []
deriving DecidableEq

/-- Change the current section. -/
def Page.inSection (p : Page) (f : Section → Section) : Page :=
  match p.sections with
  | [] => p
  | s :: l => { p with sections := f s :: l }

/-- Change the current paragraph. -/
def Section.inPara (s : Section) (f : Para → Para) : Section :=
  match s.paras with
  | [] => s
  | p :: l => { s with paras := f p :: l }

/-- Change the current link. -/
def Para.inLink (p : Para) (f : Link → Link) : Para :=
  match p.links with
  | [] => p
  | k :: l => { p with links := f k :: l }

/-- Where a link leads to. -/
def targetOf : Str → Option Str
  | '#' :: x => some x
  | _ => none

/-- The current paragraph ends; its end tag can be left out. -/
def endPara : List Str → List Str
  | e :: l => if e = c!"p" then l else e :: l
  | [] => []

/-- The innermost element is a link (`a` with `href`). -/
def linkElem : Str := c!"a href"

/-- A start tag. -/
def Page.open (p : Page) (name : Str) (attrs : List (Str × Str)) : Page :=
  if name = c!"p" then
    { p.inSection fun s => { s with paras := {} :: s.paras } with elems := name :: endPara p.elems }
  else if name = c!"a" then
    match attrs.lookup c!"href" with
    | some t =>
      { p.inSection fun s => s.inPara fun q => { q with links := ⟨targetOf t, []⟩ :: q.links } with
        elems := linkElem :: p.elems }
    | none =>
      match attrs.lookup c!"name" with
      | some x => { elems := name :: p.elems, sections := { anchor := x } :: p.sections }
      | none => { p with elems := name :: p.elems }
  else { p with elems := name :: p.elems }

/-- The tag of an element. -/
def tagOf (e : Str) : Str := if e = linkElem then c!"a" else e

/-- An end tag: it has to be that of the innermost element. -/
def Page.close (p : Page) (name : Str) : Option Page :=
  let elems := if name = c!"p" then p.elems else endPara p.elems
  match elems with
  | e :: l => if tagOf e = name then some { p with elems := l } else none
  | [] => none

/-- A character. -/
def Page.char (p : Page) (c : Char) : Page :=
  if p.elems.head? = some linkElem then
    p.inSection fun s => s.inPara fun q => q.inLink fun k => { k with text := k.text ++ [c] }
  else if p.elems.head? = some c!"h2" then p.inSection fun s => { s with heading := s.heading ++ [c] }
  else if p.elems.head? = some c!"p" then p.inSection fun s => s.inPara fun q => { q with text := q.text ++ [c] }
  else p

/-- One token. -/
def Page.step (p : Page) : Tok → Option Page
  | .tag n as => some (p.open n as)
  | .close n => p.close n
  | .char c => some (p.char c)

/-- All tokens. -/
def Page.run : Page → List Tok → Option Page
  | p, [] => some p
  | p, t :: ts =>
    match p.step t with
    | none => none
    | some q => q.run ts

/-- Read a page: the sections, last one first; all elements have to be closed. -/
def read (text : Str) : Option (List Section) :=
  match lexRun .text text with
  | some (ts, .text) =>
    match Page.run {} ts with
    | some p => if p.elems = [] then some p.sections.reverse else none
    | none => none
  | _ => none

/-! ## Graphs of modules -/

/-- The text can stand between quotes and outside of tags. -/
def Plain (s : Str) : Prop := '"' ∉ s ∧ '<' ∉ s ∧ '&' ∉ s

/-- The section has this link in a paragraph that begins with this label. -/
def Section.Links (s : Section) (label : Str) (k : Link) : Prop := ∃ p ∈ s.paras, label <+: p.text ∧ k ∈ p.links

/-- The page shows the reachable part of a graph of modules: one section for each module or script, in
order; its heading tells the kind and the name; links lead to all that the module depends on and to
all reachable modules that depend on it. -/
structure ShowsGraph (g : View) (page : List Section) : Prop where
  sorted : page.Pairwise fun a b => a.anchor < b.anchor
  sections : ∀ x, (∃ s ∈ page, s.anchor = x) ↔ Reach g x ∧ ∃ n ∈ g.nodes, n.ident = x ∧ IsModuleNode n
  heading : ∀ s ∈ page, ∀ n ∈ g.nodes, n.ident = s.anchor → IsModuleNode n →
    s.heading = classOf n.kind ++ ' ' :: titleOf n
  depends : ∀ s ∈ page, ∀ k, s.Links c!"Depends on:" k ↔
    ∃ t ∈ g.nodes, k = ⟨some t.ident, titleOf t⟩ ∧ ∃ d, (s.anchor, t.ident, d) ∈ g.edges
  used : ∀ s ∈ page, ∀ k, s.Links c!"Used by:" k ↔
    ∃ t ∈ g.nodes, k = ⟨some t.ident, titleOf t⟩ ∧ Reach g t.ident ∧ ∃ d, (t.ident, s.anchor, d) ∈ g.edges
  labels : ∀ s ∈ page, ∀ p ∈ s.paras, c!"Depends on:" <+: p.text ∨ c!"Used by:" <+: p.text
  once : ∀ s ∈ page, s.paras.length ≤ 2 ∧ (∀ p ∈ s.paras, p.links.Nodup) ∧
    ∀ p ∈ s.paras, ∀ q ∈ s.paras, (c!"Used by:" <+: p.text ↔ c!"Used by:" <+: q.text) → p = q

end Verif.Spec.Html
