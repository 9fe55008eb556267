import Verif.Spec.DistSpec
/-!
# Specification: METADATA files

METADATA has fields, as in the header of a mail (PEP 241, RFC 822): a name, a colon, and a value that may go on in
lines that begin with a blank.  An empty line ends them; what comes then is a description.
-/
namespace Verif.Spec.Meta
open Verif Spec

structure Field where
  name : Str
  /-- between the colon and the value -/
  blanks : Str
  value : Str
  more : List Str

def Blank (c : Char) : Prop := c = ' ' ∨ c = '\t'

structure Field.Ok (f : Field) : Prop where
  name : f.name ≠ [] ∧ ∀ c ∈ f.name, 33 ≤ c.toNat ∧ c.toNat ≤ 126 ∧ c ≠ ':'
  blanks : ∀ c ∈ f.blanks, Blank c
  value : NoBreak f.value ∧ ∀ c r, f.value = c :: r → ¬ Blank c
  more : ∀ l ∈ f.more, NoBreak l ∧ ∃ c r, l = c :: r ∧ Blank c

def Field.lines (f : Field) : List Str := (f.name ++ ':' :: f.blanks ++ f.value) :: f.more

/-- The value, with the line breaks in it. -/
def Field.text (f : Field) : Str := f.more.foldl (fun s l => s ++ '\n' :: l) f.value

/-- The lines of a text, whatever its line ends. -/
inductive Lines : Str → List Str → Prop where
  | nil : Lines [] []
  | last {l} : NoBreak l → l ≠ [] → Lines l [l]
  | lf {l r ls} : NoBreak l → Lines r ls → Lines (l ++ '\n' :: r) (l :: ls)
  | crlf {l r ls} : NoBreak l → Lines r ls → Lines (l ++ '\r' :: '\n' :: r) (l :: ls)
  | cr {l r ls} : NoBreak l → r.head? ≠ some '\n' → Lines r ls → Lines (l ++ '\r' :: r) (l :: ls)

/-- The line begins with a blank. -/
def GoesOn (l : Str) : Prop := ∃ c r, l = c :: r ∧ Blank c

/-- Lines that do not end the fields but are not part of one: they begin with `From ` (as in mailboxes) or with a colon. -/
def Skipped (l : Str) : Prop := (∃ r, l = c!"From " ++ r) ∨ ∃ r, l = ':' :: r

/-- The line begins with the name of a field. -/
def Begins (l : Str) : Prop :=
  ∃ name r, l = name ++ ':' :: r ∧ ∀ c ∈ name, 33 ≤ c.toNat ∧ c.toNat ≤ 126 ∧ c ≠ ':'

/-- A field, or a line that is skipped, with the lines that begin with a blank after it. -/
inductive Part where
  | field (f : Field)
  | skipped (line : Str) (more : List Str)

def Part.Ok : Part → Prop
  | .field f => f.Ok
  | .skipped line more => Skipped line ∧ ∀ l ∈ more, GoesOn l

def Part.lines : Part → List Str
  | .field f => f.lines
  | .skipped line more => line :: more

def Part.field? : Part → Option Field
  | .field f => some f
  | .skipped _ _ => none

/-- `text` is a file with these fields: some lines that begin with a blank, the parts, and then a line of another kind, if there
are more lines. -/
def File (fields : List Field) (text : Str) : Prop :=
  ∃ (strays : List Str) (parts : List Part) (rest : List Str), Lines text (strays ++ parts.flatMap Part.lines ++ rest) ∧ (∀ l ∈ strays, GoesOn l) ∧
    (∀ p ∈ parts, p.Ok) ∧ parts.filterMap Part.field? = fields ∧
    ∀ l r, rest = l :: r → ¬ GoesOn l ∧ ¬ Skipped l ∧ ¬ Begins l

/-- Names are compared without regard to case. -/
def Field.Called (f : Field) (name : Str) : Prop := f.name.map Char.toLower = name.map Char.toLower

/-- The first field with the name has this value, and it is ASCII. -/
def Says (fields : List Field) (name value : Str) : Prop :=
  ∃ a f b, fields = a ++ f :: b ∧ f.Called name ∧ (∀ g ∈ a, ¬ g.Called name) ∧ value = f.text ∧ ∀ c ∈ value, c.toNat < 128

end Verif.Spec.Meta
