import Verif.Spec.Names
import Verif.Model.Distributions
/-!
# Specification: RECORD files and distributions
-/
namespace Verif.Spec
open Verif

/-- A row of RECORD. -/
structure Row where
  path : Str
  hash : Str
  size : Str

/-- Every quote is written twice. -/
def doubled (p : Str) : Str := p.flatMap fun c => if c = '"' then ['"', '"'] else [c]

/-- What a CSV writer writes for a field: between quotes, or as it is when it has no quotes.
(A correct writer does not write a field with a comma as it is; some do.) -/
inductive CsvField (p : Str) : Str → Prop where
  | quoted : CsvField p ('"' :: doubled p ++ ['"'])
  | plain : '"' ∉ p → CsvField p p

def NoBreak (s : Str) : Prop := '\n' ∉ s ∧ '\r' ∉ s

/-- `text` is a CSV file with these rows, with any line ends; the last line may have none. -/
inductive CsvFile : List Row → Str → Prop where
  | nil : CsvFile [] []
  | cons {row : Row} {rows text field eol} : NoBreak row.path →
      NoBreak row.hash → ',' ∉ row.hash → NoBreak row.size → ',' ∉ row.size →
      CsvField row.path field →
      (eol = ['\n'] ∨ eol = ['\r', '\n'] ∨ eol = ['\r'] ∨ eol = [] ∧ rows = []) → CsvFile rows text →
      CsvFile (row :: rows) (field ++ ',' :: row.hash ++ ',' :: row.size ++ eol ++ text)

/-- Components of a path, with slashes between them. -/
def slashed : List Str → Str
  | [] => []
  | [c] => c
  | c :: d :: r => c ++ '/' :: slashed (d :: r)

/-- `suffix` is the first of the suffixes that the path ends with. -/
def FirstSuffix (suffixes : List Str) (path suffix : Str) : Prop :=
  ∃ a b, suffixes = a ++ suffix :: b ∧ suffix <:+ path ∧ ∀ x ∈ a, ¬ x <:+ path

/-- The file with this path is imported by this name: it is in the directories `dirs`, none of them
`__pycache__`, and has a suffix of Python files. -/
inductive ImportedBy (suffixes : List Str) (path : Str) : Str → Prop where
  | module {dirs : List Str} {base suffix : Str} : path = slashed (dirs ++ [base]) ++ suffix →
      (∀ c ∈ dirs ++ [base], '/' ∉ c) → FirstSuffix suffixes path suffix →
      c!"__pycache__" ∉ dirs → (base = c!"__init__" → dirs = []) →
      ImportedBy suffixes path (dotted (dirs ++ [base]))
  | package {dirs : List Str} {suffix : Str} : path = slashed (dirs ++ [c!"__init__"]) ++ suffix →
      (∀ c ∈ dirs, '/' ∉ c) → FirstSuffix suffixes path suffix →
      c!"__pycache__" ∉ dirs → dirs ≠ [] → ImportedBy suffixes path (dotted dirs)

/-- The dist-info directories in a directory with these entries. -/
def DistInfo (name : Str) : Prop := ∃ p, name = p ++ c!".dist-info"

instance (name : Str) : Decidable (DistInfo name) :=
  decidable_of_iff (c!".dist-info" <:+ name)
    ⟨fun ⟨p, h⟩ => ⟨p, h.symm⟩, fun ⟨p, h⟩ => ⟨p, h.symm⟩⟩

/-- The file system does not change: listing a directory gives `ls`, reading a dist-info directory
`rd`. -/
structure Static {W : Type} (env : DistEnv W) (ls : Str → Except Exc (List Str))
    (rd : Str → Except Exc Dist) : Prop where
  listdir : ∀ e w, env.listdir e w = (ls e, w)
  names : ∀ e l, ls e = .ok l → ∀ f ∈ l, '/' ∉ f
  create : ∀ d w, createDistribution env d w = (rd d, w)

/-- The path of the file `name` in the directory `dir`; there is one slash between them, and the empty path is the
current directory. -/
def inDir (dir name : Str) : Str :=
  match dir.getLast? with
  | none | some '/' => dir ++ name
  | some _ => dir ++ '/' :: name

/-- The paths of the dist-info directories in the directory `entry`, in the order of listing; none
when it cannot be listed. -/
def distInfos (ls : Str → Except Exc (List Str)) (entry : Str) : List Str :=
  match ls entry with
  | .ok names => (names.filter fun f => DistInfo f).map (inDir entry)
  | .error _ => []

/-- All distributions in the directories. -/
def readAll (rd : Str → Except Exc Dist) (l : List Str) : List Dist :=
  l.filterMap fun p => (rd p).toOption

/-- The distributions in the directories up to the first that cannot be read. -/
def readUntil (rd : Str → Except Exc Dist) : List Str → List Dist
  | [] => []
  | p :: l => match rd p with
    | .ok d => d :: readUntil rd l
    | .error _ => []

end Verif.Spec
