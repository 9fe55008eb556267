/-!
# Python values: strings and exceptions

Python `str` values are modelled as lists of characters.  Only the string
methods that the modelled code calls are defined, with the semantics of the
Python language reference.
-/
namespace Verif

/-- A Python `str`. -/
abbrev Str := List Char

/-- `c!"abc"` is the character list `['a', 'b', 'c']`. -/
macro:max "c!" s:str : term => do
  let cs := s.getString.toList.map (fun c => Lean.Syntax.mkCharLit c)
  `(([$(cs.toArray),*] : Str))

/-- Python exceptions as values.

`attributeError` carries whether the message contains `has no attribute '__path__'`,
`moduleNotFound` whether the message contains `No module named`, `valueError` whether
the message contains `__spec__`: these are the message tests the code performs
(`_modulegraph.py` 580, 594, 609).  `other n` is any other subclass of `Exception`,
`base n` any `BaseException` that is not an `Exception` (such as `KeyboardInterrupt`).
`fuel` is not a Python exception: it marks that the recursion depth given to the
model was too small. -/
inductive Exc where
  | valueError (specMsg : Bool)
  | typeError
  | keyError
  | indexError
  | assertion
  | attributeError (pathMsg : Bool)
  | importError
  | moduleNotFound (noModuleMsg : Bool)
  | osError
  | syntaxError
  | runtimeError
  | other (n : Nat)
  | base (n : Nat)
  | fuel
deriving DecidableEq, Repr

/-- Results of calls can be compared. -/
instance {ε α : Type} [DecidableEq ε] [DecidableEq α] : DecidableEq (Except ε α)
  | .ok a, .ok b => if h : a = b then isTrue (h ▸ rfl) else isFalse (fun e => h (by cases e; rfl))
  | .error a, .error b =>
    if h : a = b then isTrue (h ▸ rfl) else isFalse (fun e => h (by cases e; rfl))
  | .ok _, .error _ => isFalse (fun e => by cases e)
  | .error _, .ok _ => isFalse (fun e => by cases e)

/-- `isinstance(exc, Exception)`. -/
def Exc.isException : Exc → Bool
  | .base _ => false
  | .fuel => false
  | _ => true

/-- `isinstance(exc, ImportError)` (`ModuleNotFoundError` is a subclass). -/
def Exc.isImportError : Exc → Bool
  | .importError => true
  | .moduleNotFound _ => true
  | _ => false

/-- `s.lstrip(c)` for a single character. -/
def lstrip (c : Char) (s : Str) : Str := s.dropWhile (fun x => x == c)

/-- Split at the last occurrence of `c`; `none` when `c` does not occur. -/
def rfindSplit (c : Char) : Str → Option (Str × Str)
  | [] => none
  | x :: xs =>
    match rfindSplit c xs with
    | some (a, b) => some (x :: a, b)
    | none => if x = c then some ([], xs) else none

/-- `s.rpartition(c)`: text before the last `c`, the separator, text after it;
`("", "", s)` when `c` does not occur. -/
def rpartition (c : Char) (s : Str) : Str × Str × Str :=
  match rfindSplit c s with
  | some (a, b) => (a, [c], b)
  | none => ([], [], s)

/-- `s.rsplit(c, n)`: at most `n` splits, from the right. -/
def rsplit (c : Char) : Nat → Str → List Str
  | 0, s => [s]
  | n + 1, s =>
    match rfindSplit c s with
    | none => [s]
    | some (a, b) => rsplit c n a ++ [b]

/-- `sub in s`. -/
def contains (sub : Str) : Str → Bool
  | [] => sub.isEmpty
  | x :: xs => sub.isPrefixOf (x :: xs) || contains sub xs

/-- `s.split(c)` for a single character separator. -/
def splitAll (c : Char) : Str → List Str
  | [] => [[]]
  | x :: xs =>
    if x = c then [] :: splitAll c xs
    else
      match splitAll c xs with
      | [] => [[x]]
      | h :: t => (x :: h) :: t

/-- `s.split(c, 1)[0]`: the text before the first `c`. -/
def beforeFirst (c : Char) (s : Str) : Str := s.takeWhile (fun x => x != c)

/-- `s.startswith(p)`. -/
def startsWith (p s : Str) : Bool := p.isPrefixOf s

/-- `s.endswith(p)`. -/
def endsWith (p s : Str) : Bool := p.isSuffixOf s

/-- `s.replace(a, b)` for single characters. -/
def replaceChar (a b : Char) (s : Str) : Str := s.map (fun x => if x = a then b else x)

/-- `s.replace('""', '"')`: non-overlapping, left to right. -/
def undouble (q : Char) : Str → Str
  | [] => []
  | [x] => [x]
  | x :: y :: r => if x = q ∧ y = q then q :: undouble q r else x :: undouble q (y :: r)

/-- `sep.join(parts)` for a single character separator. -/
def joinWith (sep : Char) : List Str → Str
  | [] => []
  | [p] => p
  | p :: q :: r => p ++ sep :: joinWith sep (q :: r)

/-- `s[:-n]` for `n > 0`. -/
def dropEnd (n : Nat) (s : Str) : Str := s.take (s.length - n)

end Verif
