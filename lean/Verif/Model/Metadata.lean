import Verif.Py.Str
/-!
# Reading METADATA with `email.parser.BytesParser`

`_distributions.py` 78-84 uses this parser of the standard library (`email/feedparser.py`, with the default policy
`compat32`); only its headers matter here.  A character from 128 on stands for the byte with that number (the parser
has an unpaired surrogate for it).
-/
namespace Verif

/-- Opening a file in text mode translates `\r\n` and `\r` to `\n`. -/
def universal : Str → Str
  | [] => []
  | c :: r =>
    if c = '\r' then
      match r with
      | [] => ['\n']
      | d :: r' => if d = '\n' then '\n' :: universal r' else '\n' :: universal (d :: r')
    else c :: universal r

/-- Iterating over a text file: the lines, with their line ends. -/
def fileLines : Str → List Str
  | [] => []
  | c :: r =>
    if c = '\n' then ['\n'] :: fileLines r
    else
      match fileLines r with
      | [] => [[c]]
      | l :: ls => (c :: l) :: ls

/-- The characters in the name of a header: `[\041-\071\073-\176]`. -/
def headerChar (c : Char) : Bool := 33 ≤ c.toNat && c.toNat ≤ 126 && c != ':'

def isBlank (c : Char) : Bool := c == ' ' || c == '\t'

/-- `headerRE.match(line)`: `^(From |[\041-\071\073-\176]*:|[\t ])`. -/
def headerLine (line : Str) : Bool :=
  startsWith c!"From " line || (line.dropWhile headerChar).head? == some ':' || (line.head?.map isBlank).getD false

/-- `line.find(':')` and `line.split(':', 1)`. -/
def colonSplit (line : Str) : Str × Str := (line.takeWhile (· != ':'), (line.dropWhile (· != ':')).drop 1)

/-- `compat32.header_source_parse(lines)`. -/
def headerParse (first : Str) (more : List Str) : Str × Str :=
  let (name, value) := colonSplit first
  let value := value.dropWhile isBlank ++ more.flatten
  (name, (value.reverse.dropWhile fun c => c == '\r' || c == '\n').reverse)

/-- `FeedParser._parse_headers`: `last` is the header that is being read; `first` tells whether this is the first line. -/
def parseHeaders (last : Option (Str × List Str)) (first : Bool) : List Str → List (Str × Str)
  | [] => (last.map fun (l, more) => headerParse l more).toList
  | line :: rest =>
    if (line.head?.map isBlank).getD false then
      match last with
      | none => parseHeaders none false rest
      | some (l, more) => parseHeaders (some (l, more ++ [line])) false rest
    else
      (last.map fun (l, more) => headerParse l more).toList ++
        if startsWith c!"From " line then
          if !first && rest.isEmpty then [] else parseHeaders none false rest
        else if line.head? = some ':' then parseHeaders none false rest
        else parseHeaders (some (line, [])) false rest

/-- The headers of the message (`_parsegen`). -/
def headers (text : Str) : List (Str × Str) :=
  parseHeaders none true ((fileLines (universal text)).takeWhile headerLine)

/-- `s.lower()` for ASCII. -/
def lower (s : Str) : Str := s.map Char.toLower

/-- `info[name]` (`Message.get`, `_sanitize_header`), `none` when that is not a `str`: the header is not there, or has
bytes that are not ASCII. -/
def strHeader (name : Str) (hs : List (Str × Str)) : Option Str :=
  match hs.find? fun h => lower h.1 == lower name with
  | none => none
  | some (_, v) => if v.all fun c => c.toNat < 128 then some v else none

end Verif
