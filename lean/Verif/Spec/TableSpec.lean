import Verif.Model.Implies
/-!
# Specification: the table of the standard library

A copy of the tables in `_implies.py` 45-130, in another form.
-/
namespace Verif.Spec
open Verif

/-- Modules that import other modules without an import statement, and those modules. -/
def impliedText : List (Str × Str) := [
  (c!"_asyncio", c!"asyncio asyncio.events asyncio.base_futures asyncio.base_tasks" ++
    c!" asyncio.coroutines inspect traceback weakref"),
  (c!"_curses", c!"curses"),
  (c!"_datetime", c!"time _strptime"),
  (c!"_elementtree", c!"copy xml.etree.ElementPath pyexpat"),
  (c!"_json", c!"json.decoder"),
  (c!"_operator", c!"functools"),
  (c!"_pickle", c!"copyreg _compat_pickle codecs functools"),
  (c!"_posixsubprocess", c!"gc"),
  (c!"_ssl", c!"_socket"),
  (c!"_overlapped", c!"_socket"),
  (c!"parser", c!"copyreg"),
  (c!"posix", c!"resource"),
  (c!"signal", c!"_signal"),
  (c!"time", c!"_strptime"),
  (c!"zipimport", c!"importlib.resources zlib"),
  (c!"turtledemo", c!"turtledemo.colormixer turtledemo.nim turtledemo.rosette turtledemo.yinyang turtledemo.forest turtledemo.paint turtledemo.round_dance turtledemo.bytedesign" ++
    c!" turtledemo.fractalcurves turtledemo.peace turtledemo.sorting_animate turtledemo.chaos turtledemo.lindenmayer turtledemo.penrose turtledemo.tree turtledemo.clock" ++
    c!" turtledemo.minimal_hanoi turtledemo.planet_and_moon turtledemo.two_canvases"),
  (c!"dbm", c!"dbm.gnu dbm.ndbm dbm.dumb")]

/-- The ones that are different on Windows; `sysconfig` and `posix` imply nothing there. -/
def windowsText : List (Str × Str) := [(c!"signal", c!"_signal _socket"), (c!"ctypes", c!"comtypes.server.inprocserver")]

/-- The entry for `k` in the table.  `os.path` is an alias of the module `osPath`, and `sysconfigData` is the module
with the data of `sysconfig`. -/
inductive TableEntry (osPath sysconfigData : Str) (windows : Bool) (k : Str) : Implies → Prop where
  | refs {text} : (k, text) ∈ impliedText → (windows = true → k ≠ c!"signal" ∧ k ≠ c!"posix") →
      TableEntry osPath sysconfigData windows k (.refs (splitAll ' ' text))
  | windows {text} : windows = true → (k, text) ∈ windowsText →
      TableEntry osPath sysconfigData windows k (.refs (splitAll ' ' text))
  | empty : windows = true → k = c!"sysconfig" ∨ k = c!"posix" → TableEntry osPath sysconfigData windows k (.refs [])
  | sysconfig : windows = false → k = c!"sysconfig" → TableEntry osPath sysconfigData windows k (.refs [sysconfigData])
  | osPath : k = c!"os.path" → TableEntry osPath sysconfigData windows k (.alias osPath)
  | expat : k = c!"xml.parsers.expat.model" ∨ k = c!"xml.parsers.expat.errors" →
      TableEntry osPath sysconfigData windows k (.alias c!"pyexpat")
  | typing : k = c!"typing.io" ∨ k = c!"typing.re" → TableEntry osPath sysconfigData windows k (.virtual c!"typing")

end Verif.Spec
