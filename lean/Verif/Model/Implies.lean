import Verif.Py.Str
/-!
# Model of `modulegraph2/_implies.py`
-/
namespace Verif

/-- The values in the table `_global_lazy_nodes` (`_implies.py` 13-41; `excluded` is `None`). -/
inductive Implies where
  | excluded
  | alias (target : Str)
  | virtual (target : Str)
  | refs (names : List Str)
deriving DecidableEq, Repr

/-- `_implies.py` 45-118, `STDLIB_IMPLIES`.  `osPath` is `os.path.__name__`, `sysconfigData` the
interpreter's `_sysconfigdata_...` name. -/
def stdlibImpliesBase (osPath sysconfigData : Str) : List (Str × Implies) := [
  (c!"_asyncio", .refs [c!"asyncio", c!"asyncio.events", c!"asyncio.base_futures",
    c!"asyncio.base_tasks", c!"asyncio.coroutines", c!"inspect", c!"traceback", c!"weakref"]),
  (c!"_curses", .refs [c!"curses"]),
  (c!"_datetime", .refs [c!"time", c!"_strptime"]),
  (c!"_elementtree", .refs [c!"copy", c!"xml.etree.ElementPath", c!"pyexpat"]),
  (c!"_json", .refs [c!"json.decoder"]),
  (c!"_operator", .refs [c!"functools"]),
  (c!"_pickle", .refs [c!"copyreg", c!"_compat_pickle", c!"codecs", c!"functools"]),
  (c!"_posixsubprocess", .refs [c!"gc"]),
  (c!"_ssl", .refs [c!"_socket"]),
  (c!"_overlapped", .refs [c!"_socket"]),
  (c!"parser", .refs [c!"copyreg"]),
  (c!"posix", .refs [c!"resource"]),
  (c!"signal", .refs [c!"_signal"]),
  (c!"time", .refs [c!"_strptime"]),
  (c!"zipimport", .refs [c!"importlib.resources", c!"zlib"]),
  (c!"typing.io", .virtual c!"typing"),
  (c!"typing.re", .virtual c!"typing"),
  (c!"os.path", .alias osPath),
  (c!"xml.parsers.expat.model", .alias c!"pyexpat"),
  (c!"xml.parsers.expat.errors", .alias c!"pyexpat"),
  (c!"sysconfig", .refs [sysconfigData]),
  (c!"turtledemo", .refs [c!"turtledemo.colormixer", c!"turtledemo.nim", c!"turtledemo.rosette",
    c!"turtledemo.yinyang", c!"turtledemo.forest", c!"turtledemo.paint", c!"turtledemo.round_dance",
    c!"turtledemo.bytedesign", c!"turtledemo.fractalcurves", c!"turtledemo.peace",
    c!"turtledemo.sorting_animate", c!"turtledemo.chaos", c!"turtledemo.lindenmayer",
    c!"turtledemo.penrose", c!"turtledemo.tree", c!"turtledemo.clock",
    c!"turtledemo.minimal_hanoi", c!"turtledemo.planet_and_moon", c!"turtledemo.two_canvases"]),
  (c!"dbm", .refs [c!"dbm.gnu", c!"dbm.ndbm", c!"dbm.dumb"])]

/-- `dict.update` on an association list without duplicate keys: existing keys keep their
place, new keys are appended. -/
def dictUpdate (d : List (Str × Implies)) : List (Str × Implies) → List (Str × Implies)
  | [] => d
  | (k, v) :: rest =>
    if d.any (fun p => p.1 == k) then dictUpdate (d.map fun p => if p.1 = k then (k, v) else p) rest
    else dictUpdate (d ++ [(k, v)]) rest

/-- `_implies.py` 121-130, `STDLIB_PLATFORM_IMPLIES` for `win32`. -/
def win32Implies : List (Str × Implies) := [
  (c!"signal", .refs [c!"_signal", c!"_socket"]),
  (c!"ctypes", .refs [c!"comtypes.server.inprocserver"]),
  (c!"sysconfig", .refs []),
  (c!"posix", .refs [])]

/-- `_implies.py` 45-161: the table for an interpreter (the entry for Python 3.6 is omitted; that
version is not supported any more). -/
def stdlibImplies (osPath sysconfigData : Str) (win32 : Bool) : List (Str × Implies) :=
  dictUpdate (stdlibImpliesBase osPath sysconfigData) (if win32 then win32Implies else [])

end Verif
