import Verif.Py.Str
/-!
# The tables of `modulegraph2/_graphbuilder.py` for `six.moves`
-/
namespace Verif

/-- `_graphbuilder.py` 36, `SIX_MOVES_GLOBALS`. -/
def sixMovesGlobals : List Str := [c!"filter", c!"input", c!"map", c!"range", c!"xrange", c!"zip"]

/-- `_graphbuilder.py` 38-100, `SIX_MOVES_TO`. -/
def sixMovesTo : List (Str × Str) := [
  (c!"builtins", c!"builtins"),
  (c!"configparser", c!"configparser"),
  (c!"copyreg", c!"copyreg"),
  (c!"cPickle", c!"pickle"),
  (c!"cStringIO", c!"io"),
  (c!"dbm_gnu", c!"dbm.gnu"),
  (c!"_dummy_thread", c!"_dummy_thread"),
  (c!"email_mime_multipart", c!"email.mime.multipart"),
  (c!"email_mime_nonmultipart", c!"email.mime.nonmultipart"),
  (c!"email_mime_text", c!"email.mime.text"),
  (c!"email_mime_base", c!"email.mime.base"),
  (c!"http_cookiejar", c!"http.cookiejar"),
  (c!"http_cookies", c!"http.cookies"),
  (c!"html_entities", c!"html.entities"),
  (c!"html_parser", c!"html.parser"),
  (c!"http_client", c!"http.client"),
  (c!"BaseHTTPServer", c!"http.server"),
  (c!"CGIHTTPServer", c!"http.server"),
  (c!"SimpleHTTPServer", c!"http.server"),
  (c!"queue", c!"queue"),
  (c!"reprlib", c!"reprlib"),
  (c!"shlex_quote", c!"shlex"),
  (c!"socketserver", c!"socketserver"),
  (c!"_thread", c!"_thread"),
  (c!"tkinter", c!"tkinter"),
  (c!"tkinter_dialog", c!"tkinter.dialog"),
  (c!"tkinter_filedialog", c!"tkinter.FileDialog"),
  (c!"tkinter_scrolledtext", c!"tkinter.scrolledtext"),
  (c!"tkinter_simpledialog", c!"tkinter.simpledialog"),
  (c!"tkinter_ttk", c!"tkinter.ttk"),
  (c!"tkinter_tix", c!"tkinter.tix"),
  (c!"tkinter_constants", c!"tkinter.constants"),
  (c!"tkinter_dnd", c!"tkinter.dnd"),
  (c!"tkinter_colorchooser", c!"tkinter.colorchooser"),
  (c!"tkinter_commondialog", c!"tkinter.commondialog"),
  (c!"tkinter_tkfiledialog", c!"tkinter.filedialog"),
  (c!"tkinter_font", c!"tkinter.font"),
  (c!"tkinter_messagebox", c!"tkinter.messagebox"),
  (c!"tkinter_tksimpledialog", c!"tkinter.simpledialog"),
  (c!"urllib", c!"urllib"),
  (c!"urllib.parse", c!"urllib.parse"),
  (c!"urllib.error", c!"urllib.error"),
  (c!"urllib.request", c!"urllib.request"),
  (c!"urllib.response", c!"urllib.response"),
  (c!"urllib.robotparser", c!"urllib.robotparser"),
  (c!"urllib_robotparser", c!"urllib.robotparser"),
  (c!"UserDict", c!"collections.UserDict"),
  (c!"UserList", c!"collections.UserList"),
  (c!"UserString", c!"collections.UserString"),
  (c!"winreg", c!"winreg"),
  (c!"xmlrpc_client", c!"xmlrpc.client"),
  (c!"xmlrpc_server", c!"xmlrpc.server"),
  (c!"filterfalse", c!"itertools"),
  (c!"getcwd", c!"os"),
  (c!"getcwdb", c!"os"),
  (c!"intern", c!"sys"),
  (c!"reduce", c!"functools"),
  (c!"reload_module", c!"importlib"),
  (c!"zip_longest", c!"itertools")]

/-- `SIX_MOVES_TO.get(name)`. -/
def sixMove (name : Str) : Option Str := (sixMovesTo.find? (fun p => p.1 = name)).map (·.2)

end Verif
