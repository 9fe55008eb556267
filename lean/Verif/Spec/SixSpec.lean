import Verif.Py.Str
/-! # The names below `six.moves` -/
namespace Verif.Spec
open Verif

/-- The names below `six.moves` and the modules behind them, a copy of `_graphbuilder.py` 38-100. -/
def sixNames : List Str := [
  c!"builtins:builtins", c!"configparser:configparser", c!"copyreg:copyreg", c!"cPickle:pickle", c!"cStringIO:io",
  c!"dbm_gnu:dbm.gnu", c!"_dummy_thread:_dummy_thread", c!"email_mime_multipart:email.mime.multipart",
  c!"email_mime_nonmultipart:email.mime.nonmultipart", c!"email_mime_text:email.mime.text",
  c!"email_mime_base:email.mime.base", c!"http_cookiejar:http.cookiejar", c!"http_cookies:http.cookies",
  c!"html_entities:html.entities", c!"html_parser:html.parser", c!"http_client:http.client",
  c!"BaseHTTPServer:http.server", c!"CGIHTTPServer:http.server", c!"SimpleHTTPServer:http.server", c!"queue:queue",
  c!"reprlib:reprlib", c!"shlex_quote:shlex", c!"socketserver:socketserver", c!"_thread:_thread",
  c!"tkinter:tkinter", c!"tkinter_dialog:tkinter.dialog", c!"tkinter_filedialog:tkinter.FileDialog",
  c!"tkinter_scrolledtext:tkinter.scrolledtext", c!"tkinter_simpledialog:tkinter.simpledialog",
  c!"tkinter_ttk:tkinter.ttk", c!"tkinter_tix:tkinter.tix", c!"tkinter_constants:tkinter.constants",
  c!"tkinter_dnd:tkinter.dnd", c!"tkinter_colorchooser:tkinter.colorchooser",
  c!"tkinter_commondialog:tkinter.commondialog", c!"tkinter_tkfiledialog:tkinter.filedialog",
  c!"tkinter_font:tkinter.font", c!"tkinter_messagebox:tkinter.messagebox",
  c!"tkinter_tksimpledialog:tkinter.simpledialog", c!"urllib:urllib", c!"urllib.parse:urllib.parse",
  c!"urllib.error:urllib.error", c!"urllib.request:urllib.request", c!"urllib.response:urllib.response",
  c!"urllib.robotparser:urllib.robotparser", c!"urllib_robotparser:urllib.robotparser",
  c!"UserDict:collections.UserDict", c!"UserList:collections.UserList", c!"UserString:collections.UserString",
  c!"winreg:winreg", c!"xmlrpc_client:xmlrpc.client", c!"xmlrpc_server:xmlrpc.server", c!"filterfalse:itertools",
  c!"getcwd:os", c!"getcwdb:os", c!"intern:sys", c!"reduce:functools", c!"reload_module:importlib",
  c!"zip_longest:itertools"]

/-- The module `actual` is behind the name `rel` below `six.moves`. -/
def SixName (rel actual : Str) : Prop := rel ++ ':' :: actual ∈ sixNames

end Verif.Spec
