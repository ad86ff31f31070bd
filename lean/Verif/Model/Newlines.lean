import Verif.Py.Str
/-!
# Line ends of files

base.py:142-172 and stream.py:131 open files with `open(name, 'r', encoding=...)`, that is in text mode with `newline=None`: Python then
translates `\r\n` and `\r` into `\n` (universal newlines). Decoding of bytes into characters is not modelled.
-/
set_option autoImplicit false
namespace Verif.Newlines
open Verif

/-- What `open(name, 'r')` makes of the line ends of a file (base.py:168, stream.py:131; Python `io.TextIOWrapper`, `newline=None`). -/
def universal : Str → Str
  | [] => []
  | '\r' :: '\n' :: xs => '\n' :: universal xs
  | x :: xs => (if x = '\r' then '\n' else x) :: universal xs

end Verif.Newlines
