import Verif.Model.Newlines
import Verif.Py.Res
/-!
# Files are sequences of bytes

base.py:142-172 opens files with `open(name, 'r', encoding='utf8')`: the bytes are decoded strictly, then line ends are translated
(`Newlines.universal`). A byte is a number here; no number above 255 is ever accepted. Byte order marks are ordinary characters for `utf8`.
-/
set_option autoImplicit false
namespace Verif.Bytes
open Verif

/-- Contents of a file. -/
abbrev Bytes := List Nat

/-- A continuation byte. -/
def cont (b : Nat) : Bool := 0x80 ≤ b && b < 0xC0

/-- One character of strict UTF-8 and what follows it (CPython `stringlib/codecs.h`, `utf8_decode`): no overlong forms, no surrogates, nothing
beyond 0x10FFFF. -/
def decodeOne : Bytes → Option (Char × Bytes)
  | [] => none
  | a :: r =>
    if a < 0x80 then some (Char.ofNat a, r)
    else if a < 0xC2 then none
    else if a < 0xE0 then match r with
      | b :: r => if cont b then some (Char.ofNat ((a - 0xC0) * 64 + (b - 0x80)), r) else none
      | _ => none
    else if a < 0xF0 then match r with
      | b :: c :: r =>
        if cont b && cont c && !(a == 0xE0 && b < 0xA0) && !(a == 0xED && 0xA0 ≤ b) then
          some (Char.ofNat ((a - 0xE0) * 4096 + (b - 0x80) * 64 + (c - 0x80)), r) else none
      | _ => none
    else if a < 0xF5 then match r with
      | b :: c :: d :: r =>
        if cont b && cont c && cont d && !(a == 0xF0 && b < 0x90) && !(a == 0xF4 && 0x90 ≤ b) then
          some (Char.ofNat ((a - 0xF0) * 262144 + (b - 0x80) * 4096 + (c - 0x80) * 64 + (d - 0x80)), r) else none
      | _ => none
    else none

/-- `bytes.decode('utf8')`; `none` is `UnicodeDecodeError`. The number bounds the recursion. -/
def decodeAux : Nat → Bytes → Option Str
  | _, [] => some []
  | 0, _ :: _ => none
  | n + 1, a :: r => (decodeOne (a :: r)).bind fun p => (decodeAux n p.2).map fun s => p.1 :: s

/-- `bytes.decode('utf8')`; `none` is `UnicodeDecodeError`. -/
def decode (b : Bytes) : Option Str := decodeAux b.length b

/-- base.py:168 and utils.py:51-59: the text that `read()` or `readlines()` delivers for a file given by its path; `none` if there is no such file.
`UnicodeDecodeError` is a `ValueError`. Simplification: the whole file is decoded before anything else, as `read()` and `readlines()` do. -/
def readFile {α : Type} (parse : Option Str → Res α) (file : Option Bytes) : Res α :=
  match file with
  | none => parse none
  | some b => match decode b with
    | some t => parse (some (Newlines.universal t))
    | none => .raise .valueError

end Verif.Bytes
