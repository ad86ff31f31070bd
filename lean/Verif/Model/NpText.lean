import Verif.Model.Chgcar
import Verif.Model.Vasprun
/-!
# `np.fromstring(text, sep=' ')` character by character, and CHGCAR and the tables of vasprun.xml with it

The models of chgcar.py and vasprun.py describe `np.fromstring` word by word and leave texts with anything but number literals open
(`outOfModel`). Here the reading loop of NumPy (`array_from_text`, `fromstr_next_element`, `fromstr_skip_separator`) is modelled on every text;
only `nan` and `inf` remain `outOfModel`. The `DeprecationWarning` for a text that is not read to its end is only a warning; it is visible here
as the unread rest. Floats are exact rationals.
-/
set_option autoImplicit false
namespace Verif.NpText
open Verif Verif.Utils

/-- `isspace` of C. -/
def cSpace (c : Char) : Bool := (9 ≤ c.toNat && c.toNat ≤ 13) || c.toNat == 32

/-- The longest run of digits in front (no underscores here). -/
def digits : Str → List Nat × Str
  | [] => ([], [])
  | c :: cs => if isDigit c then ((digitVal c :: (digits cs).1), (digits cs).2) else ([], c :: cs)

/-- The exponent in front, if there is a complete one: its value and the rest. -/
def exponent (s : Str) : Int × Str :=
  match s with
  | [] => (0, [])
  | c :: cs =>
    if c == 'e' || c == 'E' then
      let t := takeSign cs
      let r := digits t.2
      if r.1.isEmpty then (0, s) else (if t.1 then - (ofDigits r.1 : Int) else (ofDigits r.1 : Int), r.2)
    else (0, s)

/-- The unsigned number in front, and the rest; `none` if the text does not begin with a number. -/
def unsigned (neg : Bool) (s : Str) : Option (Rat × Str) :=
  let ip := digits s
  match ip.2 with
  | '.' :: rest =>
    let fp := digits rest
    if ip.1.isEmpty && fp.1.isEmpty then none
    else let e := exponent fp.2
      some (Dec.toRat ⟨neg, ofDigits (ip.1 ++ fp.1), e.1 - fp.1.length⟩, e.2)
  | rest => if ip.1.isEmpty then none else let e := exponent rest
      some (Dec.toRat ⟨neg, ofDigits ip.1, e.1⟩, e.2)

/-- `strtod`: the longest number in front, and the rest. -/
def strtod (s : Str) : Option (Rat × Str) := unsigned (takeSign s).1 (takeSign s).2

/-- The text begins with `nan` or `inf`, in any case and with any sign. -/
def special (s : Str) : Bool := startsWith c!"nan" (lower (takeSign s).2) || startsWith c!"inf" (lower (takeSign s).2)

/-- The reading loop: skip white space, read a number, require white space or the end. Returns the numbers and what was not read; `n` bounds the
recursion. -/
def loop : Nat → Str → Res (List Rat × Str)
  | 0, s => .ok ([], s)
  | n + 1, s =>
    let u := s.dropWhile cSpace
    if special u then .raise .outOfModel
    else match strtod u with
      | none => .ok ([], u)
      | some (x, []) => .ok ([x], [])
      | some (x, c :: r) => if cSpace c then loop n (c :: r) >>= fun p => .ok (x :: p.1, p.2) else .ok ([x], c :: r)

/-- `np.fromstring(s, sep=' ')`. -/
def fromString (s : Str) : Res (List Rat) := loop (s.length + 1) s >>= fun p => .ok p.1

end Verif.NpText

namespace Verif.Chgcar
open Verif Verif.Utils
open Verif.Kpoints (idx toFloat toInt)
open Verif.Outcar (cut)

/-- chgcar.py:91-97, 101-109 one density, with `np.fromstring` on every text. -/
def densityC (nz ny nx : Nat) (volume : Rat) (piece : Str) : Res Grid :=
  NpText.fromString (cut c!"augmentation occupancies" piece).1 >>= fun xs =>
  if xs.length = nz * ny * nx then
    if volume = 0 then .raise .outOfModel else
    .ok ((chunks (ny * nx) nz xs).map fun plane => (chunks nx ny plane).map fun row => row.map fun v => v / volume)
  else .raise .valueError

/-- chgcar.py:93-109 the magnetization. -/
def magnetizationC (nz ny nx : Nat) (volume : Rat) (pieces : List Str) : Res Magnetization :=
  match pieces with
  | [_, a] => densityC nz ny nx volume a >>= fun g => .ok (.collinear g)
  | [_, a, b, c] => densityC nz ny nx volume a >>= fun x => densityC nz ny nx volume b >>= fun y => densityC nz ny nx volume c >>= fun z =>
      .ok (.components x y z)
  | _ => .ok .none

/-- chgcar.py:56-109 `_from_file`. -/
def fromTextC (content : Str) : Res Data :=
  let temp := cut c!"\n\n" content
  second temp >>= fun rest =>
  let header := splitOn '\n' temp.1
  idx header 1 >>= fun s => toFloat s >>= fun scaling =>
  readVector scaling header 0 >>= fun a => readVector scaling header 1 >>= fun b => readVector scaling header 2 >>= fun c =>
  let volume := a.dot (cross b c)
  let temp2 := cut c!"\n" rest
  second temp2 >>= fun body =>
  Res.mapM' toInt (words temp2.1) >>= fun ngf =>
  match ngf with
  | [nx, ny, nz] =>
    if nx < 0 ∨ ny < 0 ∨ nz < 0 then .raise .outOfModel
    else
      let pieces := splitStr temp2.1 body.length body
      idx pieces 0 >>= fun p0 =>
      densityC nz.toNat ny.toNat nx.toNat volume p0 >>= fun total =>
      magnetizationC nz.toNat ny.toNat nx.toNat volume pieces >>= fun m => .ok ⟨total, m⟩
  | _ => .raise .outOfModel

/-- chgcar.py:13-54 `Chgcar(file_path, file_handler)`; `path` is `some none` if there is no such file. -/
def initC (path : Option (Option Str)) (handler : Option Str) : Res Data :=
  match handler with
  | some t => fromTextC t
  | none => match path with
    | some (some t) => fromTextC t
    | some none => .exit 14
    | none => .exit 10

end Verif.Chgcar

namespace Verif.Vasprun
open Verif Verif.Utils Verif.Xml

/-- vasprun.py:2742, 2777 `np.fromstring(element.text, sep=' ')` on every text. -/
def fromTextC (e : Node) : Res (List Rat) :=
  match e.text with
  | none => .raise .typeError
  | some s => NpText.fromString s

/-- vasprun.py:2739-2746 as `single`. -/
def singleC (e : Node) : Res Rat :=
  fromTextC e >>= fun xs => match xs with
    | [x] => .ok x
    | _ => .exit 509

/-- vasprun.py:2718-2748 `_convert_array1D_f`. -/
def convert1DC (es : List Node) : Res (List Rat) := Res.mapM' singleC es

/-- vasprun.py:2750-2783 `_convert_array2D_f`. -/
def convert2DC (es : List Node) (dim : Nat) : Res Table := Res.mapM' (fun e => fromTextC e >>= fun xs => .ok (fitRow dim xs)) es

end Verif.Vasprun
