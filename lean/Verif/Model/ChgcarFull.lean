import Verif.Model.NpText
import Verif.Model.DoscarFull
/-!
# Model of /repo/parsevasp/chgcar.py on every grid line and every number

`Verif.Model.Chgcar` and `Verif.Model.NpText` leave open grid lines that do not hold exactly three numbers of at least zero, densities with the
numbers `inf` and `nan`, and cells without volume. Here `np.fromstring`, `reshape` and the division are modelled for these too. Still left open:
`inf` and `nan` in the scaling factor and the lattice vectors.
-/
set_option autoImplicit false
namespace Verif.NpText
open Verif Verif.Utils

/-- `NumPyOS_ascii_strtod`: behind `nan` a text in parentheses is skipped. -/
def skipParen (s : Str) : Str :=
  match s with
  | '(' :: r =>
    let q := r.dropWhile fun c => isDigit c || ('a' ≤ c && c ≤ 'z') || ('A' ≤ c && c ≤ 'Z') || c == '_'
    match q with
    | ')' :: q' => q'
    | _ => q
  | _ => s

/-- `NumPyOS_ascii_strtod`: `nan`, `inf` and `infinity` in any case and with any sign, else `strtod`. -/
def strtodX (s : Str) : Option (Num × Str) :=
  let t := takeSign s
  if startsWith c!"nan" (lower t.2) then some (.nan, skipParen (t.2.drop 3))
  else if startsWith c!"infinity" (lower t.2) then some (.inf t.1, t.2.drop 8)
  else if startsWith c!"inf" (lower t.2) then some (.inf t.1, t.2.drop 3)
  else (strtod s).map fun p => (.fin p.1, p.2)

/-- The reading loop, as in `loop`. -/
def loopX : Nat → Str → List Num × Str
  | 0, s => ([], s)
  | n + 1, s =>
    match strtodX (s.dropWhile cSpace) with
    | none => ([], s.dropWhile cSpace)
    | some (x, []) => ([x], [])
    | some (x, c :: r) => if cSpace c then (x :: (loopX n (c :: r)).1, (loopX n (c :: r)).2) else ([x], c :: r)

/-- `np.fromstring(s, sep=' ')`. -/
def fromStringX (s : Str) : List Num := (loopX (s.length + 1) s).1

end Verif.NpText

namespace Verif.ChgcarFull
open Verif Verif.Utils
open Verif.Kpoints (idx toFloat toInt)
open Verif.Outcar (cut)
open Verif.Chgcar (readVector cross second splitStr)

/-- An element of a density. `anyInf` is infinite, of a sign that is not modelled (the sign of a zero volume is not). -/
inductive Value
  | num (x : Num)
  | anyInf
  deriving DecidableEq, Repr

/-- Division of a float by the volume, as NumPy does it: by zero it gives infinite numbers and `nan`, with a warning. -/
def divide (v : Rat) : Num → Value
  | .fin x => if v = 0 then (if x = 0 then .num .nan else .anyInf) else .num (.fin (x / v))
  | .inf neg => if v = 0 then .anyInf else .num (.inf (if v < 0 then !neg else neg))
  | .nan => .num .nan

/-- A NumPy array: its shape, and its elements in C order. -/
structure Arr where
  shape : List Nat
  values : List Value
  deriving DecidableEq, Repr

/-- `reshape(dims)` of an array with `n` elements (`_fix_unknown_dimension`): one negative number stands for the one that fits. -/
def reshape (n : Nat) (dims : List Int) : Res (List Nat) :=
  let known := ((dims.filter (0 ≤ ·)).map Int.toNat).prod
  match dims.filter (· < 0) with
  | [] => if known = n then .ok (dims.map Int.toNat) else .raise .valueError
  | [_] => if known = 0 ∨ n % known ≠ 0 then .raise .valueError else .ok (dims.map fun d => if d < 0 then n / known else d.toNat)
  | _ => .raise .valueError

/-- chgcar.py:91-97, 101-109 one density. -/
def density (dims : List Int) (volume : Rat) (piece : Str) : Res Arr :=
  let xs := NpText.fromStringX (cut c!"augmentation occupancies" piece).1
  reshape xs.length dims >>= fun shape => .ok ⟨shape, xs.map (divide volume)⟩

/-- The attribute `magnetization_density`. -/
inductive Magnetization
  | none
  | collinear (g : Arr)
  | components (x y z : Arr)
  deriving DecidableEq, Repr

/-- The data of a `Chgcar`. -/
structure Data where
  total : Arr
  magnetization : Magnetization
  deriving DecidableEq, Repr

/-- chgcar.py:93-109 the magnetization; `pieces` are the data sets. -/
def magnetization (dims : List Int) (volume : Rat) (pieces : List Str) : Res Magnetization :=
  match pieces with
  | [_, a] => density dims volume a >>= fun g => .ok (.collinear g)
  | [_, a, b, c] => density dims volume a >>= fun x => density dims volume b >>= fun y => density dims volume c >>= fun z =>
      .ok (.components x y z)
  | _ => .ok .none

/-- chgcar.py:56-109 `_from_file`; an empty grid line is no separator (`ValueError`). -/
def fromText (content : Str) : Res Data :=
  let temp := cut c!"\n\n" content
  second temp >>= fun rest =>
  let header := splitOn '\n' temp.1
  idx header 1 >>= fun s => toFloat s >>= fun scaling =>
  readVector scaling header 0 >>= fun a => readVector scaling header 1 >>= fun b => readVector scaling header 2 >>= fun c =>
  let volume := a.dot (cross b c)
  let temp2 := cut c!"\n" rest
  second temp2 >>= fun body =>
  Res.mapM' toInt (words temp2.1) >>= fun ngf =>
  if temp2.1 = [] then .raise .valueError
  else
    let pieces := splitStr temp2.1 body.length body
    idx pieces 0 >>= fun p0 =>
    density ngf.reverse volume p0 >>= fun total =>
    magnetization ngf.reverse volume pieces >>= fun m => .ok ⟨total, m⟩

/-- chgcar.py:13-54 `Chgcar(file_path, file_handler)`; `path` is `some none` if there is no such file. -/
def init (path : Option (Option Str)) (handler : Option Str) : Res Data :=
  match handler with
  | some t => fromText t
  | none => match path with
    | some (some t) => fromText t
    | some none => .exit 14
    | none => .exit 10

end Verif.ChgcarFull
