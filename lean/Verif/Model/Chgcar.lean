import Verif.Model.Doscar
import Verif.Model.Outcar
import Verif.Model.Lattice
/-!
# Model of /repo/parsevasp/chgcar.py

Floats are exact rationals (binary64 rounding is not modelled); the literals `inf`/`nan` lead to `outOfModel`. `np.fromstring` is modelled
on texts made of number literals and white space only; anything else leads to `outOfModel` (NumPy stops at the first such place with a
deprecation warning). A grid line that does not hold exactly three whole numbers of at least zero also leads to `outOfModel`, as does a
cell volume of zero (NumPy then delivers `inf`/`nan`). Arrays are lists of rows. Not modelled: logging.
-/
set_option autoImplicit false
namespace Verif.Chgcar
open Verif Verif.Utils
open Verif.Kpoints (idx toFloat toInt)
open Verif.Outcar (cut)
open Verif.Lattice (V3 M3)

/-- `s.split(g)` for a non-empty `g`; `n` bounds the recursion, `s.length` is enough. -/
def splitStr (g : Str) : Nat → Str → List Str
  | 0, s => [s]
  | n + 1, s => match cut g s with
    | (a, some r) => a :: splitStr g n r
    | (a, none) => [a]

/-- `np.zeros((3, 3))[i] = xs`: three numbers, or one for all three places. -/
def vector (xs : List Rat) : Res (V3 Rat) :=
  match xs with
  | [x, y, z] => .ok ⟨x, y, z⟩
  | [x] => .ok ⟨x, x, x⟩
  | _ => .raise .valueError

/-- chgcar.py:74 one lattice vector. -/
def readVector (scaling : Rat) (header : List Str) (i : Nat) : Res (V3 Rat) :=
  idx header (i + 2) >>= fun l => Res.mapM' toFloat (words l) >>= fun xs => vector (xs.map (scaling * ·))

/-- `np.cross`. -/
def cross (v w : V3 Rat) : V3 Rat := ⟨v.y * w.z - v.z * w.y, v.z * w.x - v.x * w.z, v.x * w.y - v.y * w.x⟩

/-- A density by z, y and x. -/
abbrev Grid := List (List (List Rat))

/-- A word as `np.fromstring` reads it. -/
def toNumber (w : Str) : Res Rat :=
  match pyFloatRat w with
  | some x => .ok x
  | none => .raise .outOfModel

/-- `k` consecutive pieces of `n` elements. -/
def chunks {α : Type} (n k : Nat) (l : List α) : List (List α) := (List.range k).map fun i => (l.drop (i * n)).take n

/-- chgcar.py:91-97, 101-109 one density: the numbers before 'augmentation occupancies', in C order, divided by the volume. -/
def density (nz ny nx : Nat) (volume : Rat) (piece : Str) : Res Grid :=
  Res.mapM' toNumber (words (cut c!"augmentation occupancies" piece).1) >>= fun xs =>
  if xs.length = nz * ny * nx then
    if volume = 0 then .raise .outOfModel else
    .ok ((chunks (ny * nx) nz xs).map fun plane => (chunks nx ny plane).map fun row => row.map fun v => v / volume)
  else .raise .valueError

/-- The attribute `magnetization_density`. -/
inductive Magnetization
  | none
  | collinear (g : Grid)
  | components (x y z : Grid)
  deriving DecidableEq, Repr

/-- The data of a `Chgcar`. -/
structure Data where
  total : Grid
  magnetization : Magnetization
  deriving DecidableEq, Repr

/-- chgcar.py:93-109 the magnetization; `pieces` are the data sets. -/
def magnetization (nz ny nx : Nat) (volume : Rat) (pieces : List Str) : Res Magnetization :=
  match pieces with
  | [_, a] => density nz ny nx volume a >>= fun g => .ok (.collinear g)
  | [_, a, b, c] => density nz ny nx volume a >>= fun x => density nz ny nx volume b >>= fun y => density nz ny nx volume c >>= fun z =>
      .ok (.components x y z)
  | _ => .ok .none

/-- The part behind a separator: `temp[1]`, an `IndexError` without separator. -/
def second (p : Str × Option Str) : Res Str :=
  match p.2 with
  | some r => .ok r
  | none => .raise .indexError

/-- chgcar.py:56-109 `_from_file`. -/
def fromText (content : Str) : Res Data :=
  let temp := cut c!"\n\n" content
  second temp >>= fun rest =>
  let header := splitOn '\n' temp.1
  idx header 1 >>= fun s => toFloat s >>= fun scaling =>
  readVector scaling header 0 >>= fun a => readVector scaling header 1 >>= fun b => readVector scaling header 2 >>= fun c =>
  let volume := a.dot (cross b c)
  let temp2 := cut c!"\n" rest
  second temp2 >>= fun body =>
  Res.mapM' toInt (words temp2.1) >>= fun ngf =>
  match ngf with
  | [nx, ny, nz] =>
    if nx < 0 ∨ ny < 0 ∨ nz < 0 then .raise .outOfModel
    else
      let pieces := splitStr temp2.1 body.length body
      idx pieces 0 >>= fun p0 =>
      density nz.toNat ny.toNat nx.toNat volume p0 >>= fun total =>
      magnetization nz.toNat ny.toNat nx.toNat volume pieces >>= fun m => .ok ⟨total, m⟩
  | _ => .raise .outOfModel

/-- chgcar.py:13-54 `Chgcar(file_path, file_handler)`; `path` is `some none` if there is no such file. -/
def init (path : Option (Option Str)) (handler : Option Str) : Res Data :=
  match handler with
  | some t => fromText t
  | none => match path with
    | some (some t) => fromText t
    | some none => .exit 14
    | none => .exit 10

end Verif.Chgcar
