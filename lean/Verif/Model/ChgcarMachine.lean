import Verif.Model.Chgcar
/-!
# CHGCAR with machine arithmetic

`Model/Chgcar.lean` computes with exact rationals. Here every number read or computed goes through an arithmetic that is left open. With exact
arithmetic it is that model (`Props/ChgcarMachine.lean`). Overflow, `inf`, `nan` and signed zeros are not modelled.
-/
set_option autoImplicit false
namespace Verif.Chgcar
open Verif Verif.Utils
open Verif.Kpoints (idx toFloat toInt)
open Verif.Outcar (cut)
open Verif.Lattice (V3 M3)

/-- What the machine computes. -/
structure Machine where
  /-- `float(word)` for a word of that exact value. -/
  num : Rat → Rat
  /-- A number read by `np.fromstring`. -/
  read : Rat → Rat
  /-- `a * b`. -/
  mul : Rat → Rat → Rat
  /-- `a - b`. -/
  sub : Rat → Rat → Rat
  /-- `a / b`. -/
  div : Rat → Rat → Rat
  /-- `np.dot` of two vectors. -/
  dot : V3 Rat → V3 Rat → Rat

namespace Machine
variable (A : Machine)

/-- chgcar.py:74 one lattice vector; `scaling` is the machine number. -/
def readVector (scaling : Rat) (header : List Str) (i : Nat) : Res (V3 Rat) :=
  idx header (i + 2) >>= fun l => Res.mapM' toFloat (words l) >>= fun xs => vector (xs.map fun x => A.mul scaling (A.num x))

/-- `np.cross`. -/
def cross (v w : V3 Rat) : V3 Rat :=
  ⟨A.sub (A.mul v.y w.z) (A.mul v.z w.y), A.sub (A.mul v.z w.x) (A.mul v.x w.z), A.sub (A.mul v.x w.y) (A.mul v.y w.x)⟩

/-- chgcar.py:91-97, 101-109 one density. -/
def density (nz ny nx : Nat) (volume : Rat) (piece : Str) : Res Grid :=
  Res.mapM' toNumber (words (cut c!"augmentation occupancies" piece).1) >>= fun xs =>
  if xs.length = nz * ny * nx then
    if volume = 0 then .raise .outOfModel else
    .ok ((chunks (ny * nx) nz xs).map fun plane => (chunks nx ny plane).map fun row => row.map fun v => A.div (A.read v) volume)
  else .raise .valueError

/-- chgcar.py:93-109 the magnetization. -/
def magnetization (nz ny nx : Nat) (volume : Rat) (pieces : List Str) : Res Magnetization :=
  match pieces with
  | [_, a] => A.density nz ny nx volume a >>= fun g => .ok (.collinear g)
  | [_, a, b, c] => A.density nz ny nx volume a >>= fun x => A.density nz ny nx volume b >>= fun y => A.density nz ny nx volume c >>= fun z =>
      .ok (.components x y z)
  | _ => .ok .none

/-- chgcar.py:56-109 `_from_file`. -/
def fromText (content : Str) : Res Data :=
  let temp := cut c!"\n\n" content
  second temp >>= fun rest =>
  let header := splitOn '\n' temp.1
  idx header 1 >>= fun s => toFloat s >>= fun scaling =>
  A.readVector (A.num scaling) header 0 >>= fun a => A.readVector (A.num scaling) header 1 >>= fun b => A.readVector (A.num scaling) header 2 >>= fun c =>
  let volume := A.dot a (A.cross b c)
  let temp2 := cut c!"\n" rest
  second temp2 >>= fun body =>
  Res.mapM' toInt (words temp2.1) >>= fun ngf =>
  match ngf with
  | [nx, ny, nz] =>
    if nx < 0 ∨ ny < 0 ∨ nz < 0 then .raise .outOfModel
    else
      let pieces := splitStr temp2.1 body.length body
      idx pieces 0 >>= fun p0 =>
      A.density nz.toNat ny.toNat nx.toNat volume p0 >>= fun total =>
      A.magnetization nz.toNat ny.toNat nx.toNat volume pieces >>= fun m => .ok ⟨total, m⟩
  | _ => .raise .outOfModel

/-- chgcar.py:13-54 `Chgcar(file_path, file_handler)`; `path` is `some none` if there is no such file. -/
def init (path : Option (Option Str)) (handler : Option Str) : Res Data :=
  match handler with
  | some t => A.fromText t
  | none => match path with
    | some (some t) => A.fromText t
    | some none => .exit 14
    | none => .exit 10

/-- Exact arithmetic. -/
def exact : Machine := ⟨id, id, (· * ·), (· - ·), (· / ·), V3.dot⟩

end Machine
end Verif.Chgcar
