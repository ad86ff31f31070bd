import Verif.Model.Eigenval
import Verif.Model.DoscarFull
/-!
# Model of /repo/parsevasp/eigenval.py with infinite numbers and NaN

`Verif.Model.Eigenval` leaves open files with the numbers `inf` and `nan`. Here numbers are finite (exact rationals), infinite, or not a number; otherwise
the model is the same. The arrays of NumPy take the strings of a band line through `float()`.
-/
set_option autoImplicit false
namespace Verif.EigenvalFull
open Verif Verif.Utils
open Verif.Kpoints (idx toInt)
open Verif.Doscar (unpack cartesianOf)
open Verif.Eigenval (index size blocks)

/-- Eigenvalues by spin, k-point and band. -/
abbrev Values := List (List (List Num))

/-- Assignment of a list to a stretch of `n` elements: one element is broadcast, another number of elements is a `ValueError`. -/
def broadcast (n : Nat) (vs : List Num) : Res (List Num) :=
  if vs.length = n then .ok vs
  else match vs with
    | [v] => .ok (List.replicate n v)
    | _ => .raise .valueError

/-- `eigenvalues[:, k, b] = vs`. -/
def assign (e : Values) (k b : Nat) (vs : List Num) : Values := List.zipWith (fun m v => m.modify k fun row => row.set b v) e vs

/-- eigenval.py:113-114 one line of a band. -/
def readBand (numSpins numBands k : Nat) (e : Values) (point : List Str) : Res Values :=
  idx point 0 >>= fun w => toInt w >>= fun n => index numBands (n - 1) >>= fun b =>
  Res.mapM' toNum ((point.drop 1).take numSpins) >>= fun vs => broadcast numSpins vs >>= fun v => .ok (assign e k b v)

/-- The two arrays while the blocks are read. -/
structure Arrays where
  kpoints : List (List Num)
  values : Values
  deriving DecidableEq, Repr

/-- eigenval.py:106-114 one block; a block without lines raises `IndexError` (`pop` from an empty list), as does one too many. -/
def readBlock (numSpins numBands : Nat) (a : Arrays) (p : List (List Str) × Nat) : Res Arrays :=
  match p.1 with
  | [] => .raise .indexError
  | first :: rest =>
    Res.mapM' toNum first >>= fun kpi =>
    if p.2 < a.kpoints.length then
      broadcast 4 kpi >>= fun kp =>
      Res.foldlM' (readBand numSpins numBands p.2) a.values rest >>= fun e => .ok ⟨a.kpoints.set p.2 kp, e⟩
    else .raise .indexError

/-- eigenval.py:116-129 the metadata. -/
structure Metadata where
  line0 : List Int
  line1 : OneOrMany Num
  line2 : OneOrMany Num
  nIons : Int
  nAtoms : Int
  p00 : Int
  nspin : Int
  cartesian : Bool
  name : Str
  someNum : Int
  nBands : Int
  nKp : Int
  deriving DecidableEq, Repr

/-- The data of an `Eigenval`. -/
structure Data where
  metadata : Metadata
  arrays : Arrays
  deriving DecidableEq, Repr

/-- eigenval.py:69-134 `_from_list`. -/
def fromList (lines : List Str) : Res Data :=
  idx lines 0 >>= fun l0 => lineToType toInt l0 >>= fun v0 =>
  idx lines 1 >>= fun l1 => lineToType toNum l1 >>= fun v1 =>
  idx lines 2 >>= fun l2 => lineToType toNum l2 >>= fun v2 =>
  idx lines 3 >>= fun l3 => lineToType Res.ok l3 >>= fun coord =>
  idx lines 4 >>= fun l4 =>
  idx lines 5 >>= fun l5 => lineToType toInt l5 >>= fun v5 => unpack 3 v5 >>= fun h5 =>
  unpack 4 v0 >>= fun h0 =>
  match h0, h5 with
  | [numIons, numAtoms, p00, numSpins], [param0, numKp, numBands] =>
    size numKp >>= fun nk => size numSpins >>= fun ns => size numBands >>= fun nb =>
    Res.foldlM' (readBlock ns nb) ⟨List.replicate nk [.fin 0, .fin 0, .fin 0, .fin 0], List.replicate ns (List.replicate nk (List.replicate nb (.fin 0)))⟩
      (blocks (lines.drop 6).flatten).zipIdx >>= fun a =>
    cartesianOf coord >>= fun cart =>
    .ok ⟨⟨h0, v1, v2, numIons, numAtoms, p00, numSpins, cart, lineToTypeNoSplit l4, param0, numBands, numKp⟩, a⟩
  | _, _ => .raise .valueError   -- unreachable

/-- eigenval.py:14-67 `Eigenval(file_path, file_handler)`; `path` is `some none` if there is no such file. -/
def init (path : Option (Option Str)) (handler : Option Str) : Res Data :=
  match handler with
  | some t => fromList (readlines t)
  | none => match path with
    | some (some t) => fromList (readlines t)
    | some none => .exit 14
    | none => .exit 10

end Verif.EigenvalFull
