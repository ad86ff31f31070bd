import Verif.Model.Doscar
/-!
# Model of /repo/parsevasp/eigenval.py

Floats are exact rationals (binary64 rounding is not modelled); the literals `inf`/`nan` lead to `outOfModel`. Arrays are lists of
rows. Not modelled: logging.
-/
set_option autoImplicit false
namespace Verif.Eigenval
open Verif Verif.Utils
open Verif.Kpoints (idx toFloat toInt)
open Verif.Doscar (unpack cartesianOf)

/-! ### splitting into blocks -/

/-- `[\r\n]`. -/
def isNl (c : Char) : Bool := c == '\n' || c == '\r'

/-- `\s*[\r\n]` matched greedily at the front: what remains behind the last newline of the leading white space. -/
def skipBlank : Str → Option Str
  | [] => none
  | c :: cs => if isSpace c then
      match skipBlank cs with
      | some r => some r
      | none => if isNl c then some cs else none
    else none

/-- utils.py:389, eigenval.py:101 `re.split(r'[\r\n]\s*[\r\n]', s)`; `n` bounds the recursion, `s.length` is enough. -/
def splitEmpty : Nat → Str → List Str
  | _, [] => [[]]
  | 0, s => [s]
  | n + 1, c :: cs => if isNl c then
      match skipBlank cs with
      | some r => [] :: splitEmpty n r
      | none => consHead c (splitEmpty n cs)
    else consHead c (splitEmpty n cs)

/-- eigenval.py:95, 101-102, 108: the blocks, each a list of split lines without the empty ones. -/
def blocks (data : Str) : List (List (List Str)) :=
  (splitEmpty data.length data).map fun block => ((splitlines block).map words).filter fun l => !l.isEmpty

/-! ### arrays -/

/-- Eigenvalues by spin, k-point and band. -/
abbrev Values := List (List (List Rat))

/-- Assignment of a list to a stretch of `n` elements: one element is broadcast, another number of elements is a `ValueError`. -/
def broadcast (n : Nat) (vs : List Rat) : Res (List Rat) :=
  if vs.length = n then .ok vs
  else match vs with
    | [v] => .ok (List.replicate n v)
    | _ => .raise .valueError

/-- A Python index into `n` elements; negative ones count from the end. -/
def index (n : Nat) (i : Int) : Res Nat :=
  if 0 ≤ i ∧ i < n then .ok i.toNat
  else if i < 0 ∧ -(n : Int) ≤ i then .ok (i + n).toNat
  else .raise .indexError

/-- `eigenvalues[:, k, b] = vs`. -/
def assign (e : Values) (k b : Nat) (vs : List Rat) : Values := List.zipWith (fun m v => m.modify k fun row => row.set b v) e vs

/-- eigenval.py:113-114 one line of a band. -/
def readBand (numSpins numBands k : Nat) (e : Values) (point : List Str) : Res Values :=
  idx point 0 >>= fun w => toInt w >>= fun n => index numBands (n - 1) >>= fun b =>
  Res.mapM' toFloat ((point.drop 1).take numSpins) >>= fun vs => broadcast numSpins vs >>= fun v => .ok (assign e k b v)

/-- The two arrays while the blocks are read. -/
structure Arrays where
  kpoints : List (List Rat)
  values : Values
  deriving DecidableEq, Repr

/-- eigenval.py:106-114 one block; a block without lines raises `IndexError` (`pop` from an empty list), as does one too many. -/
def readBlock (numSpins numBands : Nat) (a : Arrays) (p : List (List Str) × Nat) : Res Arrays :=
  match p.1 with
  | [] => .raise .indexError
  | first :: rest =>
    Res.mapM' toFloat first >>= fun kpi =>
    if p.2 < a.kpoints.length then
      broadcast 4 kpi >>= fun kp =>
      Res.foldlM' (readBand numSpins numBands p.2) a.values rest >>= fun e => .ok ⟨a.kpoints.set p.2 kp, e⟩
    else .raise .indexError

/-- eigenval.py:116-129 the metadata. -/
structure Metadata where
  line0 : List Int
  line1 : OneOrMany Rat
  line2 : OneOrMany Rat
  nIons : Int
  nAtoms : Int
  p00 : Int
  nspin : Int
  cartesian : Bool
  name : Str
  someNum : Int
  nBands : Int
  nKp : Int
  deriving DecidableEq, Repr

/-- The data of an `Eigenval`. -/
structure Data where
  metadata : Metadata
  arrays : Arrays
  deriving DecidableEq, Repr

/-- `np.zeros(shape)` refuses negative sizes. -/
def size (n : Int) : Res Nat := if n < 0 then .raise .valueError else .ok n.toNat

/-- eigenval.py:69-134 `_from_list`. -/
def fromList (lines : List Str) : Res Data :=
  idx lines 0 >>= fun l0 => lineToType toInt l0 >>= fun v0 =>
  idx lines 1 >>= fun l1 => lineToType toFloat l1 >>= fun v1 =>
  idx lines 2 >>= fun l2 => lineToType toFloat l2 >>= fun v2 =>
  idx lines 3 >>= fun l3 => lineToType Res.ok l3 >>= fun coord =>
  idx lines 4 >>= fun l4 =>
  idx lines 5 >>= fun l5 => lineToType toInt l5 >>= fun v5 => unpack 3 v5 >>= fun h5 =>
  unpack 4 v0 >>= fun h0 =>
  match h0, h5 with
  | [numIons, numAtoms, p00, numSpins], [param0, numKp, numBands] =>
    size numKp >>= fun nk => size numSpins >>= fun ns => size numBands >>= fun nb =>
    Res.foldlM' (readBlock ns nb) ⟨List.replicate nk [0, 0, 0, 0], List.replicate ns (List.replicate nk (List.replicate nb 0))⟩
      (blocks (lines.drop 6).flatten).zipIdx >>= fun a =>
    cartesianOf coord >>= fun cart =>
    .ok ⟨⟨h0, v1, v2, numIons, numAtoms, p00, numSpins, cart, lineToTypeNoSplit l4, param0, numBands, numKp⟩, a⟩
  | _, _ => .raise .valueError   -- unreachable

/-- eigenval.py:14-67 `Eigenval(file_path, file_handler)`; `path` is `some none` if there is no such file. -/
def init (path : Option (Option Str)) (handler : Option Str) : Res Data :=
  match handler with
  | some t => fromList (readlines t)
  | none => match path with
    | some (some t) => fromList (readlines t)
    | some none => .exit 14
    | none => .exit 10

end Verif.Eigenval
