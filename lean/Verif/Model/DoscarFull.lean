import Verif.Model.Doscar
/-!
# Model of /repo/parsevasp/doscar.py on every file

`Verif.Model.Doscar` leaves open files with the numbers `inf` and `nan`, and files whose number of energies is not positive. Here the same code is
modelled without these restrictions: numbers are finite (exact rationals), infinite, or not a number, and list indices and slices follow Python's
rules for negative positions. `Verif.Lemmas.DoscarFull` proves that both models agree where the first one describes the code.
-/
set_option autoImplicit false
namespace Verif

/-- A Python float. The sign of zero is not modelled. -/
inductive Num
  | fin (x : Rat)
  | inf (neg : Bool)
  | nan
  deriving DecidableEq, Repr

/-- `float(w)`. -/
def toNum (w : Str) : Res Num :=
  match pyFloat w with
  | some (.fin d) => .ok (.fin d.toRat)
  | some (.inf neg) => .ok (.inf neg)
  | some .nan => .ok .nan
  | none => .raise .valueError

/-- `x == y` of Python floats: not a number is not equal to itself. -/
def Num.same : Num → Num → Bool
  | .fin x, .fin y => x == y
  | .inf a, .inf b => a == b
  | _, _ => false

/-- A Python index into a list: negative ones count from the end, `IndexError` beyond the ends. -/
def idxZ {α} (l : List α) (i : Int) : Res α :=
  match Kpoints.pyIndex i l.length with
  | some k => Kpoints.idx l k
  | none => .raise .indexError

/-- The position a Python slice bound means. -/
def bound (len : Nat) (i : Int) : Nat := if i < 0 then (len + i).toNat else min i.toNat len

/-- `l[a:b]`. -/
def slice {α} (l : List α) (a b : Int) : List α := (l.take (bound l.length b)).drop (bound l.length a)

end Verif

namespace Verif.DoscarFull
open Verif Verif.Utils
open Verif.Kpoints (idx toInt)
open Verif.Doscar (Dtype dtypesDos getNumSpin getDtypePdos unpack truncInt cartesianOf)

/-- One element of a structured array. -/
abbrev Record := List (Str × List Num)

/-- The columns `row[a:b]`. -/
def cols (row : List Num) (a b : Nat) : List Num := (row.drop a).take (b - a)

/-- doscar.py:210-215 (and 235-240) one row. -/
def record (numSpin : Nat) (names : List Str) (row : List Num) : Record :=
  (c!"energy", cols row 0 1) :: names.zipIdx.map fun p => (p.1, cols row (p.2 + 1) (p.2 + 1 + numSpin))

/-- `np.array(rows)`. -/
def asRows (count : Nat) : List (OneOrMany Num) → Res (List (List Num))
  | [] => .ok []
  | .many r :: rs => if r.length = count then asRows count rs >>= fun t => .ok (r :: t) else .raise .valueError
  | .one _ :: _ => .raise .valueError

/-- `len(x)`. -/
def lenOf : OneOrMany Num → Res Nat
  | .many r => .ok r.length
  | .one _ => .raise .typeError

/-- doscar.py:199-215 the total density of states for any number of energies; `np.array([])` has one dimension only, so that `[:, 0]` raises
`IndexError`. -/
def totalDos (data : List (OneOrMany Num)) (n : Int) : Res (List Record) :=
  idxZ data (n - 1) >>= fun last => lenOf last >>= fun count =>
  asRows count (slice data 0 n) >>= fun rows =>
  match dtypesDos.get? count with
  | some d => if rows = [] then .raise .indexError
    else .ok (rows.map (record (if count = 5 then 2 else 1) (d.tail.map Prod.fst)))
  | none => .raise .keyError

/-- `x == y` of lists of floats; two lists read from different lines share no objects. -/
def sameRow : List Num → List Num → Bool
  | [], [] => true
  | x :: xs, y :: ys => x.same y && sameRow xs ys
  | _, _ => false

/-- `data.index(x)`, if `x` is there (doscar.py:220-221). -/
def indexOf (x : List Num) : List (OneOrMany Num) → Option Nat
  | [] => none
  | d :: ds =>
    if (match d with | .many y => sameRow y x | .one _ => false) then some 0 else (indexOf x ds).map (· + 1)

/-- doscar.py:221-224 the blocks of the ions. -/
def blocks (data : List (OneOrMany Num)) (n : Int) : Int → Nat → List (List (OneOrMany Num))
  | _, 0 => []
  | start, k + 1 => slice data start (start + n) :: blocks data n (start + (n + 1)) k

/-- `np.array(pdos_items)`. -/
def asBlocks (count rows : Nat) : List (List (OneOrMany Num)) → Res (List (List (List Num)))
  | [] => .ok []
  | b :: bs => if b.length = rows then asRows count b >>= fun r => asBlocks count rows bs >>= fun t => .ok (r :: t)
    else .raise .valueError

/-- doscar.py:217-240 the partial density of states. -/
def partialDos (nonCollinear : Bool) (header : List Num) (data : List (OneOrMany Num)) (n : Int) (numIons : Int) : Res (List (List Record)) :=
  match indexOf header data with
  | none => .ok []
  | some at_ =>
    let items := blocks data n (at_ + 1) numIons.toNat
    match items.getLast? with
    | none => .raise .indexError
    | some lastBlock => match lastBlock.getLast? with
      | none => .raise .indexError
      | some lastRow =>
        lenOf lastRow >>= fun count =>
        asBlocks count lastBlock.length items >>= fun bs =>
        getNumSpin count nonCollinear >>= fun s =>
        getDtypePdos count nonCollinear >>= fun d =>
        .ok (bs.map fun b => b.map (record s (d.tail.map Prod.fst)))

/-- doscar.py:242-251 the metadata. -/
structure Metadata where
  nIons : Int
  nAtoms : Int
  cartesian : Bool
  name : Str
  emax : Num
  emin : Num
  nDos : Int
  efermi : Num
  weight : Num
  deriving DecidableEq, Repr

/-- The data of a `Doscar`. -/
structure Data where
  metadata : Metadata
  dos : List Record
  pdos : List (List Record)
  deriving DecidableEq, Repr

/-- Python's `int(x)` of a float. -/
def truncNum : Num → Res Int
  | .fin x => .ok (truncInt x)
  | .inf _ => .raise .overflowError
  | .nan => .raise .valueError

/-- doscar.py:161-256 `_from_list`. -/
def fromList (nonCollinear : Bool) (lines : List Str) : Res Data :=
  idx lines 0 >>= fun l0 => lineToType toInt l0 >>= fun v0 => unpack 4 v0 >>= fun h0 =>
  idx lines 3 >>= fun l3 => lineToType Res.ok l3 >>= fun coord =>
  idx lines 4 >>= fun l4 =>
  idx lines 5 >>= fun l5 => lineToType toNum l5 >>= fun v5 => unpack 5 v5 >>= fun h5 =>
  match h0, h5 with
  | [numIons, numAtoms, _, _], [emax, emin, nd, efermi, weight] =>
    truncNum nd >>= fun ndos =>
    Res.mapM' (lineToType toNum) (lines.drop 6) >>= fun data =>
    totalDos data ndos >>= fun dos =>
    partialDos nonCollinear [emax, emin, nd, efermi, weight] data ndos numIons >>= fun pdos =>
    cartesianOf coord >>= fun cart =>
    .ok ⟨⟨numIons, numAtoms, cart, lineToTypeNoSplit l4, emax, emin, ndos, efermi, weight⟩, dos, pdos⟩
  | _, _ => .raise .valueError   -- unreachable

/-- doscar.py:110-159 `Doscar(file_path, file_handler, non_collinear=...)`. -/
def init (path : Option (Option Str)) (handler : Option Str) (nonCollinear : Bool) : Res Data :=
  match handler with
  | some t => fromList nonCollinear (readlines t)
  | none => match path with
    | some (some t) => fromList nonCollinear (readlines t)
    | some none => .exit 14
    | none => .exit 10

end Verif.DoscarFull
