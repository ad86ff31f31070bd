import Verif.Model.Kpoints
import Verif.Model.Utils
/-!
# Model of /repo/parsevasp/doscar.py

Floats are exact rationals (binary64 rounding is not modelled); the literals `inf`/`nan` lead to `outOfModel`, as does a number of
energies that is not positive (numpy slices with it would still run). A field of width 1 is a number, here a list with one element.
Not modelled: logging, memory layout of the arrays.
-/
set_option autoImplicit false
namespace Verif.Doscar
open Verif Verif.Utils
open Verif.Kpoints (idx toFloat toInt)

/-- A structured dtype: the field names in order with their widths. -/
abbrev Dtype := List (Str × Nat)

/-- `(name, float, (w,))` for each name, behind `('energy', float)`. -/
def fields (w : Nat) (names : List Str) : Dtype := (c!"energy", 1) :: names.map fun n => (n, w)

/-- doscar.py:10-13 `DTYPES_DOS`. -/
def dtypesDos : Dict Nat Dtype :=
  [(3, [(c!"energy", 1), (c!"total", 1), (c!"integrated", 1)]),
   (5, [(c!"energy", 1), (c!"total", 2), (c!"integrated", 2)])]

/-- doscar.py:16-43 `DTYPES_PDOS_COLLINEAR`. -/
def dtypesCollinear : Dict Nat Dtype :=
  [(4, fields 1 [c!"s", c!"p", c!"d"]),
   (7, fields 2 [c!"s", c!"p", c!"d"]),
   (5, fields 1 [c!"s", c!"p", c!"d", c!"f"]),
   (9, fields 2 [c!"s", c!"p", c!"d", c!"f"]),
   (10, fields 1 [c!"s", c!"py", c!"px", c!"pz", c!"dxy", c!"dyz", c!"dz2", c!"dxz", c!"dx2-y2"]),
   (17, fields 1 [c!"s", c!"py", c!"px", c!"pz", c!"dxy", c!"dyz", c!"dz2", c!"dxz", c!"dx2-y2",
      c!"fy(3x2-y2)", c!"fxyz", c!"fyz2", c!"fz3", c!"fxz2", c!"fz(x2-y2)", c!"fx(x2-3y2)"]),
   (19, fields 2 [c!"s", c!"py", c!"px", c!"pz", c!"dxy", c!"dyz", c!"dz2", c!"dxz", c!"dx2-y2"]),
   (33, fields 2 [c!"s", c!"py", c!"px", c!"pz", c!"dxy", c!"dyz", c!"dz2", c!"dxz", c!"dx2-y2",
      c!"fy(3x2-y2)", c!"fxyz", c!"fyz2", c!"fz3", c!"fxz2", c!"fz(x2-y2)", c!"fx(x2-3y2)"])]

/-- doscar.py:45-61 `DTYPES_PDOS_NONCOLLINEAR`. Note the last name for 37 columns. -/
def dtypesNoncollinear : Dict Nat Dtype :=
  [(13, fields 4 [c!"s", c!"p", c!"d"]),
   (17, fields 4 [c!"s", c!"p", c!"d", c!"f"]),
   (37, fields 4 [c!"s", c!"py", c!"px", c!"pz", c!"dxy", c!"dyz", c!"dz2", c!"dxz", c!"x2-y2"]),
   (65, fields 4 [c!"s", c!"py", c!"px", c!"pz", c!"dxy", c!"dyz", c!"dz2", c!"dxz", c!"dx2-y2",
      c!"fy(3x2-y2)", c!"fxyz", c!"fyz2", c!"fz3", c!"fxz2", c!"fz(x2-y2)", c!"fx(x2-3y2)"])]

/-- doscar.py:64-73 `COLSPIN_MAP_COLLINEAR`. -/
def colspinCollinear : Dict Nat Nat := [(7, 2), (9, 2), (19, 2), (33, 2), (4, 1), (5, 1), (10, 1), (17, 1)]
/-- doscar.py:75-80 `COLSPIN_MAP_NONCOLLINEAR`. -/
def colspinNoncollinear : Dict Nat Nat := [(13, 4), (17, 4), (37, 4), (65, 4)]

/-- doscar.py:83-92 `_get_num_spin`. -/
def getNumSpin (count : Nat) (nonCollinear : Bool) : Res Nat :=
  match (if nonCollinear then colspinNoncollinear.get? count else colspinCollinear.get? count) with
  | some s => .ok s
  | none => .raise .valueError

/-- doscar.py:95-104 `_get_dtype_pdos`. -/
def getDtypePdos (count : Nat) (nonCollinear : Bool) : Res Dtype :=
  match (if nonCollinear then dtypesNoncollinear.get? count else dtypesCollinear.get? count) with
  | some d => .ok d
  | none => .raise .valueError

/-- One element of a structured array: field name to its numbers. -/
abbrev Record := List (Str × List Rat)

/-- The columns `row[a:b]`. -/
def cols (row : List Rat) (a b : Nat) : List Rat := (row.drop a).take (b - a)

/-- doscar.py:210-215 (and 235-240) one row: field number `i` behind the energy takes the columns `i + 1` to `i + num_spin`. -/
def record (numSpin : Nat) (names : List Str) (row : List Rat) : Record :=
  (c!"energy", cols row 0 1) :: names.zipIdx.map fun p => (p.1, cols row (p.2 + 1) (p.2 + 1 + numSpin))

/-- `np.array(rows)` where every element must be a list of one length; else `ValueError`. -/
def asRows (count : Nat) : List (OneOrMany Rat) → Res (List (List Rat))
  | [] => .ok []
  | .many r :: rs => if r.length = count then asRows count rs >>= fun t => .ok (r :: t) else .raise .valueError
  | .one _ :: _ => .raise .valueError

/-- `len(x)` of a converted line; a number has none (`TypeError`). -/
def lenOf : OneOrMany Rat → Res Nat
  | .many r => .ok r.length
  | .one _ => .raise .typeError

/-- doscar.py:199-215 the total density of states; `n` is the positive number of energies. -/
def totalDos (data : List (OneOrMany Rat)) (n : Nat) : Res (List Record) :=
  idx data (n - 1) >>= fun last => lenOf last >>= fun count =>
  asRows count (data.take n) >>= fun rows =>
  match dtypesDos.get? count with
  | some d => .ok (rows.map (record (if count = 5 then 2 else 1) (d.tail.map Prod.fst)))
  | none => .raise .keyError

/-- `data.index(x)`, if `x` is there. -/
def indexOf (x : List Rat) : List (OneOrMany Rat) → Option Nat
  | [] => none
  | d :: ds => if d = .many x then some 0 else (indexOf x ds).map (· + 1)

/-- doscar.py:221-224 the blocks of the ions: `data[start:start + n]`, each `n + 1` behind the one before. -/
def blocks (data : List (OneOrMany Rat)) (n : Nat) : Nat → Nat → List (List (OneOrMany Rat))
  | _, 0 => []
  | start, k + 1 => (data.drop start).take n :: blocks data n (start + (n + 1)) k

/-- `np.array(pdos_items)`: all blocks must have the same number of rows, all rows the same length. -/
def asBlocks (count rows : Nat) : List (List (OneOrMany Rat)) → Res (List (List (List Rat)))
  | [] => .ok []
  | b :: bs => if b.length = rows then asRows count b >>= fun r => asBlocks count rows bs >>= fun t => .ok (r :: t)
    else .raise .valueError

/-- doscar.py:217-240 the partial density of states. -/
def partialDos (nonCollinear : Bool) (header : List Rat) (data : List (OneOrMany Rat)) (n : Nat) (numIons : Int) : Res (List (List Record)) :=
  match indexOf header data with
  | none => .ok []
  | some at_ =>
    let items := blocks data n (at_ + 1) numIons.toNat
    match items.getLast? with
    | none => .raise .indexError
    | some lastBlock => match lastBlock.getLast? with
      | none => .raise .indexError
      | some lastRow =>
        lenOf lastRow >>= fun count =>
        asBlocks count lastBlock.length items >>= fun bs =>
        getNumSpin count nonCollinear >>= fun s =>
        getDtypePdos count nonCollinear >>= fun d =>
        .ok (bs.map fun b => b.map (record s (d.tail.map Prod.fst)))

/-- doscar.py:242-251 the metadata. -/
structure Metadata where
  nIons : Int
  nAtoms : Int
  cartesian : Bool
  name : Str
  emax : Rat
  emin : Rat
  nDos : Int
  efermi : Rat
  weight : Rat
  deriving DecidableEq, Repr

/-- The data of a `Doscar`; an empty `pdos` is the empty array. -/
structure Data where
  metadata : Metadata
  dos : List Record
  pdos : List (List Record)
  deriving DecidableEq, Repr

/-- Unpacking into `n` names: a single number is not iterable (`TypeError`), another number of items is a `ValueError`. -/
def unpack {α} (n : Nat) : OneOrMany α → Res (List α)
  | .many l => if l.length = n then .ok l else .raise .valueError
  | .one _ => .raise .typeError

/-- Python's `int(x)` of a float: towards zero. -/
def truncInt (x : Rat) : Int := if x < 0 then -(-x).floor else x.floor

/-- doscar.py:245 `coord_type.startswith(('c', 'C'))`; a list has no `startswith`. -/
def cartesianOf : OneOrMany Str → Res Bool
  | .one w => .ok (startsWith ['c'] w || startsWith ['C'] w)
  | .many _ => .raise .attributeError

/-- doscar.py:161-256 `_from_list`. -/
def fromList (nonCollinear : Bool) (lines : List Str) : Res Data :=
  idx lines 0 >>= fun l0 => lineToType toInt l0 >>= fun v0 => unpack 4 v0 >>= fun h0 =>
  idx lines 3 >>= fun l3 => lineToType Res.ok l3 >>= fun coord =>
  idx lines 4 >>= fun l4 =>
  idx lines 5 >>= fun l5 => lineToType toFloat l5 >>= fun v5 => unpack 5 v5 >>= fun h5 =>
  match h0, h5 with
  | [numIons, numAtoms, _, _], [emax, emin, nd, efermi, weight] =>
    let ndos := truncInt nd
    Res.mapM' (lineToType toFloat) (lines.drop 6) >>= fun data =>
    if ndos ≤ 0 then .raise .outOfModel
    else
      totalDos data ndos.toNat >>= fun dos =>
      partialDos nonCollinear [emax, emin, nd, efermi, weight] data ndos.toNat numIons >>= fun pdos =>
      cartesianOf coord >>= fun cart =>
      .ok ⟨⟨numIons, numAtoms, cart, lineToTypeNoSplit l4, emax, emin, ndos, efermi, weight⟩, dos, pdos⟩
  | _, _ => .raise .valueError   -- unreachable

/-- doscar.py:110-159 `Doscar(file_path, file_handler, non_collinear=...)`; `path` is `some none` if there is no such file. -/
def init (path : Option (Option Str)) (handler : Option Str) (nonCollinear : Bool) : Res Data :=
  match handler with
  | some t => fromList nonCollinear (readlines t)
  | none => match path with
    | some (some t) => fromList nonCollinear (readlines t)
    | some none => .exit 14
    | none => .exit 10

end Verif.Doscar
