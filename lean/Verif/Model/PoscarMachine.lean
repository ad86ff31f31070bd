import Verif.Model.Floats
/-!
# POSCAR files and coordinate functions with machine arithmetic

`Model/Poscar.lean` and `Model/Lattice.lean` compute with exact rationals. Here every number the program reads or computes on the way from a
POSCAR text to an object and back goes through an arithmetic that is left open: `float()`, the product of two numbers, the scalar product
NumPy uses for `np.dot(vector, matrix)` and `np.linalg.inv`. With exact arithmetic it is the model of the other modules
(`Props/PoscarMachine.lean`). Overflow, `inf`, `nan` and signed zeros are not modelled.
-/
set_option autoImplicit false
namespace Verif.Poscar
open Verif Verif.Utils Verif.Lattice
open Verif.Kpoints (idx toFloat toInt)

/-- What the machine computes. -/
structure Arith where
  /-- `float(word)` for a word of that exact value. -/
  num : Rat → Rat
  /-- `a * b`. -/
  mul : Rat → Rat → Rat
  /-- The scalar products inside `np.dot`. -/
  dot : Vec → Vec → Rat
  /-- `np.linalg.inv`; `none` is `LinAlgError`. -/
  inv : Cell → Option Cell

/-- Exact arithmetic. -/
def Arith.exact : Arith := ⟨id, (· * ·), V3.dot, M3.inv⟩

namespace Arith
variable (A : Arith)

/-- `np.dot(v, m)`. -/
def vecMul (v : Vec) (m : Cell) : Vec := ⟨A.dot v m.transpose.a, A.dot v m.transpose.b, A.dot v m.transpose.c⟩

/-- utils.py:248-275 `dir_to_cart`. -/
def toCart (v : Vec) (l : Cell) : Vec := A.vecMul v l

/-- utils.py:278-303 `cart_to_dir`. -/
def toDir (v : Vec) (l : Cell) : Option Vec := (A.inv l).map fun i => A.vecMul v i

/-- utils.py:306-333 `lat_to_reclat`; `p` is the machine number `2 * math.pi`. -/
def latToReclat (p : Rat) (l : Cell) : Option Cell := (A.inv l.transpose).map fun i => i.map (A.mul p)

/-- `float(word)`. -/
def toFloat (w : Str) : Res Rat := Kpoints.toFloat w >>= fun x => .ok (A.num x)

/-- poscar.py:686-711 `_to_direct`. -/
def toDirect (v : Vec) (c : Option Cell) : Res Vec :=
  match c with
  | some m => match A.toDir v m with
    | some r => .ok r
    | none => .raise .linAlgError
  | none => .raise .linAlgError

/-- `float(line[0]), float(line[1]), float(line[2])` of `line.split()`. -/
def readVec (line : Str) : Res Vec :=
  let w := words line
  idx w 0 >>= fun a => A.toFloat a >>= fun x =>
  idx w 1 >>= fun b => A.toFloat b >>= fun y =>
  idx w 2 >>= fun c => A.toFloat c >>= fun z => .ok ⟨x, y, z⟩

/-- poscar.py:245-260: one position; `scaling` is 1.0 for direct coordinates, and cartesian ones are converted. -/
def readPos (h : Header) (line : Str) : Res Vec :=
  A.readVec line >>= fun v =>
  let p := v.map (fun x => A.mul x (if h.direct then 1 else h.scaling))
  if h.direct then .ok p else A.toDirect p h.cell

/-- poscar.py:239-275 the loop over positions. -/
def readSites (h : Header) (lines : List Str) : (n i slot : Nat) → (index : Int) → Res (List Raw)
  | 0, _, _, _ => .ok []
  | n + 1, i, slot, index =>
    idx h.atoms slot >>= fun a =>
    let slot' := if index > a then slot + 1 else slot
    let index' := if index > a then 1 else index
    idx h.spec slot' >>= fun s =>
    idx lines (i + h.loopmax) >>= fun line =>
    A.readPos h line >>= fun v =>
    readFlags line h.selective >>= fun f =>
    readSites h lines n (i + 1) slot' (index' + 1) >>= fun rest => .ok (⟨s, v, f⟩ :: rest)

/-- poscar.py:208-214 the three rows of the cell, times the scaling factor. -/
def makeCell (s : Rat) (a b c : List Rat) : Res (Option Cell) :=
  match a, b, c with
  | [ax, ay, az], [bx, b_y, bz], [cx, cy, cz] =>
    .ok (some (M3.map (A.mul s) ⟨⟨ax, ay, az⟩, ⟨bx, b_y, bz⟩, ⟨cx, cy, cz⟩⟩))
  | a, b, c => if a.length = b.length ∧ b.length = c.length then .ok none else .raise .valueError

/-- Numbers of a line. -/
def readRow (line : Str) : Res (List Rat) := Res.mapM' A.toFloat (words line)

/-- poscar.py:195-233 the header. -/
def readHeader (lines : List Str) : Res Header :=
  idx lines 0 >>= fun l0 =>
  idx lines 5 >>= fun l5 =>
  idx lines 1 >>= fun l1 => idx (words l1) 0 >>= fun w => A.toFloat w >>= fun scaling =>
  if scaling < 0 then .exit 307
  else if isNumbers l5 then .exit 301
  else
    idx lines 2 >>= fun l2 => A.readRow l2 >>= fun a =>
    idx lines 3 >>= fun l3 => A.readRow l3 >>= fun b =>
    idx lines 4 >>= fun l4 => A.readRow l4 >>= fun c =>
    A.makeCell scaling a b c >>= fun cell =>
    idx lines 6 >>= fun l6 => Res.mapM' toInt (words l6) >>= fun atoms =>
    idx lines 7 >>= fun l7 => idx l7 0 >>= fun c7 =>
    let comment := strip (l0.filter (· != '#'))
    if lowerC c7 = 's' then
      idx lines 8 >>= fun l8 => idx l8 0 >>= fun c8 =>
      .ok ⟨comment, scaling, cell, words l5, atoms, true, decide (lowerC c8 = 'd'), 9⟩
    else .ok ⟨comment, scaling, cell, words l5, atoms, false, decide (lowerC c7 = 'd'), 8⟩

/-- Read `n` vectors from line `p` on. -/
def readVecs (lines : List Str) (p n : Nat) (conv : Vec → Res Vec) : Res (List Vec) :=
  Res.mapM' (fun i => idx lines (i + p) >>= fun l => A.readVec l >>= conv) (List.range n)

/-- poscar.py:315-328: predictors behind the velocities. -/
def readPredAfter (lines : List Str) (p n : Nat) : Res (Option (List Vec)) :=
  if p < lines.length then
    idx lines p >>= fun l =>
    if isBlank l then
      idx lines (p + 1) >>= fun l' => idx (words l') 0 >>= fun w =>
      if isNumber w then A.readVecs lines (p + 1) n .ok >>= fun vs => .ok (some vs) else .ok none
    else .ok none
  else .ok none

/-- poscar.py:174-356 `_from_list`, before packing. -/
def parse (lines : List Str) : Res Parsed :=
  A.readHeader lines >>= fun h =>
  let nions := h.atoms.sum
  if nions < 0 then .raise .outOfModel
  else
    let n := nions.toNat
    A.readSites h lines n 0 0 1 >>= fun raws =>
    readTail lines (n + h.loopmax) >>= fun t =>
    if t.1 then
      A.readVecs lines (n + h.loopmax + 1) n (fun v => if h.direct && !t.2.1 then .ok v else A.toDirect v h.cell) >>= fun vels =>
      A.readPredAfter lines (n + (n + h.loopmax + 1)) n >>= fun preds =>
      .ok ⟨h.comment, h.cell, assemble raws (some vels) preds⟩
    else if t.2.2 then
      A.readVecs lines (n + h.loopmax + 1) n .ok >>= fun preds =>
      .ok ⟨h.comment, h.cell, assemble raws none (some preds)⟩
    else .ok ⟨h.comment, h.cell, assemble raws none none⟩

/-- poscar.py:174-356 `_from_list`. -/
def fromList (lines : List Str) : Res Entries := A.parse lines >>= fun p => .ok p.toEntries

/-- poscar.py:36-140 `Poscar(file_path=…)`, `Poscar(file_handler=…)` (`string = false`) and `Poscar(poscar_string=…)` for a text. What
`_from_dict` and `_validate` do then is in `Model/Poscar.lean`; the sites that were read are in direct coordinates, so nothing is converted. -/
def read (string : Bool) (text : Str) : Res Entries :=
  A.fromList (if string then splitlinesKeep text else readlines text) >>= fun d => fromDict d >>= fun e => validate e >>= fun _ => .ok e

/-- poscar.py:890-912 one position. -/
def posLine (prec : Nat) (direct : Bool) (c : Cell) (sel : Bool) (s : Site) : Str :=
  vecLine prec (if direct then s.position else A.toCart s.position c) ++
  (if sel then [' '] ++ flagStr s.selective.1 ++ [' '] ++ flagStr s.selective.2.1 ++ [' '] ++ flagStr s.selective.2.2 else [])

/-- poscar.py:914-929 one velocity. -/
def velLine (prec : Nat) (direct : Bool) (c : Cell) (s : Site) : Res Str :=
  match s.velocities with
  | some v => .ok (vecLine prec (if direct then v else A.toCart v c))
  | none => .raise .typeError

/-- poscar.py:829-935 `_write` for a 3x3 cell. -/
def writeGrouped (prec : Nat) (direct : Bool) (comment : Val) (c : Cell) (g : Grouped) : Res Str :=
  let coords : Str := if direct then c!"Direct" else c!"Cartesian"
  (if g.velocities then Res.mapM' (A.velLine prec direct c) g.sites >>= fun ls => .ok (coords :: ls) else .ok []) >>= fun vs =>
  (if g.predictors then Res.mapM' (predLine prec) g.sites >>= fun ls => .ok ([] :: ls) else .ok []) >>= fun ps =>
  .ok (withNewlines (
    [headline (compound g.species g.nums) comment, fmtFixed (prec + 4) prec 1,
     vecLine prec c.a, vecLine prec c.b, vecLine prec c.c,
     rstrip (g.species.flatMap fun s => padRight 5 (capitalize s) ++ [' ']),
     rstrip (g.nums.flatMap fun (n : Nat) => fmtInt 5 n ++ [' '])] ++
    (if g.selective then [c!"Selective dynamics"] else []) ++ [coords] ++
    g.sites.map (A.posLine prec direct c g.selective) ++ vs ++ ps))

/-- poscar.py:829-935 `_write` (the text of a write that returns normally). -/
def write (prec : Nat) (conserve direct : Bool) (e : Entries) : Res Str :=
  validate e >>= fun _ =>
  lookup e c!"comment" >>= fun comment =>
  lookup e c!"unitcell" >>= fun cell =>
  sortAndGroup conserve e >>= fun g =>
  match cell with
  | .cell (some c) => A.writeGrouped prec direct comment c g
  | _ => .raise .typeError   -- unreachable after `validate`

end Arith
end Verif.Poscar
