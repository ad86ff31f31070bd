import Verif.Model.Outcar
import Verif.Model.DoscarFull
/-!
# Model of /repo/parsevasp/outcar.py with infinite numbers and NaN

As `Verif.Outcar`, but numbers may be infinite or not a number, as `float` reads them. What does not hold numbers is taken from there.
-/
set_option autoImplicit false
namespace Verif.OutcarFull
open Verif Verif.Utils
open Verif.Kpoints (idx toInt)
open Verif.Outcar (iterOf countStep readParams readEnd readConfig readSymmetry Verdict verdict number stats lastN)

/-- outcar.py:65-80 moments by orbital name. -/
abbrev Moments := Dict Str Num

/-- outcar.py:65-80 the moments of one direction. -/
structure Sphere where
  sites : Dict Int Moments := []
  total : Moments := []
  deriving DecidableEq, Repr

/-- outcar.py:173-175 a 6x6 tensor as a list of rows (rows are not checked to have equal lengths). -/
abbrev Tensor := List (List Num)

/-- outcar.py:116-132 the variables of `_from_list`; `other` holds those without numbers (its own places for numbers stay as they are). -/
structure State where
  other : Outcar.State := {}
  elastic : Dict Str (Option Tensor) := [(c!"non-symmetrized", none), (c!"symmetrized", none), (c!"total", none)]
  magX : Sphere := {}
  magY : Sphere := {}
  magZ : Sphere := {}
  fullCell : Option (List Num) := none
  deriving DecidableEq, Repr

/-- outcar.py:173-175 a tensor: lines `index + 3` to `index + 8` without their first word. -/
def readTensor (rest : List Str) : Res Tensor :=
  Res.mapM' (fun i => idx rest i >>= fun l => Res.mapM' toNum ((words l).drop 1)) [2, 3, 4, 5, 6, 7]

/-- outcar.py:172-176 (and 177-186): a tensor is stored under its key if the line is its header. -/
def readElastic (header key line : Str) (rest : List Str) (e : Dict Str (Option Tensor)) : Res (Dict Str (Option Tensor)) :=
  if startsWith header (strip line) then readTensor rest >>= fun t => .ok (e.set key (some t)) else .ok e

/-- outcar.py:171-186 the three tensors. -/
def readElastics (s : State) (line : Str) (rest : List Str) : Res State :=
  readElastic c!"ELASTIC MODULI  (kBar)" c!"non_symmetrized" line rest s.elastic >>= fun e1 =>
  readElastic c!"SYMMETRIZED ELASTIC MODULI" c!"symmetrized" line rest e1 >>= fun e2 =>
  readElastic c!"TOTAL ELASTIC MODULI" c!"total" line rest e2 >>= fun e3 => .ok { s with elastic := e3 }

/-- outcar.py:197-200: the orbital columns in order; more than four raise `KeyError`. -/
def orbitals : List Str → List Str → Moments → Res Moments
  | _, [], m => .ok m
  | names, c :: cs, m => toNum c >>= fun x => match names with
    | n :: ns => orbitals ns cs (m.set n x)
    | [] => .raise .keyError

/-- outcar.py:195-203 and 205-212: a row of moments; the first word is a number or `tot`, the last one the total. -/
def readMoments (line : Str) : Res Moments :=
  let w := words line
  orbitals [c!"s", c!"p", c!"d", c!"f"] (w.drop 1).dropLast [] >>= fun m =>
  match w.getLast? with
  | some t => toNum t >>= fun x => .ok (m.set c!"tot" x)
  | none => .raise .indexError

/-- outcar.py:189-221 the rows below a header: up to the `tot` row, or up to a blank line, which makes the first site the total. -/
def readMag : Sphere → List Str → Res Sphere
  | _, [] => .raise .indexError
  | m, l :: ls =>
    if words l = [] then
      match m.sites with
      | (_, v) :: _ => .ok { m with total := v }
      | [] => .raise .indexError
    else if startsWith c!"tot" (strip l) then readMoments l >>= fun t => .ok { m with total := t }
    else if startsWith ['-'] (strip l) then readMag m ls
    else
      idx (words l) 0 >>= fun w => toInt w >>= fun n =>
      readMoments l >>= fun t => readMag { m with sites := m.sites.set n t } ls

/-- outcar.py:187-221 one direction. -/
def readSphere (name : Char) (line : Str) (rest : List Str) (m : Sphere) : Res Sphere :=
  if startsWith (c!"magnetization (" ++ [name, ')']) (strip line) then readMag m (rest.drop 3) else .ok m

/-- outcar.py:187-224 the magnetization. -/
def readMagnetization (s : State) (line : Str) (rest : List Str) : Res State :=
  readSphere 'x' line rest s.magX >>= fun x =>
  readSphere 'y' line rest s.magY >>= fun y =>
  readSphere 'z' line rest s.magZ >>= fun z =>
  if startsWith c!"number of electron" (strip line) then
    Res.mapM' toNum ((words line).drop 5) >>= fun v => .ok { s with magX := x, magY := y, magZ := z, fullCell := some v }
  else .ok { s with magX := x, magY := y, magZ := z }

/-- outcar.py:133-224 the body of the loop; `rest` are the lines behind. -/
def step (s : State) (line : Str) (rest : List Str) : Res State :=
  match iterOf line with
  | some n => .ok { s with other := { s.other with iter := some n, steps := countStep s.other.steps n.1 } }
  | none =>
    readParams s.other line >>= fun s1 =>
    readSymmetry (readConfig (readEnd s1 line) line) line rest >>= fun s2 =>
    readElastics { s with other := s2 } line rest >>= fun s3 => readMagnetization s3 line rest

/-- outcar.py:133-224 the loop. -/
def scan : State → List Str → Res State
  | s, [] => .ok s
  | s, l :: ls => step s l ls >>= fun s' => scan s' ls

/-- The data of an `Outcar`. -/
structure Data where
  state : State
  verdict : Verdict
  last : Nat × Nat
  stats : Dict Str (Option PyFloat)
  deriving DecidableEq, Repr

/-- outcar.py:116-282 `_from_list`. -/
def fromList (lines : List Str) : Res Data :=
  scan {} lines >>= fun s => match s.other.iter with
  | none => .exit 600
  | some it =>
    verdict s.other.finished ((number s.other.params c!"ibrion").getD (-1)) (number s.other.status c!"nsw") (number s.other.status c!"nelm") it
      s.other.steps >>= fun v =>
    stats [] (lastN 50 lines) >>= fun st => .ok ⟨s, v, it, st⟩

/-- outcar.py:19-96 `Outcar(file_path, file_handler)`; `path` is `some none` if there is no such file. -/
def init (path : Option (Option Str)) (handler : Option Str) : Res Data :=
  match handler with
  | some t => fromList (readlines t)
  | none => match path with
    | some (some t) => fromList (readlines t)
    | some none => .exit 14
    | none => .exit 10

end Verif.OutcarFull
