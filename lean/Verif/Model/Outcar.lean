import Verif.Model.Kpoints
import Verif.Model.Utils
/-!
# Model of /repo/parsevasp/outcar.py

Floats are exact rationals (binary64 rounding is not modelled); the literals `inf`/`nan` lead to `outOfModel`, except in the run
statistics, which keep them. `\d` matches ASCII digits only. Not modelled: logging.
-/
set_option autoImplicit false
namespace Verif.Outcar
open Verif Verif.Utils
open Verif.Kpoints (idx toFloat toInt)

/-! ### text -/

/-- `re.match(r'Iteration *(\d+)\( *(\d+)\)', s)`: the two numbers. Greedy matching is exact because each repeated class is disjoint
from what follows it. -/
def iterHere (s : Str) : Option (Nat × Nat) :=
  match dropPrefix? c!"Iteration" s with
  | some r => match spanP isDigit (spanP (· == ' ') r).2 with
    | (a :: as, '(' :: r2) => match spanP isDigit (spanP (· == ' ') r2).2 with
      | (b :: bs, ')' :: _) => some (ofDigits ((a :: as).map digitVal), ofDigits ((b :: bs).map digitVal))
      | _ => none
    | _ => none
  | none => none

/-- outcar.py:135 `re.search(...)`: the leftmost match. -/
def iterOf : Str → Option (Nat × Nat)
  | [] => none
  | c :: cs => match iterHere (c :: cs) with
    | some r => some r
    | none => iterOf cs

/-- `s.partition(p)` for a non-empty `p`: before the first occurrence and, if there is one, after it. -/
def cut (p : Str) : Str → Str × Option Str
  | [] => ([], none)
  | c :: cs => if startsWith p (c :: cs) then ([], some ((c :: cs).drop p.length))
    else ((c :: (cut p cs).1), (cut p cs).2)

/-- `s.split(p)[1]`. -/
def splitSecond (p s : Str) : Res Str :=
  match (cut p s).2 with
  | some r => .ok (cut p r).1
  | none => .raise .indexError

/-! ### data -/

/-- The two keys of the symmetry lists. -/
structure Pair where
  static : List Str := []
  dynamic : List Str := []
  deriving DecidableEq, Repr

/-- outcar.py:51-64 symmetry. `ops` holds numbers, as integers. -/
structure Symmetry where
  opsStatic : List Int := []
  opsDynamic : List Int := []
  original : Pair := {}
  symmetrized : Pair := {}
  deriving DecidableEq, Repr

/-- Moments by orbital name. -/
abbrev Moments := Dict Str Rat

/-- outcar.py:65-80 the moments of one direction. -/
structure Sphere where
  sites : Dict Int Moments := []
  total : Moments := []
  deriving DecidableEq, Repr

/-- A 6x6 tensor as a list of rows (rows are not checked to have equal lengths). -/
abbrev Tensor := List (List Rat)

/-- The variables of `_from_list` while it runs over the lines. `config`: `none` is `''`, `some false` static, `some true` dynamic. -/
structure State where
  config : Option Bool := none
  params : Dict Str (Option Int) := [(c!"ibrion", some (-1))]
  status : Dict Str (Option Int) := [(c!"nelm", none), (c!"nsw", none)]
  nbands : Option Int := none
  finished : Bool := false
  iter : Option (Nat × Nat) := none
  steps : Dict Nat Nat := []
  symmetry : Symmetry := {}
  elastic : Dict Str (Option Tensor) := [(c!"non-symmetrized", none), (c!"symmetrized", none), (c!"total", none)]
  magX : Sphere := {}
  magY : Sphere := {}
  magZ : Sphere := {}
  fullCell : Option (List Rat) := none
  deriving DecidableEq, Repr

/-! ### one line -/

/-- outcar.py:136-143: one more electronic step of an ionic step. -/
def countStep (steps : Dict Nat Nat) (n : Nat) : Dict Nat Nat :=
  match steps.get? n with
  | some k => steps.set n (k + 1)
  | none => steps.set n 1

/-- outcar.py:144-149 NSW, IBRION, NELM, NBANDS. -/
def readParams (s : State) (line : Str) : Res State :=
  matchIntegerParam s.status c!"NSW" line >>= fun st1 =>
  matchIntegerParam s.params c!"IBRION" line >>= fun pa =>
  matchIntegerParam st1 c!"NELM" line >>= fun st2 =>
  if contains c!"NBANDS=" line then
    splitSecond c!"NBANDS=" line >>= fun t => toInt t >>= fun n => .ok { s with status := st2, params := pa, nbands := some n }
  else .ok { s with status := st2, params := pa }

/-- outcar.py:150-152 the end of the run. -/
def readEnd (s : State) (line : Str) : State :=
  if contains c!"timing and accounting informations" line then { s with finished := true } else s

/-- outcar.py:153-157 the kind of symmetry. -/
def readConfig (s : State) (line : Str) : State :=
  let l := strip line
  let s1 := if startsWith c!"Analysis of symmetry for initial positions (statically)" l then { s with config := some false } else s
  if startsWith c!"Analysis of symmetry for dynamics" l then { s1 with config := some true } else s1

/-- Append to the list of a kind. -/
def Pair.push (p : Pair) (dyn : Bool) (t : Str) : Pair :=
  if dyn then { p with dynamic := p.dynamic ++ [t] } else { p with static := p.static ++ [t] }

/-- Append to the numbers of a kind. -/
def Symmetry.pushOps (y : Symmetry) (dyn : Bool) (n : Int) : Symmetry :=
  if dyn then { y with opsDynamic := y.opsDynamic ++ [n] } else { y with opsStatic := y.opsStatic ++ [n] }

/-- `f'{words} primitive cells'`: the `repr` of a list of words. Simplification: quotes and backslashes in words are not escaped. -/
def listRepr (ws : List Str) : Str := ['['] ++ join c!", " (ws.map fun w => ['\''] ++ w ++ ['\'']) ++ [']']

/-- outcar.py:159-162 `Subroutine PRICEL returns`. -/
def readPricel (y : Symmetry) (dyn : Bool) (line : Str) (rest : List Str) : Res Symmetry :=
  if startsWith c!"Subroutine PRICEL returns" (strip line) then
    idx rest 0 >>= fun n =>
    if strip n = [] then .ok y else .ok { y with original := y.original.push dyn c!"primitive cell" }
  else .ok y

/-- outcar.py:163-165 the supercell. -/
def readSuper (y : Symmetry) (dyn : Bool) (line : Str) : Symmetry :=
  if contains c!"primitive cells build up your supercell" line then
    { y with original := y.original.push dyn (listRepr (words line) ++ c!" primitive cells") }
  else y

/-- outcar.py:166-167 the symmetrized cell type. -/
def readSetgrp (y : Symmetry) (dyn : Bool) (line : Str) (rest : List Str) : Res Symmetry :=
  if startsWith c!"Routine SETGRP: Setting up the symmetry group for a" (strip line) then
    idx rest 0 >>= fun n => .ok { y with symmetrized := y.symmetrized.push dyn (lower (strip n)) }
  else .ok y

/-- outcar.py:168-169 the number of operations. -/
def readGetgrp (y : Symmetry) (dyn : Bool) (line : Str) : Res Symmetry :=
  if startsWith c!"Subroutine GETGRP returns" (strip line) then
    idx (words line) 4 >>= fun w => toInt w >>= fun n => .ok (y.pushOps dyn n)
  else .ok y

/-- outcar.py:158-169 the symmetry. -/
def readSymmetry (s : State) (line : Str) (rest : List Str) : Res State :=
  match s.config with
  | none => .ok s
  | some dyn =>
    readPricel s.symmetry dyn line rest >>= fun y1 =>
    readSetgrp (readSuper y1 dyn line) dyn line rest >>= fun y2 =>
    readGetgrp y2 dyn line >>= fun y3 => .ok { s with symmetry := y3 }

/-- outcar.py:173-175 a tensor: lines `index + 3` to `index + 8` without their first word. -/
def readTensor (rest : List Str) : Res Tensor :=
  Res.mapM' (fun i => idx rest i >>= fun l => Res.mapM' toFloat ((words l).drop 1)) [2, 3, 4, 5, 6, 7]

/-- outcar.py:172-176 (and 177-186): a tensor is stored under its key if the line is its header. -/
def readElastic (header key line : Str) (rest : List Str) (e : Dict Str (Option Tensor)) : Res (Dict Str (Option Tensor)) :=
  if startsWith header (strip line) then readTensor rest >>= fun t => .ok (e.set key (some t)) else .ok e

/-- outcar.py:171-186 the three tensors. Note the key of the first one (line 176). -/
def readElastics (s : State) (line : Str) (rest : List Str) : Res State :=
  readElastic c!"ELASTIC MODULI  (kBar)" c!"non_symmetrized" line rest s.elastic >>= fun e1 =>
  readElastic c!"SYMMETRIZED ELASTIC MODULI" c!"symmetrized" line rest e1 >>= fun e2 =>
  readElastic c!"TOTAL ELASTIC MODULI" c!"total" line rest e2 >>= fun e3 => .ok { s with elastic := e3 }

/-- outcar.py:197-200: the orbital columns in order; more than four raise `KeyError`. -/
def orbitals : List Str → List Str → Moments → Res Moments
  | _, [], m => .ok m
  | names, c :: cs, m => toFloat c >>= fun x => match names with
    | n :: ns => orbitals ns cs (m.set n x)
    | [] => .raise .keyError

/-- outcar.py:195-203 and 205-212: a row of moments; the first word is a number or `tot`, the last one the total. -/
def readMoments (line : Str) : Res Moments :=
  let w := words line
  orbitals [c!"s", c!"p", c!"d", c!"f"] (w.drop 1).dropLast [] >>= fun m =>
  match w.getLast? with
  | some t => toFloat t >>= fun x => .ok (m.set c!"tot" x)
  | none => .raise .indexError

/-- outcar.py:189-221 the rows below a header: up to the `tot` row, or up to a blank line, which makes the first site the total. -/
def readMag : Sphere → List Str → Res Sphere
  | _, [] => .raise .indexError
  | m, l :: ls =>
    if words l = [] then
      match m.sites with
      | (_, v) :: _ => .ok { m with total := v }
      | [] => .raise .indexError
    else if startsWith c!"tot" (strip l) then readMoments l >>= fun t => .ok { m with total := t }
    else if startsWith ['-'] (strip l) then readMag m ls
    else
      idx (words l) 0 >>= fun w => toInt w >>= fun n =>
      readMoments l >>= fun t => readMag { m with sites := m.sites.set n t } ls

/-- outcar.py:187-221 one direction. -/
def readSphere (name : Char) (line : Str) (rest : List Str) (m : Sphere) : Res Sphere :=
  if startsWith (c!"magnetization (" ++ [name, ')']) (strip line) then readMag m (rest.drop 3) else .ok m

/-- outcar.py:187-224 the magnetization. -/
def readMagnetization (s : State) (line : Str) (rest : List Str) : Res State :=
  readSphere 'x' line rest s.magX >>= fun x =>
  readSphere 'y' line rest s.magY >>= fun y =>
  readSphere 'z' line rest s.magZ >>= fun z =>
  if startsWith c!"number of electron" (strip line) then
    Res.mapM' toFloat ((words line).drop 5) >>= fun v => .ok { s with magX := x, magY := y, magZ := z, fullCell := some v }
  else .ok { s with magX := x, magY := y, magZ := z }

/-- outcar.py:133-224 the body of the loop; `rest` are the lines behind. -/
def step (s : State) (line : Str) (rest : List Str) : Res State :=
  match iterOf line with
  | some n => .ok { s with iter := some n, steps := countStep s.steps n.1 }
  | none =>
    readParams s line >>= fun s1 =>
    readSymmetry (readConfig (readEnd s1 line) line) line rest >>= fun s2 =>
    readElastics s2 line rest >>= fun s3 => readMagnetization s3 line rest

/-- outcar.py:133-224 the loop. -/
def scan : State → List Str → Res State
  | s, [] => .ok s
  | s, l :: ls => step s l ls >>= fun s' => scan s' ls

/-! ### verdict -/

/-- The convergence entries of `run_status`; `ionic` is `True`, `False` or `None`. -/
structure Verdict where
  ionic : Option Bool
  electronic : Bool
  consistent : Bool
  contains : Bool
  deriving DecidableEq, Repr

/-- `a < b` for an `int` and an `int` or `None` (`TypeError`). -/
def ltOpt (a : Int) (b : Option Int) : Res Bool :=
  match b with
  | some b => .ok (decide (a < b))
  | none => .raise .typeError

/-- outcar.py:239-261 ionic convergence of a finished run. -/
def ionicFinished (ibrion : Int) (step : Int) (nsw : Option Int) : Res (Option Bool) :=
  if ibrion > 0 then
    ltOpt step nsw >>= fun b =>
    if b then .ok (some true)
    else match nsw with
      | some n => if step = n ∧ n > 1 then .ok (some false) else if n ≤ 1 then .ok none else .ok (some false)
      | none => .raise .typeError   -- unreachable
  else .ok none

/-- Insert a pair by its first component. -/
def insertStep (x : Nat × Nat) : List (Nat × Nat) → List (Nat × Nat)
  | [] => [x]
  | y :: ys => if x.1 ≤ y.1 then x :: y :: ys else y :: insertStep x ys

/-- `sorted(nelec_steps.items(), key=lambda x: x[0])`. -/
def sortSteps (l : Dict Nat Nat) : List (Nat × Nat) := l.foldr insertStep []

/-- outcar.py:272 the mask. -/
def mask (nelm : Option Int) (steps : Dict Nat Nat) : Res (List Bool) :=
  Res.mapM' (fun p => match nelm with
    | some n => .ok (decide (n ≤ (p.2 : Int)))
    | none => .raise .typeError) (sortSteps steps)

/-- outcar.py:231-280 the verdict after the loop. -/
def verdict (finished : Bool) (ibrion : Int) (nsw nelm : Option Int) (iter : Nat × Nat) (steps : Dict Nat Nat) : Res Verdict :=
  (if finished then
    ionicFinished ibrion iter.1 nsw >>= fun i => ltOpt iter.2 nelm >>= fun e => .ok (i, e)
   else .ok (some false, false)) >>= fun ie =>
  mask nelm steps >>= fun m =>
  .ok ⟨ie.1, ie.2, (finished && m.all id) || (!finished && m.dropLast.all id && decide (iter.1 > 1)), m.any id⟩

/-! ### run statistics -/

/-- The last `n` elements, `l[-n:]`. -/
def lastN {α} (n : Nat) (l : List α) : List α := l.drop (l.length - n)

/-- A line without its final newline (what `$` looks at). -/
def chomp (s : Str) : Str := if s.getLast? = some '\n' then s.dropLast else s

/-- outcar.py:407 `re.search(r'\((sec|kb)\)', line)`. -/
def isTimeLine (line : Str) : Bool := contains c!"(sec)" line || contains c!"(kb)" line

/-- outcar.py:408 `re.search(r':.*kBytes$', line)` for a line without inner newlines. -/
def isMemLine (line : Str) : Bool :=
  let l := chomp line
  startsWith c!"kBytes".reverse l.reverse && (l.take (l.length - 6)).contains ':'

/-- `re.split('[: ]+', s)`: split at maximal runs of colons and blanks. -/
def splitRuns (s : Str) : List Str :=
  match splitP (fun c => c == ':' || c == ' ') s with
  | [] => []
  | [a] => [a]
  | a :: b :: r => a :: ((b :: r).dropLast.filter (fun w => !w.isEmpty) ++ [(b :: r).getLast (by simp)])

/-- outcar.py:410-424 what one line contributes. -/
def statLine (line : Str) : Res (Option (Str × Option PyFloat)) :=
  if isTimeLine line then
    let tokens := splitOn ':' (strip line)
    idx tokens 0 >>= fun t0 =>
    idx tokens 1 >>= fun t1 => .ok (some (join ['_'] ((words t0).dropLast.map lower), pyFloat (strip t1)))
  else if isMemLine line then
    let tokens := splitRuns (strip line)
    idx tokens 0 >>= fun t0 =>
    (if tokens.length < 2 then .raise .indexError else idx tokens (tokens.length - 2)) >>= fun t =>
    .ok (some (c!"mem_usage_" ++ t0, pyFloat t))
  else .ok none

/-- outcar.py:391-426 `_parse_timings_memory`. -/
def stats : Dict Str (Option PyFloat) → List Str → Res (Dict Str (Option PyFloat))
  | d, [] => .ok d
  | d, l :: ls => statLine l >>= fun r => match r with
    | some (k, v) => stats (d.set k v) ls
    | none => stats d ls

/-! ### the object -/

/-- The data of an `Outcar`. -/
structure Data where
  state : State
  verdict : Verdict
  last : Nat × Nat
  stats : Dict Str (Option PyFloat)
  deriving DecidableEq, Repr

/-- A stored number (`None` if the key is missing or holds `None`). -/
def number (d : Dict Str (Option Int)) (k : Str) : Option Int := (d.get? k).join

/-- outcar.py:116-282 `_from_list`. -/
def fromList (lines : List Str) : Res Data :=
  scan {} lines >>= fun s => match s.iter with
  | none => .exit 600
  | some it =>
    verdict s.finished ((number s.params c!"ibrion").getD (-1)) (number s.status c!"nsw") (number s.status c!"nelm") it s.steps >>= fun v =>
    stats [] (lastN 50 lines) >>= fun st => .ok ⟨s, v, it, st⟩

/-- outcar.py:19-96 `Outcar(file_path, file_handler)`; `path` is `some none` if there is no such file. -/
def init (path : Option (Option Str)) (handler : Option Str) : Res Data :=
  match handler with
  | some t => fromList (readlines t)
  | none => match path with
    | some (some t) => fromList (readlines t)
    | some none => .exit 14
    | none => .exit 10

end Verif.Outcar
