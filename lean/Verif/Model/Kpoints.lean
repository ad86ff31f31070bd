import Verif.Py.Num
import Verif.Py.Res
import Verif.Py.Dict
/-!
# Model of /repo/parsevasp/kpoints.py

Floats are exact rationals (binary64 rounding is not modelled); the literals `inf`/`nan` lead to `outOfModel`.
Texts are what the text layer delivers.
-/
set_option autoImplicit false
namespace Verif.Kpoints
open Verif

/-- kpoints.py:969-1002 `Kpoint`: coordinates (an array of any length), weight, direct flag. -/
structure Kpoint where
  coord : List Rat
  weight : Option Rat
  direct : Bool
  deriving DecidableEq, Repr

/-- Python objects as far as the type checks of kpoints.py tell them apart. `bool` is not distinguished from `int`
(simplification). -/
inductive Atom
  | none
  | int (i : Int)
  | float (x : Rat)
  | str (s : Str)
  | point (p : Kpoint)
  | other
  deriving DecidableEq, Repr

/-- Elements of a list. -/
inductive Elem
  | atom (a : Atom)
  | list (l : List Atom)
  deriving DecidableEq, Repr

/-- Values of entries; lists are at most two levels deep (a deeper list is a list of `other`). -/
inductive Val
  | atom (a : Atom)
  | list (l : List Elem)
  deriving DecidableEq, Repr

/-- `None`. -/
abbrev Val.none : Val := .atom .none
/-- An `int`. -/
abbrev Val.int (i : Int) : Val := .atom (.int i)
/-- A `float`. -/
abbrev Val.float (x : Rat) : Val := .atom (.float x)
/-- A `str`. -/
abbrev Val.str (s : Str) : Val := .atom (.str s)

/-- kpoints.py:124 `self.entries`. -/
abbrev Entries := Dict Str Val

/-! ### reading -/

/-- `l[i]`. -/
def idx {α} (l : List α) (i : Nat) : Res α :=
  match l[i]? with
  | some s => .ok s
  | Option.none => .raise .indexError

/-- `float(w)`. -/
def toFloat (w : Str) : Res Rat :=
  match pyFloat w with
  | some (.fin d) => .ok d.toRat
  | some _ => .raise .outOfModel
  | Option.none => .raise .valueError

/-- `int(w)`. -/
def toInt (w : Str) : Res Int :=
  match pyInt w with
  | some i => .ok i
  | Option.none => .raise .valueError

/-- kpoints.py:201-209, one line of explicit points. -/
def parsePoint (line : Str) : Res Kpoint :=
  let k := words line
  idx k 0 >>= fun a => toFloat a >>= fun x =>
  idx k 1 >>= fun b => toFloat b >>= fun y =>
  idx k 2 >>= fun c => toFloat c >>= fun z =>
  if 3 < k.length then idx k 3 >>= fun d => toFloat d >>= fun w => .ok ⟨[x, y, z], some w, true⟩
  else .ok ⟨[x, y, z], Option.none, true⟩

/-- kpoints.py:222-226, one connection line. -/
def parseTetraLine (line : Str) : Res (List Int) :=
  if (words line).length = 5 then Res.mapM' toInt (words line) else .exit 201

/-- kpoints.py:211-226: the optional tetrahedra behind the points; result `tetra, tetra_vol`. -/
def parseTetra (lines : List Str) (loopmax : Nat) : Res (Option (List (List Int)) × Option Rat) :=
  if loopmax < lines.length then
    idx lines loopmax >>= fun l =>
    idx (strip l) 0 >>= fun c =>
    if lowerC c = 't' then
      if loopmax + 1 < lines.length then
        idx lines (loopmax + 1) >>= fun first =>
        idx (words first) 0 >>= fun n => toInt n >>= fun num =>
        idx (words first) 1 >>= fun v => toFloat v >>= fun vol =>
        Res.mapM' (fun t => idx lines (t + (loopmax + 2)) >>= parseTetraLine) (List.range num.toNat) >>= fun ts =>
        .ok (some ts, some vol)
      else .ok (some [], Option.none)
    else .ok (Option.none, Option.none)
  else .ok (Option.none, Option.none)

/-- Everything `_from_list` puts into the dictionary. -/
structure Parsed where
  comment : Str
  num : Int
  mode : Str
  divisions : Option (List Int) := Option.none
  vectors : Option (List (List Rat)) := Option.none
  shifts : Option (List Rat) := Option.none
  points : Option (List Kpoint) := Option.none
  tetra : Option (List (List Int)) := Option.none
  tetraVol : Option Rat := Option.none
  centering : Option Str := Option.none
  deriving DecidableEq, Repr

/-- kpoints.py:188-226 explicit points (neither automatic nor line mode). -/
def parseExplicit (lines : List Str) (p : Parsed) (c : Char) : Res Parsed :=
  if lowerC c = 'k' ∨ lowerC c = 'c' then .exit 200
  else
    Res.mapM' (fun k => idx lines (k + 3) >>= parsePoint) (List.range p.num.toNat) >>= fun points =>
    parseTetra lines (p.num.toNat + 3) >>= fun t =>
    .ok { p with points := some points, tetra := t.1, tetraVol := t.2 }

/-- kpoints.py:227-248 automatic mode. A third line starting with any other letter changes nothing. -/
def parseAutomatic (lines : List Str) (p : Parsed) (c : Char) : Res Parsed :=
  if lowerC c = 'a' then .exit 202
  else if lowerC c = 'g' ∨ lowerC c = 'm' then
    idx lines 3 >>= fun l3 => Res.mapM' toInt (words l3) >>= fun div =>
    (if lines.length = 5 then idx lines 4 >>= fun l4 => Res.mapM' toFloat (words l4) >>= fun s => .ok (some s)
     else .ok p.shifts) >>= fun shifts =>
    .ok { p with
          centering := some (if lowerC c = 'g' then c!"Gamma" else c!"Monkhorst-Pack"), divisions := some div, shifts := shifts }
  else if lowerC c = 'r' then
    Res.mapM' (fun k => idx lines k >>= fun l => Res.mapM' toFloat (words l)) [3, 4, 5] >>= fun gv =>
    idx lines 6 >>= fun l6 => Res.mapM' toFloat (words l6) >>= fun s =>
    .ok { p with centering := some c!"Reciprocal", vectors := some gv, shifts := some s }
  else if lowerC c = 'd' ∨ lowerC c = 'c' then .exit 203
  else .ok p

/-- kpoints.py:259-264, one line behind the fourth in line mode: skipped if it is exactly a newline. -/
def parseLinePoint (line : Str) : Res (List Kpoint) :=
  if line = ['\n'] then .ok []
  else Res.mapM' toFloat ((words line).take 3) >>= fun xs => .ok [⟨xs, some 1, true⟩]

/-- kpoints.py:249-264 line mode. -/
def parseLineMode (lines : List Str) (p : Parsed) : Res Parsed :=
  idx lines 3 >>= fun l3 => idx (words l3) 0 >>= fun w => idx w 0 >>= fun c =>
  if lowerC c = 'r' ∨ lowerC c = 'd' then
    Res.mapM' parseLinePoint (lines.drop 4) >>= fun pss => .ok { p with points := some pss.flatten }
  else .exit 200

/-- kpoints.py:149-284 `_from_list`, before packing. -/
def parse (lines : List Str) : Res Parsed :=
  idx lines 0 >>= fun l0 =>
  idx lines 1 >>= fun l1 => idx (words l1) 0 >>= fun w => toInt w >>= fun num =>
  idx lines 2 >>= fun l2 => idx (strip l2) 0 >>= fun c =>
  let automatic := decide (num ≤ 0)
  let line := decide (lowerC c = 'l')
  let p : Parsed := { comment := strip (l0.filter (· != '#')), num := num
                      mode := if line then c!"line" else if automatic then c!"automatic" else c!"explicit" }
  (if !automatic && !line then parseExplicit lines p c else .ok p) >>= fun p =>
  (if automatic then parseAutomatic lines p c else .ok p) >>= fun p =>
  if line then parseLineMode lines p else .ok p

/-- A list of atoms as a value. -/
def atomsVal {α} (f : α → Atom) (l : List α) : Val := .list (l.map fun a => .atom (f a))
/-- A list of lists of atoms as a value. -/
def rowsVal {α} (f : α → Atom) (l : List (List α)) : Val := .list (l.map fun r => .list (r.map f))
/-- `None` or a value. -/
def optVal {α} (f : α → Val) : Option α → Val
  | some a => f a
  | Option.none => .none

/-- kpoints.py:272-282: packing into the dictionary. -/
def Parsed.toEntries (p : Parsed) : Entries :=
  [(c!"comment", .str p.comment),
   (c!"divisions", optVal (atomsVal .int) p.divisions),
   (c!"generating_vectors", optVal (rowsVal .float) p.vectors),
   (c!"shifts", optVal (atomsVal .float) p.shifts),
   (c!"points", optVal (atomsVal .point) p.points),
   (c!"tetra", optVal (rowsVal .int) p.tetra),
   (c!"tetra_volume", optVal .float p.tetraVol),
   (c!"mode", .str p.mode),
   (c!"centering", optVal .str p.centering),
   (c!"num_kpoints", .int p.num)]

/-- kpoints.py:149-284 `_from_list`. -/
def fromList (lines : List Str) : Res Entries := parse lines >>= fun p => .ok p.toEntries

/-! ### checks -/

/-- `self.entries[key]`, an uncaught `KeyError` if missing. -/
def lookup (e : Entries) (k : Str) : Res Val :=
  match e.get? k with
  | some v => .ok v
  | Option.none => .raise .keyError

/-- The value to be checked: the argument, or the stored entry if the argument is `None` (exit 12 if missing). -/
def argOr (e : Entries) (k : Str) (v : Val) : Res Val :=
  if v = .none then
    match e.get? k with
    | some w => .ok w
    | Option.none => .exit 12
  else .ok v

/-- kpoints.py:381-397 `_check_dict`. -/
def checkDict (e : Entries) : Res Unit :=
  lookup e c!"divisions" >>= fun d =>
  if d = .none then
    lookup e c!"points" >>= fun p =>
    if p = .none then
      lookup e c!"generating_vectors" >>= fun g => if g = .none then .exit 206 else .ok ()
    else .ok ()
  else .ok ()

/-- kpoints.py:399-414 `_check_allowed_entries`: substring tests. -/
def checkAllowed (entry : Str) : Res Unit :=
  if [c!"comment", c!"points", c!"tetra", c!"tetra_volume", c!"divisions", c!"mode", c!"num_kpoints", c!"shifts",
      c!"centering"].any (fun k => contains k entry) then .ok () else .exit 207

/-- kpoints.py:416-439 `_check_comment`. -/
def checkComment (e : Entries) (v : Val) : Res Unit :=
  argOr e c!"comment" v >>= fun w =>
  lookup e c!"comment" >>= fun stored =>
  if stored = .none then .ok ()
  else match w with
    | .atom (.str _) => .ok ()
    | _ => .exit 13

/-- kpoints.py:441-465 `_check_points`. -/
def checkPoints (e : Entries) (v : Val) : Res Unit :=
  argOr e c!"points" v >>= fun w => match w with
    | .atom .none => .ok ()
    | .list _ => .ok ()
    | _ => .exit 13

/-- Is an element a `Kpoint`? -/
def isPoint : Elem → Bool
  | .atom (.point _) => true
  | _ => false

/-- kpoints.py:467-491 `_check_point`. -/
def checkPoint (e : Entries) (v : Val) : Res Unit :=
  match v with
  | .atom .none =>
    argOr e c!"points" .none >>= fun w => match w with
      | .list l => if l.all isPoint then .ok () else .exit 210
      | _ => .raise .typeError
  | .atom (.point _) => .ok ()
  | _ => .exit 210

/-- kpoints.py:493-512 `_check_point_number` for an `int` argument. -/
def checkPointNumber (e : Entries) (n : Int) : Res Unit :=
  lookup e c!"points" >>= fun w => match w with
    | .list l => if n > (l.length : Int) - 1 then .exit 211 else .ok ()
    | .atom (.str s) => if n > (s.length : Int) - 1 then .exit 211 else .ok ()
    | _ => .raise .typeError

/-- Is an element a `float`? -/
def isFloat : Elem → Bool
  | .atom (.float _) => true
  | _ => false

/-- Is an element an `int`? -/
def isInt : Elem → Bool
  | .atom (.int _) => true
  | _ => false

/-- kpoints.py:514-545 `_check_shifts`. -/
def checkShifts (e : Entries) (v : Val) : Res Unit :=
  argOr e c!"shifts" v >>= fun w => match w with
    | .atom .none => .ok ()
    | .list l => if l.all isFloat then .ok () else .exit 13
    | _ => .exit 13

/-- kpoints.py:547-570 `_check_tetra_volume`. -/
def checkTetraVolume (e : Entries) (v : Val) : Res Unit :=
  argOr e c!"tetra_volume" v >>= fun w => match w with
    | .atom .none => .ok ()
    | .atom (.float _) => .ok ()
    | _ => .exit 13

/-- kpoints.py:572-603 `_check_divisions`. -/
def checkDivisions (e : Entries) (v : Val) : Res Unit :=
  argOr e c!"divisions" v >>= fun w => match w with
    | .atom .none => .ok ()
    | .list l => if l.all isInt then .ok () else .exit 13
    | _ => .exit 13

/-- Is an element a list of floats? -/
def isFloatRow : Elem → Bool
  | .list l => l.all fun | .float _ => true | _ => false
  | _ => false

/-- kpoints.py:605-644 `_check_generating_vectors`. -/
def checkVectors (e : Entries) (v : Val) : Res Unit :=
  argOr e c!"generating_vectors" v >>= fun w => match w with
    | .atom .none => .ok ()
    | .list l => if l.all isFloatRow then .ok () else .exit 13
    | _ => .exit 13

/-- kpoints.py:669-687, one element of `tetra`: a list, of length five, of integers. -/
def checkTetraElem : Elem → Res Unit
  | .list l => if l.length ≠ 5 then .exit 201 else if l.all (fun | .int _ => true | _ => false) then .ok () else .exit 13
  | _ => .exit 13

/-- kpoints.py:646-687 `_check_tetra`. -/
def checkTetra (e : Entries) (v : Val) : Res Unit :=
  argOr e c!"tetra" v >>= fun w => match w with
    | .atom .none => .ok ()
    | .list l => Res.mapM' checkTetraElem l >>= fun _ => .ok ()
    | _ => .exit 13

/-- kpoints.py:689-711 `_check_centering`. -/
def checkCentering (e : Entries) (v : Val) : Res Unit :=
  argOr e c!"centering" v >>= fun w => match w with
    | .atom .none => .ok ()
    | .atom (.str s) => if s ∈ [c!"Gamma", c!"Monkhorst-Pack", c!"Reciprocal"] then .ok () else .exit 212
    | _ => .exit 212

/-- kpoints.py:713-735 `_check_num_kpoints`. -/
def checkNum (e : Entries) (v : Val) : Res Unit :=
  argOr e c!"num_kpoints" v >>= fun w => match w with
    | .atom (.int _) => .ok ()
    | _ => .exit 13

/-- kpoints.py:737-758 `_check_mode`. -/
def checkMode (e : Entries) (v : Val) : Res Unit :=
  argOr e c!"mode" v >>= fun w => match w with
    | .atom .none => .ok ()
    | .atom (.str s) => if s ∈ [c!"explicit", c!"automatic", c!"line"] then .ok () else .exit 213
    | _ => .exit 213

/-- kpoints.py:760-774 `_validate`. -/
def validate (e : Entries) : Res Unit :=
  checkDict e >>= fun _ => checkComment e .none >>= fun _ => checkPoints e .none >>= fun _ => checkCentering e .none >>= fun _ =>
  checkDivisions e .none >>= fun _ => checkVectors e .none >>= fun _ => checkShifts e .none >>= fun _ => checkMode e .none >>= fun _ =>
  checkNum e .none >>= fun _ => checkTetra e .none >>= fun _ => checkTetraVolume e .none

/-! ### editing -/

/-- Python list index: negative ones count from the end. -/
def pyIndex (n : Int) (len : Nat) : Option Nat :=
  if 0 ≤ n then (if n.toNat < len then some n.toNat else Option.none)
  else if 0 ≤ n + (len : Int) then some (n + (len : Int)).toNat else Option.none

/-- kpoints.py:321-328 the points given to `modify('points', ...)` must have `get_direct()` and be direct. -/
def checkDirect (v : Val) : Res Unit :=
  match v with
  | .list l => Res.mapM' (fun | .atom (.point p) => if p.direct then .ok () else .exit 205 | _ => .raise .attributeError) l >>= fun _ => .ok ()
  | .atom (.str []) => .ok ()
  | .atom (.str _) => .raise .attributeError
  | _ => .raise .typeError

/-- kpoints.py:319-346 the check belonging to an entry (none for any other name). -/
def checkEntry (e : Entries) (entry : Str) (v : Val) : Res Unit :=
  if entry = c!"points" then checkPoints e v >>= fun _ => checkDirect v
  else if entry = c!"comment" then checkComment e v
  else if entry = c!"divisions" then checkDivisions e v
  else if entry = c!"generating_vectors" then checkVectors e v
  else if entry = c!"shifts" then checkShifts e v
  else if entry = c!"tetra" then checkTetra e v
  else if entry = c!"tetra_volume" then checkTetraVolume e v
  else if entry = c!"centering" then checkCentering e v
  else if entry = c!"mode" then checkMode e v
  else if entry = c!"num_kpoints" then checkNum e v
  else .ok ()

/-- The element stored by `self.entries['points'][n] = value`. -/
def elemOf : Val → Elem
  | .atom a => .atom a
  | .list _ => .list []   -- unreachable: `checkPoint` refuses lists

/-- kpoints.py:286-348 `modify(entry, value, point_number)`; `point_number` is `None` or an `int`. -/
def modify (e : Entries) (entry : Str) (v : Val) (pointNumber : Option Int) : Res Entries :=
  checkAllowed entry >>= fun _ =>
  checkDict e >>= fun _ =>
  match pointNumber with
  | some n =>
    checkPoint e v >>= fun _ => checkPointNumber e n >>= fun _ =>
    lookup e c!"points" >>= fun w => match w with
      | .list l => match pyIndex n l.length with
        | some i => .ok (e.set c!"points" (.list (l.set i (elemOf v))))
        | Option.none => .raise .indexError
      | _ => .raise .typeError
  | Option.none => checkEntry e entry v >>= fun _ => .ok (e.set entry v)

/-- kpoints.py:350-364 `delete_point`. -/
def deletePoint (e : Entries) (n : Int) : Res Entries :=
  checkPoints e .none >>= fun _ => checkPointNumber e n >>= fun _ =>
  lookup e c!"points" >>= fun w => match w with
    | .list l => match pyIndex n l.length with
      | some i => .ok (e.set c!"points" (.list (l.eraseIdx i)))
      | Option.none => .raise .indexError
    | _ => .raise .typeError

/-- kpoints.py:784-806 `get`: stored values have no `get_value` method; only `KeyError` is caught. `Option.none` is `None`. -/
def get (e : Entries) (tag : Str) : Res (Option Val) :=
  match e.get? tag with
  | some _ => .raise .attributeError
  | Option.none => .ok Option.none

/-! ### writing -/

/-- `'{:{width}.{prec}f} ...\n'.format(...)`: numbers joined by single blanks, newline. -/
def floatRow (prec : Nat) (xs : List Rat) : Str := join [' '] (xs.map (fmtFixed (prec + 4) prec)) ++ ['\n']

/-- `'{:{w}d} ...\n'.format(...)`. -/
def intRow (w : Nat) (xs : List Int) : Str := join [' '] (xs.map (fmtInt w)) ++ ['\n']

/-- `coordinate[0], coordinate[1], coordinate[2]`. -/
def three {α} (l : List α) : Res (List α) :=
  idx l 0 >>= fun a => idx l 1 >>= fun b => idx l 2 >>= fun c => .ok [a, b, c]

/-- kpoints.py:880-898, a line of an explicit point; a missing weight becomes 1. -/
def writePoint (prec : Nat) : Elem → Res Str
  | .atom (.point p) => three p.coord >>= fun c => .ok (floatRow prec (c ++ [p.weight.getD 1]))
  | _ => .raise .attributeError

/-- Iterate over the points (`for point in entries['points']`). -/
def overPoints (v : Val) (f : Elem → Res Str) : Res (List Str) :=
  match v with
  | .list l => Res.mapM' f l
  | .atom (.str []) => .ok []
  | .atom (.str _) => .raise .attributeError
  | _ => .raise .typeError

/-- The integers of a row of `tetra` (`validate` has made sure there are five). -/
def tetraInts : Elem → Res (List Int)
  | .list l => Res.mapM' (fun | .int i => Res.ok i | _ => .raise .valueError) l
  | _ => .raise .typeError

/-- kpoints.py:899-918 the tetrahedra. -/
def writeTetra (prec : Nat) (tetra vol : Val) : Res Str :=
  match tetra with
  | .list rows => match vol with
    | .atom (.float x) =>
      Res.mapM' (fun r => tetraInts r >>= fun is => .ok (intRow 6 is)) rows >>= fun ls =>
      .ok (c!"Tetrahedra\n" ++ (fmtInt 6 rows.length ++ [' '] ++ fmtFixed (prec + 4) prec x ++ ['\n']) ++ ls.flatten)
    | _ => .raise .typeError
  | _ => .ok []

/-- A float element. -/
def floatElem : Elem → Res Rat
  | .atom (.float x) => .ok x
  | _ => .raise .valueError
/-- An integer element. -/
def intElem : Elem → Res Int
  | .atom (.int i) => .ok i
  | _ => .raise .valueError
/-- The first three of a row of floats. -/
def floatElems : Elem → Res (List Rat)
  | .list l => three l >>= Res.mapM' (fun | .float x => Res.ok x | _ => .raise .valueError)
  | _ => .raise .typeError

/-- kpoints.py:922-928 the divisions. -/
def writeDivisions (prec : Nat) : Val → Res Str
  | .list l => three l >>= fun t => Res.mapM' intElem t >>= fun is => .ok (intRow (prec + 4) is)
  | _ => .ok []

/-- kpoints.py:929-935 the generating vectors. -/
def writeVectors (prec : Nat) : Val → Res Str
  | .list l => Res.mapM' (fun r => floatElems r >>= fun xs => .ok (floatRow prec xs)) l >>= fun ls => .ok ls.flatten
  | _ => .ok []

/-- kpoints.py:936-946 the shifts; `None` is written as zeros. -/
def writeShifts (prec : Nat) : Val → Res Str
  | .list l => three l >>= fun t => Res.mapM' floatElem t >>= fun xs => .ok (floatRow prec xs)
  | _ => .ok (floatRow prec [0, 0, 0])

/-- kpoints.py:919-946 automatic mode. -/
def writeAutomatic (prec : Nat) (e : Entries) : Res Str :=
  lookup e c!"centering" >>= fun cen => match cen with
  | .atom (.str s) =>
    lookup e c!"divisions" >>= fun d => writeDivisions prec d >>= fun dt =>
    lookup e c!"generating_vectors" >>= fun g => writeVectors prec g >>= fun gt =>
    lookup e c!"shifts" >>= fun sh => writeShifts prec sh >>= fun st =>
    .ok (c!"0\n" ++ (s ++ ['\n']) ++ dt ++ gt ++ st)
  | _ => .raise .typeError

/-- kpoints.py:874-918 explicit mode. -/
def writeExplicit (prec : Nat) (e : Entries) (num : Int) : Res Str :=
  lookup e c!"points" >>= fun pts => overPoints pts (writePoint prec) >>= fun ls =>
  lookup e c!"tetra" >>= fun t => lookup e c!"tetra_volume" >>= fun vol => writeTetra prec t vol >>= fun tt =>
  .ok ((fmtInt 6 num ++ ['\n']) ++ c!"Direct\n" ++ ls.flatten ++ tt)

/-- kpoints.py:955-961, a line of a point in line mode. -/
def writeLinePoint (prec : Nat) : Elem → Res Str
  | .atom (.point p) => three p.coord >>= fun c => .ok (floatRow prec c)
  | _ => .raise .attributeError

/-- kpoints.py:953-965: an empty line after every second point. -/
def pairUp : List Str → Str
  | a :: b :: r => a ++ b ++ ['\n'] ++ pairUp r
  | [a] => a
  | [] => []

/-- utils.py:226-245 `remove_newline`: the last character is cut off (`os.linesep` is one character). -/
def removeNewline (s : Str) : Str := s.dropLast

/-- kpoints.py:855-966 `_write` (text written; line mode cuts the last character of the whole text). -/
def write (prec : Nat) (e : Entries) : Res Str :=
  validate e >>= fun _ =>
  lookup e c!"comment" >>= fun c =>
  let head : Str := match c with
    | .atom (.str s) => c!"# " ++ s ++ ['\n']
    | _ => c!"# No comment\n"
  lookup e c!"mode" >>= fun m => match m with
  | .atom (.str m) =>
    lookup e c!"num_kpoints" >>= fun n => match n with
    | .atom (.int num) =>
      if m = c!"explicit" then writeExplicit prec e num >>= fun t => .ok (head ++ t)
      else if m = c!"automatic" then writeAutomatic prec e >>= fun t => .ok (head ++ t)
      else
        lookup e c!"points" >>= fun pts => overPoints pts (writeLinePoint prec) >>= fun ls =>
        .ok (removeNewline (head ++ (fmtInt 6 num ++ ['\n']) ++ c!"Line-mode\n" ++ c!"Direct\n" ++ pairUp ls))
    | _ => .raise .typeError   -- unreachable after `validate`
  | _ => .ok head

/-! ### construction -/

/-- The arguments of `Kpoints(...)` that name a source; `path` is `some none` if there is no such file. -/
structure Sources where
  string : Option Str := Option.none
  dict : Option Entries := Option.none
  path : Option (Option Str) := Option.none
  handler : Option Str := Option.none

/-- kpoints.py:129-137 `_from_file`. -/
def fromFile (s : Sources) : Res Entries :=
  match s.handler with
  | some t => fromList (readlines t)
  | Option.none => match s.path with
    | some (some t) => fromList (readlines t)
    | some Option.none => .exit 14
    | Option.none => .raise .typeError   -- not called in this case

/-- kpoints.py:100-113 the guards. -/
def guards (s : Sources) : Bool :=
  ((s.string.isSome && s.dict.isSome) || (s.string.isSome && s.path.isSome) ||
    (s.dict.isSome && s.path.isSome && s.handler.isSome)) ||
  (!s.string.isSome && !s.dict.isSome && !s.path.isSome && !s.handler.isSome)

/-- kpoints.py:115-124: a file replaces the dictionary, a string replaces both. -/
def load (s : Sources) : Res Entries :=
  (if s.path.isSome || s.handler.isSome then fromFile s
   else match s.dict with
     | some d => .ok d
     | Option.none => .ok []) >>= fun d =>
  match s.string with
  | some t => fromList (splitlines t)
  | Option.none => .ok d

/-- kpoints.py:63-127 `Kpoints.__init__`. -/
def init (s : Sources) : Res Entries :=
  if guards s then .exit 10 else load s >>= fun e => validate e >>= fun _ => .ok e

end Verif.Kpoints
