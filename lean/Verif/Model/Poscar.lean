import Verif.Model.Kpoints
import Verif.Model.Utils
import Verif.Model.Lattice
/-!
# Model of /repo/parsevasp/poscar.py

Floats are exact rationals (binary64 rounding is not modelled); the literals `inf`/`nan` lead to `outOfModel`. Coordinate arrays
have three components. Aliasing of user-supplied `Site` objects is not modelled.
-/
set_option autoImplicit false
namespace Verif.Poscar
open Verif Verif.Utils Verif.Lattice
open Verif.Kpoints (idx toFloat toInt pyIndex)

/-- Python `str.splitlines(True)`: pieces keep their line break. -/
def splitlinesKeep : Str → List Str
  | [] => []
  | '\r' :: '\n' :: xs => ['\r', '\n'] :: splitlinesKeep xs
  | x :: xs => if isLineBreak x then [x] :: splitlinesKeep xs else consHead x (splitlinesKeep xs)

/-- Python `str.capitalize` (ASCII letters). -/
def capitalize : Str → Str
  | [] => []
  | c :: cs => upperC c :: lower cs

/-- Coordinates. -/
abbrev Vec := V3 Rat
/-- Unit cells. -/
abbrev Cell := M3 Rat

/-- poscar.py:938-1102 `Site`; `specie` is the stored lower-case name. -/
structure Site where
  specie : Str
  position : Vec
  selective : Bool × Bool × Bool
  velocities : Option Vec
  predictors : Option Vec
  direct : Bool
  deriving DecidableEq, Repr

/-- A site in dictionary form (poscar.py:149-161, 793-801). Simplification: all six keys are present and have the right type. -/
structure SiteDict where
  specie : Str
  position : Vec
  selective : Bool × Bool × Bool
  velocities : Option Vec
  predictors : Option Vec
  direct : Bool
  deriving DecidableEq, Repr

/-- poscar.py:941-979 `Site.__init__`. -/
def Site.new (specie : Str) (position : Vec) (selective : Bool × Bool × Bool) (velocities predictors : Option Vec)
    (direct : Bool) : Site := ⟨lower specie, position, selective, velocities, predictors, direct⟩

/-- poscar.py:977-989 `get_specie`. -/
def Site.getSpecie (s : Site) : Str := capitalize s.specie

/-- Elements of the list of sites. -/
inductive Elem
  | site (s : Site)
  | dict (d : SiteDict)
  | other
  deriving DecidableEq, Repr

/-- Values of entries. `cell none` is an ndarray whose shape is not (3, 3). -/
inductive Val
  | none
  | str (s : Str)
  | cell (c : Option Cell)
  | sites (l : List Elem)
  | other
  deriving DecidableEq, Repr

/-- `self.entries`. -/
abbrev Entries := Dict Str Val

/-! ### reading -/

/-- poscar.py:686-711 `_to_direct`: `LinAlgError` for a singular cell or one of another shape. -/
def toDirect (v : Vec) (c : Option Cell) : Res Vec :=
  match c with
  | some m => match cartToDir v m with
    | some r => .ok r
    | Option.none => .raise .linAlgError
  | Option.none => .raise .linAlgError

/-- `float(line[0]), float(line[1]), float(line[2])` of `line.split()`. -/
def readVec (line : Str) : Res Vec :=
  let w := words line
  idx w 0 >>= fun a => toFloat a >>= fun x =>
  idx w 1 >>= fun b => toFloat b >>= fun y =>
  idx w 2 >>= fun c => toFloat c >>= fun z => .ok ⟨x, y, z⟩

/-- `line.replace(' ', '') == '\n'`. -/
def isBlank (line : Str) : Bool := line.filter (· != ' ') == ['\n']

/-- poscar.py:262-270 a selective flag: `False` if the word contains an f. -/
def readFlag (line : Str) (i : Nat) : Res Bool := idx (words line) i >>= fun w => .ok (!(lower w).contains 'f')

/-- poscar.py:261-270 the flags. -/
def readFlags (line : Str) (selective : Bool) : Res (Bool × Bool × Bool) :=
  if selective then
    readFlag line 3 >>= fun a => readFlag line 4 >>= fun b => readFlag line 5 >>= fun c => .ok (a, b, c)
  else .ok (true, true, true)

/-- A site while reading (poscar.py:275). -/
structure Raw where
  specie : Str
  position : Vec
  flags : Bool × Bool × Bool
  deriving DecidableEq, Repr

/-- What the header says. -/
structure Header where
  comment : Str
  scaling : Rat
  cell : Option Cell
  spec : List Str
  atoms : List Int
  selective : Bool
  direct : Bool
  loopmax : Nat
  deriving DecidableEq, Repr

/-- poscar.py:249-260: one position; cartesian ones are scaled and converted. -/
def readPos (h : Header) (line : Str) : Res Vec :=
  readVec line >>= fun v => if h.direct then .ok v else toDirect (v.map (· * h.scaling)) h.cell

/-- poscar.py:239-275 the loop over positions: `n` sites left, `i` the loop variable, `specie_slot` and `index`. -/
def readSites (h : Header) (lines : List Str) : (n i slot : Nat) → (index : Int) → Res (List Raw)
  | 0, _, _, _ => .ok []
  | n + 1, i, slot, index =>
    idx h.atoms slot >>= fun a =>
    let slot' := if index > a then slot + 1 else slot
    let index' := if index > a then 1 else index
    idx h.spec slot' >>= fun s =>
    idx lines (i + h.loopmax) >>= fun line =>
    readPos h line >>= fun v =>
    readFlags line h.selective >>= fun f =>
    readSites h lines n (i + 1) slot' (index' + 1) >>= fun rest => .ok (⟨s, v, f⟩ :: rest)

/-- poscar.py:208-214 the three rows of the cell: NumPy refuses ragged rows (`ValueError`). -/
def makeCell (s : Rat) (a b c : List Rat) : Res (Option Cell) :=
  match a, b, c with
  | [ax, ay, az], [bx, b_y, bz], [cx, cy, cz] =>
    .ok (some (M3.scale s ⟨⟨ax, ay, az⟩, ⟨bx, b_y, bz⟩, ⟨cx, cy, cz⟩⟩))
  | a, b, c => if a.length = b.length ∧ b.length = c.length then .ok Option.none else .raise .valueError

/-- Numbers of a line. -/
def readRow (line : Str) : Res (List Rat) := Res.mapM' toFloat (words line)

/-- poscar.py:195-233 the header. -/
def readHeader (lines : List Str) : Res Header :=
  idx lines 0 >>= fun l0 =>
  idx lines 5 >>= fun l5 =>
  idx lines 1 >>= fun l1 => idx (words l1) 0 >>= fun w => toFloat w >>= fun scaling =>
  if scaling < 0 then .exit 307
  else if isNumbers l5 then .exit 301
  else
    idx lines 2 >>= fun l2 => readRow l2 >>= fun a =>
    idx lines 3 >>= fun l3 => readRow l3 >>= fun b =>
    idx lines 4 >>= fun l4 => readRow l4 >>= fun c =>
    makeCell scaling a b c >>= fun cell =>
    idx lines 6 >>= fun l6 => Res.mapM' toInt (words l6) >>= fun atoms =>
    idx lines 7 >>= fun l7 => idx l7 0 >>= fun c7 =>
    let comment := strip (l0.filter (· != '#'))
    if lowerC c7 = 's' then
      idx lines 8 >>= fun l8 => idx l8 0 >>= fun c8 =>
      .ok ⟨comment, scaling, cell, words l5, atoms, true, decide (lowerC c8 = 'd'), 9⟩
    else .ok ⟨comment, scaling, cell, words l5, atoms, false, decide (lowerC c7 = 'd'), 8⟩

/-- poscar.py:276-302: what follows the positions (line `p0`): velocities?, are they cartesian?, predictors? -/
def readTail (lines : List Str) (p0 : Nat) : Res (Bool × Bool × Bool) :=
  (if p0 < lines.length then
    idx lines p0 >>= fun l => idx l 0 >>= fun c =>
    if lowerC c = 'd' ∨ lowerC c = 'c' then .ok (true, decide (lowerC c = 'c'), false) else .ok (false, false, isBlank l)
   else .ok (false, false, false)) >>= fun t =>
  if p0 + 1 < lines.length then
    idx lines (p0 + 1) >>= fun l => idx (words l) 0 >>= fun w => if isNumber w then .ok t else .exit 302
  else .ok (t.1, t.2.1, false)

/-- Read `n` vectors from line `p` on. -/
def readVecs (lines : List Str) (p n : Nat) (conv : Vec → Res Vec) : Res (List Vec) :=
  Res.mapM' (fun i => idx lines (i + p) >>= fun l => readVec l >>= conv) (List.range n)

/-- poscar.py:315-328: predictors behind the velocities, if line `p` is blank and a number follows. -/
def readPredAfter (lines : List Str) (p n : Nat) : Res (Option (List Vec)) :=
  if p < lines.length then
    idx lines p >>= fun l =>
    if isBlank l then
      idx lines (p + 1) >>= fun l' => idx (words l') 0 >>= fun w =>
      if isNumber w then readVecs lines (p + 1) n .ok >>= fun vs => .ok (some vs) else .ok Option.none
    else .ok Option.none
  else .ok Option.none

/-- What a POSCAR text says. -/
structure Parsed where
  comment : Str
  cell : Option Cell
  sites : List Site
  deriving DecidableEq, Repr

/-- The sites from the pieces read (poscar.py:329-349). -/
def assemble (raws : List Raw) (vels preds : Option (List Vec)) : List Site :=
  raws.zipIdx.map fun (r, i) =>
    Site.new r.specie r.position r.flags (vels.bind fun l => l[i]?) (preds.bind fun l => l[i]?) true

/-- poscar.py:174-356 `_from_list`, before packing. A negative number of ions is not modelled. -/
def parse (lines : List Str) : Res Parsed :=
  readHeader lines >>= fun h =>
  let nions := h.atoms.sum
  if nions < 0 then .raise .outOfModel
  else
    let n := nions.toNat
    readSites h lines n 0 0 1 >>= fun raws =>
    readTail lines (n + h.loopmax) >>= fun t =>
    if t.1 then
      readVecs lines (n + h.loopmax + 1) n (fun v => if h.direct && !t.2.1 then .ok v else toDirect v h.cell) >>= fun vels =>
      readPredAfter lines (n + (n + h.loopmax + 1)) n >>= fun preds =>
      .ok ⟨h.comment, h.cell, assemble raws (some vels) preds⟩
    else if t.2.2 then
      readVecs lines (n + h.loopmax + 1) n .ok >>= fun preds =>
      .ok ⟨h.comment, h.cell, assemble raws Option.none (some preds)⟩
    else .ok ⟨h.comment, h.cell, assemble raws Option.none Option.none⟩

/-- poscar.py:351-356 packing. -/
def Parsed.toEntries (p : Parsed) : Entries :=
  [(c!"comment", .str p.comment), (c!"unitcell", .cell p.cell), (c!"sites", .sites (p.sites.map .site))]

/-- poscar.py:174-356 `_from_list`. -/
def fromList (lines : List Str) : Res Entries := parse lines >>= fun p => .ok p.toEntries

/-! ### checks -/

/-- `self.entries[key]`. -/
def lookup (e : Entries) (k : Str) : Res Val :=
  match e.get? k with
  | some v => .ok v
  | Option.none => .raise .keyError

/-- The argument, or the stored entry if the argument is `None`. A missing entry: the code builds its message with
`self.ERROR_MESSAGES[f"..."]`, whose key does not exist, so `KeyError` is raised instead of `sys.exit(12)`. -/
def argOr (e : Entries) (k : Str) (v : Val) : Res Val :=
  if v = .none then lookup e k else .ok v

/-- poscar.py:446-459 `_check_allowed_entries`: substring tests. -/
def checkAllowed (entry : Str) : Res Unit :=
  if [c!"comment", c!"unitcell", c!"sites"].any (fun k => contains k entry) then .ok () else .exit 305

/-- poscar.py:461-486 `_check_unitcell`. -/
def checkCell (e : Entries) (v : Val) : Res Unit :=
  argOr e c!"unitcell" v >>= fun w => match w with
    | .cell (some _) => .ok ()
    | _ => .exit 13

/-- poscar.py:488-512 `_check_comment`. -/
def checkComment (e : Entries) (v : Val) : Res Unit :=
  argOr e c!"comment" v >>= fun w =>
  lookup e c!"comment" >>= fun stored =>
  if stored = .none then .ok ()
  else match w with
    | .str _ => .ok ()
    | _ => .exit 13

/-- poscar.py:514-534 `_check_sites`. -/
def checkSites (e : Entries) (v : Val) : Res Unit :=
  argOr e c!"sites" v >>= fun w => match w with
    | .sites _ => .ok ()
    | _ => .exit 13

/-- poscar.py:589-597 `_validate`. -/
def validate (e : Entries) : Res Unit :=
  checkComment e .none >>= fun _ => checkCell e .none >>= fun _ => checkSites e .none

/-- Is an element a `Site`? -/
def isSite : Elem → Bool
  | .site _ => true
  | _ => false

/-- poscar.py:536-565 `_check_site`; `none` is the argument `None`. -/
def checkSite (e : Entries) (v : Option Elem) : Res Unit :=
  match v with
  | Option.none => lookup e c!"sites" >>= fun w => match w with
    | .sites l => if l.all isSite then .ok () else .exit 13
    | _ => .raise .typeError
  | some x => if isSite x then .ok () else .exit 13

/-- poscar.py:567-587 `_check_site_number` for an `int`. -/
def checkSiteNumber (e : Entries) (n : Int) : Res Unit :=
  lookup e c!"sites" >>= fun w => match w with
    | .sites l => if n > (l.length : Int) - 1 then .exit 304 else .ok ()
    | .str s => if n > (s.length : Int) - 1 then .exit 304 else .ok ()
    | _ => .raise .typeError

/-! ### construction -/

/-- poscar.py:149-172, one site of the dictionary. A `Site` in cartesian coordinates is converted in place; a dictionary is
converted into a `Site` that is dropped (the loop variable is rebound), so the list keeps the dictionary. -/
def convertElem (c : Option Cell) : Elem → Res Elem
  | .site s =>
    if s.direct then .ok (.site s)
    else
      toDirect s.position c >>= fun p =>
      match s.velocities with
      | some v => toDirect v c >>= fun v' => .ok (.site { s with position := p, velocities := some v', direct := true })
      | Option.none => .ok (.site { s with position := p, direct := true })
  | .dict d =>
    if d.direct then .ok (.dict d)
    else
      toDirect d.position c >>= fun _ =>
      match d.velocities with
      | some v => toDirect v c >>= fun _ => .ok (.dict d)
      | Option.none => .ok (.dict d)
  | .other => .raise .typeError

/-- The `unitcell` used by the conversion; only looked up for cartesian sites. -/
def cellOf (e : Entries) : Option Cell :=
  match e.get? c!"unitcell" with
  | some (.cell c) => c
  | _ => Option.none

/-- poscar.py:142-172 `_from_dict`. Simplification: a missing or wrongly typed cell raises `LinAlgError`. -/
def fromDict (e : Entries) : Res Entries :=
  lookup e c!"sites" >>= fun w => match w with
    | .sites l => Res.mapM' (convertElem (cellOf e)) l >>= fun l' => .ok (e.set c!"sites" (.sites l'))
    | .str [] => .ok e
    | _ => .raise .typeError

/-- The arguments of `Poscar(...)` that name a source; `path` is `some none` if there is no such file. -/
structure Sources where
  string : Option Str := Option.none
  dict : Option Entries := Option.none
  path : Option (Option Str) := Option.none
  handler : Option Str := Option.none

/-- poscar.py:122-131 `_from_file`. -/
def fromFile (s : Sources) : Res Entries :=
  match s.handler with
  | some t => fromList (readlines t)
  | Option.none => match s.path with
    | some (some t) => fromList (readlines t)
    | some Option.none => .exit 14
    | Option.none => .raise .typeError   -- not called in this case

/-- poscar.py:83-97 the guards. -/
def guards (s : Sources) : Bool :=
  ((s.string.isSome && s.dict.isSome) || (s.string.isSome && s.path.isSome) ||
    (s.dict.isSome && s.path.isSome && s.handler.isSome)) ||
  (!s.string.isSome && !s.dict.isSome && !s.path.isSome && !s.handler.isSome)

/-- poscar.py:106-112: a file replaces the dictionary, a string replaces both. -/
def load (s : Sources) : Res Entries :=
  (if s.path.isSome || s.handler.isSome then fromFile s
   else match s.dict with
     | some d => .ok d
     | Option.none => .ok []) >>= fun d =>
  match s.string with
  | some t => fromList (splitlinesKeep t)
  | Option.none => .ok d

/-- poscar.py:36-120 `Poscar.__init__`. -/
def init (s : Sources) : Res Entries :=
  if guards s then .exit 10
  else load s >>= fun d => fromDict d >>= fun e => validate e >>= fun _ => .ok e

/-! ### editing -/

/-- poscar.py:390-398 the check belonging to an entry. -/
def checkEntry (e : Entries) (entry : Str) (v : Val) : Res Unit :=
  if entry = c!"sites" then checkSites e v
  else if entry = c!"comment" then checkComment e v
  else if entry = c!"unitcell" then checkCell e v
  else .ok ()

/-- poscar.py:358-400 `modify(entry, value)`. -/
def modify (e : Entries) (entry : Str) (v : Val) : Res Entries :=
  checkAllowed entry >>= fun _ => checkEntry e entry v >>= fun _ => .ok (e.set entry v)

/-- poscar.py:378-389 `modify(entry, value, site_number)`, with `value` a `Site`, another object or `None` (which is stored as
something that is not a `Site`). -/
def modifySite (e : Entries) (entry : Str) (v : Option Elem) (n : Int) : Res Entries :=
  checkAllowed entry >>= fun _ => checkSite e v >>= fun _ => checkSiteNumber e n >>= fun _ =>
  lookup e c!"sites" >>= fun w => match w with
    | .sites l => match pyIndex n l.length with
      | some i => .ok (e.set c!"sites" (.sites (l.set i (v.getD .other))))
      | Option.none => .raise .indexError
    | _ => .raise .typeError

/-- poscar.py:402-417 `delete_site`. -/
def deleteSite (e : Entries) (n : Int) : Res Entries :=
  checkSites e .none >>= fun _ => checkSiteNumber e n >>= fun _ =>
  lookup e c!"sites" >>= fun w => match w with
    | .sites l => match pyIndex n l.length with
      | some i => .ok (e.set c!"sites" (.sites (l.eraseIdx i)))
      | Option.none => .raise .indexError
    | _ => .raise .typeError

/-- poscar.py:740-762 `get`: stored values have no `get_value` method; only `KeyError` is caught. -/
def get (e : Entries) (tag : Str) : Res (Option Val) :=
  match e.get? tag with
  | some _ => .raise .attributeError
  | Option.none => .ok Option.none

/-- poscar.py:713-738 `_to_cart` for a 3x3 cell; cells of another shape are not modelled. -/
def toCart (v : Vec) (c : Option Cell) : Res Vec :=
  match c with
  | some m => .ok (dirToCart v m)
  | Option.none => .raise .outOfModel

/-- poscar.py:783-801, one site of `get_dict`. -/
def siteToDict (direct : Bool) (c : Option Cell) : Elem → Res Elem
  | .site s =>
    if direct then .ok (.dict ⟨capitalize s.getSpecie, s.position, s.selective, s.velocities, s.predictors, s.direct⟩)
    else
      toCart s.position c >>= fun p =>
      match s.velocities with
      | some v => toCart v c >>= fun v' => .ok (.dict ⟨capitalize s.getSpecie, p, s.selective, some v', s.predictors, false⟩)
      | Option.none => .ok (.dict ⟨capitalize s.getSpecie, p, s.selective, Option.none, s.predictors, false⟩)
  | _ => .raise .attributeError

/-- poscar.py:778-804, one entry of `get_dict`. -/
def entryToDict (direct : Bool) (c : Option Cell) (kv : Str × Val) : Res (Str × Val) :=
  if kv.1 = c!"sites" then
    match kv.2 with
    | .sites l => Res.mapM' (siteToDict direct c) l >>= fun l' => .ok (kv.1, Val.sites l')
    | _ => .raise .typeError
  else .ok kv

/-- poscar.py:764-806 `get_dict`. -/
def getDict (e : Entries) (direct : Bool) : Res Entries := Res.mapM' (entryToDict direct (cellOf e)) e

/-! ### writing -/

/-- Insert before the first element with a key that is not smaller. -/
def insertBy {α} (key : α → Nat) (x : α) : List α → List α
  | [] => [x]
  | y :: ys => if key x ≤ key y then x :: y :: ys else y :: insertBy key x ys

/-- Python `sorted(l, key=key)`: stable. -/
def sortBy {α} (key : α → Nat) (l : List α) : List α := l.foldr (insertBy key) []

/-- Keys of `collections.Counter(l)`: distinct elements in order of first appearance. -/
def uniques : List Str → List Str
  | [] => []
  | x :: xs => x :: (uniques xs).filter (· != x)

/-- poscar.py:667-678: consecutive equal species are counted together. -/
def runs : List Str → List (Str × Nat) → List (Str × Nat)
  | [], acc => acc.reverse
  | s :: ss, (t, n) :: acc => if t = s then runs ss ((t, n + 1) :: acc) else runs ss ((s, 1) :: (t, n) :: acc)
  | s :: ss, [] => runs ss [(s, 1)]

/-- Result of `_sort_and_group_sites`. -/
structure Grouped where
  sites : List Site
  species : List Str
  nums : List Nat
  selective : Bool
  velocities : Bool
  predictors : Bool
  deriving DecidableEq, Repr

/-- Is some flag `False`? -/
def Site.frozen (s : Site) : Bool := !s.selective.1 || !s.selective.2.1 || !s.selective.2.2

/-- poscar.py:622-643, one site: only direct `Site` objects can be written. -/
def takeSite : Elem → Res Site
  | .site s => if s.direct then .ok s else .exit 306
  | _ => .raise .attributeError

/-- poscar.py:645-679 ordering and grouping. -/
def group (conserve : Bool) (sites : List Site) : Grouped :=
  let species := sites.map Site.getSpecie
  let sel := sites.any Site.frozen
  let vel := sites.any (·.velocities.isSome)
  let pred := sites.any (·.predictors.isSome)
  if conserve then
    let r := runs species []
    ⟨sites, r.map Prod.fst, r.map Prod.snd, sel, vel, pred⟩
  else
    let keys := sortBy (fun k => species.count k) (uniques species)
    ⟨keys.flatMap fun k => sites.filter fun s => k == s.getSpecie, keys, keys.map fun k => species.count k, sel, vel, pred⟩

/-- poscar.py:599-679 `_sort_and_group_sites`. -/
def sortAndGroup (conserve : Bool) (e : Entries) : Res Grouped :=
  lookup e c!"sites" >>= fun w => match w with
    | .sites l => Res.mapM' takeSite l >>= fun sites => .ok (group conserve sites)
    | _ => .raise .typeError

/-- poscar.py:848-857 the compound. -/
def compound (species : List Str) (nums : List Nat) : Str :=
  c!"Compound: " ++ ((species.zip nums).flatMap fun (s, n) => capitalize s ++ (if n = 1 then [] else natStr n)) ++ ['.']

/-- poscar.py:858-863 the first line. -/
def headline (comp : Str) (comment : Val) : Str :=
  match comment with
  | .str c => if contains comp c then c!"# " ++ c else c!"# " ++ comp ++ c!" Old comment: " ++ c
  | _ => c!"# " ++ comp

/-- `'{:5s}'.format(s)`. -/
def padRight (w : Nat) (s : Str) : Str := s ++ List.replicate (w - s.length) ' '

/-- A row of numbers without newline. -/
def vecLine (prec : Nat) (v : Vec) : Str :=
  join [' '] ([v.x, v.y, v.z].map (fmtFixed (prec + 4) prec))

/-- A flag. -/
def flagStr (b : Bool) : Str := if b then ['T'] else ['F']

/-- poscar.py:893-911 one position. -/
def posLine (prec : Nat) (direct : Bool) (c : Cell) (sel : Bool) (s : Site) : Str :=
  vecLine prec (if direct then s.position else dirToCart s.position c) ++
  (if sel then [' '] ++ flagStr s.selective.1 ++ [' '] ++ flagStr s.selective.2.1 ++ [' '] ++ flagStr s.selective.2.2 else [])

/-- poscar.py:914-929 one velocity: `None` cannot be indexed. -/
def velLine (prec : Nat) (direct : Bool) (c : Cell) (s : Site) : Res Str :=
  match s.velocities with
  | some v => .ok (vecLine prec (if direct then v else dirToCart v c))
  | Option.none => .raise .typeError

/-- poscar.py:932-935 one predictor. -/
def predLine (prec : Nat) (s : Site) : Res Str :=
  match s.predictors with
  | some v => .ok (vecLine prec v)
  | Option.none => .raise .typeError

/-- Every line with a newline. -/
def withNewlines (ls : List Str) : Str := (ls.map (· ++ ['\n'])).flatten

/-- poscar.py:829-935 `_write` for a 3x3 cell. -/
def writeGrouped (prec : Nat) (direct : Bool) (comment : Val) (c : Cell) (g : Grouped) : Res Str :=
  let coords : Str := if direct then c!"Direct" else c!"Cartesian"
  (if g.velocities then Res.mapM' (velLine prec direct c) g.sites >>= fun ls => .ok (coords :: ls) else .ok []) >>= fun vs =>
  (if g.predictors then Res.mapM' (predLine prec) g.sites >>= fun ls => .ok ([] :: ls) else .ok []) >>= fun ps =>
  .ok (withNewlines (
    [headline (compound g.species g.nums) comment, fmtFixed (prec + 4) prec 1,
     vecLine prec c.a, vecLine prec c.b, vecLine prec c.c,
     rstrip (g.species.flatMap fun s => padRight 5 (capitalize s) ++ [' ']),
     rstrip (g.nums.flatMap fun (n : Nat) => fmtInt 5 n ++ [' '])] ++
    (if g.selective then [c!"Selective dynamics"] else []) ++ [coords] ++
    g.sites.map (posLine prec direct c g.selective) ++ vs ++ ps))

/-- poscar.py:829-935 `_write` (the text of a write that returns normally). -/
def write (prec : Nat) (conserve direct : Bool) (e : Entries) : Res Str :=
  validate e >>= fun _ =>
  lookup e c!"comment" >>= fun comment =>
  lookup e c!"unitcell" >>= fun cell =>
  sortAndGroup conserve e >>= fun g =>
  match cell with
  | .cell (some c) => writeGrouped prec direct comment c g
  | _ => .raise .typeError   -- unreachable after `validate`

end Verif.Poscar
