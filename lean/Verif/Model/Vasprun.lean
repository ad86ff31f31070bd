import Verif.Model.Xml
import Verif.Model.Chgcar
/-!
# Model of /repo/parsevasp/vasprun.py: everything but the event driven parser

The regular parser works on the element tree lxml has built (`Verif.Xml.Node`). NumPy arrays are nested lists, floats exact rationals
(binary64 rounding is not modelled). Not modelled: logging, lxml (including its recovery mode), `get_dict` and the other getters that return
a stored value as it is.
-/
set_option autoImplicit false
namespace Verif.Vasprun
open Verif Verif.Utils Verif.Xml
open Verif.Kpoints (idx toFloat toInt)
open Verif.Chgcar (chunks)

/-- A two-dimensional array. -/
abbrev Table := List (List Rat)

/-! ### conversions -/

/-- `np.fromstring(text, sep=' ')` on the words of a text: it stops at a word that begins with a `*`. Words that are neither numbers nor begin with
a `*` are not described (there `fromstring` may stop inside the word). -/
def fromWords : List Str → Res (List Rat)
  | [] => .ok []
  | w :: ws =>
    if startsWith ['*'] w then .ok []
    else match pyFloatRat w with
      | some x => if '_' ∈ w then .raise .outOfModel else fromWords ws >>= fun xs => .ok (x :: xs)
      | none => .raise .outOfModel

/-- vasprun.py:2679, 2742, 2777 `np.fromstring(element.text, sep=' ')`; `None` is a `TypeError`. -/
def fromText (e : Node) : Res (List Rat) :=
  match e.text with
  | none => .raise .typeError
  | some s => fromWords (words s)

/-- vasprun.py:2629-2656 `_convert_array_i`; only plain whole numbers are described. -/
def convertArrayI (e : Node) : Res (List Int) :=
  match e.text with
  | none => .raise .typeError
  | some s => Res.mapM' (fun w => match pyInt w with
      | some i => .ok i
      | none => .raise .outOfModel) (words s)

/-- vasprun.py:2658-2685 `_convert_array_f`. -/
def convertArrayF (e : Node) : Res (List Rat) := fromText e

/-- vasprun.py:2739-2746 `data[index] = ...` for a number: anything but one number is "setting an array element with a sequence". -/
def single (e : Node) : Res Rat :=
  fromText e >>= fun xs => match xs with
    | [x] => .ok x
    | _ => .exit 509

/-- vasprun.py:2718-2748 `_convert_array1D_f`. -/
def convert1D (es : List Node) : Res (List Rat) := Res.mapM' single es

/-- `data[index] = xs` for a row of `dim` numbers: one number is used for all, and if the sizes differ the `ValueError` ("could not broadcast") is
caught and the row keeps its zeros. -/
def fitRow (dim : Nat) (xs : List Rat) : List Rat :=
  if xs.length = dim then xs else match xs with
    | [x] => List.replicate dim x
    | _ => List.replicate dim 0

/-- vasprun.py:2750-2783 `_convert_array2D_f`. -/
def convert2D (es : List Node) (dim : Nat) : Res Table := Res.mapM' (fun e => fromText e >>= fun xs => .ok (fitRow dim xs)) es

/-- vasprun.py:2785-2808 `_convert_f`. -/
def convertF (e : Node) : Res (Option Rat) :=
  match e.text with
  | none => .ok none
  | some s => if contains c!"****" s then .exit 509 else toFloat s >>= fun x => .ok (some x)

/-- vasprun.py:2810-2833 `_convert_i`. -/
def convertI (e : Node) : Res (Option Int) :=
  match e.text with
  | none => .ok none
  | some s => if contains c!"****" s then .exit 509 else toInt s >>= fun x => .ok (some x)

/-- vasprun.py:2859 `constants.elements[entry[index].text.split()[0].lower()]`. -/
def speciesOf (e : Node) : Res Nat :=
  match e.text with
  | none => .raise .attributeError
  | some s => match words s with
    | [] => .raise .indexError
    | w :: _ => match Dict.get? elementTable (lower w) with
      | some z => .ok z
      | none => .exit 506

/-- vasprun.py:2835-2864 `_convert_species`. -/
def convertSpecies (es : List Node) : Res (List Nat) := Res.mapM' speciesOf es

/-- `l[::2]`. -/
def everyOther {α : Type} : List α → List α
  | [] => []
  | [a] => [a]
  | a :: _ :: r => a :: everyOther r

/-- `l[-n:]`. -/
def lastRows {α : Type} (n : Nat) (l : List α) : List α := if n = 0 then l else l.drop (l.length - n)

/-- `np.split(l, n)`. -/
def split {α : Type} (n : Nat) (l : List α) : Res (List (List α)) :=
  if n = 0 then .raise .zeroDivisionError
  else if l.length % n = 0 then .ok (chunks (l.length / n) n l)
  else .raise .valueError

/-- `np.swapaxes` of the first two axes; the second has `n` entries. -/
def swap {α : Type} (n : Nat) (d : List (List α)) : List (List α) := (List.range n).map fun j => d.filterMap fun r => r[j]?

/-! ### what is stored -/

/-- A value by spin: `{'total': ..}` or `{'up': .., 'down': ..}`. -/
inductive Spins (α : Type)
  | total (a : α)
  | updown (up down : α)
  deriving DecidableEq, Repr

/-- Input parameters. -/
structure Params where
  symprec : Option Rat := none
  sigma : Option Rat := none
  ismear : Option Int := none
  ispin : Option Int := none
  nbands : Option Int := none
  nelect : Option Rat := none
  system : Option Str := none
  nelm : Option Int := none
  nsw : Option Int := none
  deriving DecidableEq, Repr

/-- The density of states of one spin. -/
structure DosPart where
  total : List Rat
  integrated : List Rat
  partials : Option (List Table)
  deriving DecidableEq, Repr

/-- A density of states: keys `up`, `down` and what is under `total` (`energy`, `fermi_level` and, without spin, the density). -/
structure Dos where
  up : Option DosPart := none
  down : Option DosPart := none
  whole : Option DosPart := none
  energy : List Rat
  fermi : Option Rat
  deriving DecidableEq, Repr

/-- The three total energies, vasprun.py:31-35. -/
inductive EType
  | extrapolated | free | noEntropy
  deriving DecidableEq, Repr

/-- vasprun.py:31-35 the names in the file. -/
def EType.key : EType → Str
  | .extrapolated => c!"e_0_energy"
  | .free => c!"e_fr_energy"
  | .noEntropy => c!"e_wo_entrp"

/-- The energies of one ionic step. -/
structure Energies where
  sc : Dict EType (List Rat) := []
  final : Dict EType (Option Rat) := []
  deriving DecidableEq, Repr

/-- The dielectric functions. -/
structure Diel where
  energy : Option (List Rat)
  imag : Option Table
  real : Option Table
  epsilon : Option Table
  epsilonIon : Option Table
  deriving DecidableEq, Repr

/-- Born charges; without known species `_fetch_bornw` returns a tuple of `None`. -/
inductive Born
  | charges (c : List Table)
  | nones
  deriving DecidableEq, Repr

/-- One of the four quantities kept for every ionic step; a stored `None` is `none`. -/
abbrev Steps := Dict Nat (Option Table)

/-- Everything that is read. -/
structure Data where
  version : Option Str := none
  params : Params := {}
  species : Option (List Nat) := none
  unitcell : Option Steps := none
  positions : Option Steps := none
  forces : Option Steps := none
  stress : Option Steps := none
  kpoints : Option Table := none
  kpointsw : Option (List Rat) := none
  kpointdiv : Option (List Int) := none
  eigenvalues : Option (Spins Table) := none
  occupancies : Option (Spins Table) := none
  eigenvaluesSpecific : Option (Spins Table) := none
  kpointsSpecific : Option Table := none
  kpointswSpecific : Option (List Rat) := none
  eigenvelocities : Option (Spins (List Table)) := none
  dos : Option Dos := none
  dosSpecific : Option Dos := none
  totens : Option (Dict Nat Energies) := none
  dielectrics : Option Diel := none
  projectors : Option (Spins (List (List Table))) := none
  hessian : Option Table := none
  dynmat : Option (List Rat × Table) := none
  born : Option Born := none
  deriving DecidableEq, Repr

/-! ### extraction from lists of elements -/

/-- `None` for an empty list (`_findall`, vasprun.py:3581-3603). -/
def nonEmpty (es : List Node) : Option (List Node) := if es.isEmpty then none else some es

/-- vasprun.py:2432-2436, 2441-2445 the rows of one spin, by k-point. -/
def eigenRows (cols nk : Nat) (es : List Node) : Res (List (List (List Rat))) :=
  (if cols > 1 then convert2D es cols else convert1D es >>= fun xs => .ok (xs.map fun x => [x])) >>= fun d => split nk d

/-- Column `c` of the innermost axis. -/
def column (c : Nat) (d : List (List (List Rat))) : Table := d.map fun r => r.filterMap fun x => x[c]?

/-- vasprun.py:2450-2451 `np.swapaxes(data, 1, 2)` unless the k-points come first. -/
def bandFirst {α : Type} (kBeforeBand : Bool) (nb : Nat) (d : List (List α)) : List (List α) := if kBeforeBand then d else swap nb d

/-- vasprun.py:2381-2469 `_extract_eigenvalues`. -/
def extractEigenvalues (p : Params) (kBeforeBand : Bool) (spin1 : List Node) (spin2 : Option (List Node)) (nk : Nat) :
    Res (Spins Table × Option (Spins Table)) :=
  match p.ispin with
  | none => .exit 502
  | some _ => match p.nbands with
    | none => .exit 503
    | some nb =>
      if (spin1.length : Int) ≠ nb * nk then .exit 505
      else idx spin1 0 >>= fun e => match e.text with
        | none => .raise .attributeError
        | some s =>
          let cols := (words s).length
          eigenRows cols nk spin1 >>= fun d1 =>
          match spin2 with
          | none =>
            let a := bandFirst kBeforeBand nb.toNat d1
            .ok (.total (column 0 a), if cols > 1 then some (.total (column 1 a)) else none)
          | some es2 =>
            if (es2.length : Int) ≠ nb * nk then .exit 505
            else eigenRows cols nk es2 >>= fun d2 =>
              let a := bandFirst kBeforeBand nb.toNat d1
              let b := bandFirst kBeforeBand nb.toNat d2
              .ok (.updown (column 0 a) (column 0 b), if cols > 1 then some (.updown (column 1 a) (column 1 b)) else none)

/-- vasprun.py:2471-2538 `_extract_eigenvelocities`. -/
def extractEigenvelocities (p : Params) (kBeforeBand : Bool) (spin1 : List Node) (spin2 : Option (List Node)) (nk : Nat) :
    Res (Spins (List Table)) :=
  match p.ispin with
  | none => .exit 502
  | some _ => match p.nbands with
    | none => .exit 503
    | some nb =>
      if (spin1.length : Int) ≠ nb * nk then .exit 505
      else convert2D spin1 4 >>= fun r1 => split nk r1 >>= fun d1 =>
        match spin2 with
        | none => .ok (.total (bandFirst kBeforeBand nb.toNat d1))
        | some es2 =>
          if (es2.length : Int) ≠ nb * nk then .exit 505
          else convert2D es2 4 >>= fun r2 => split nk r2 >>= fun d2 =>
            .ok (.updown (bandFirst kBeforeBand nb.toNat d1) (bandFirst kBeforeBand nb.toNat d2))

/-- vasprun.py:2601-2603, 2608-2610 the projections of one spin by band, k-point and atom. -/
def projRows (nk nb : Nat) (es : List Node) : Res (List (List (List (List Rat)))) :=
  convert2D es 9 >>= fun r => split nk r >>= fun d =>
  Res.mapM' (fun x => split nb x) d >>= fun k => .ok (swap nb k)

/-- vasprun.py:2616-2619 the swaps of the axes for one spin: `[band][k][atom]` becomes `[atom][k][band]`, and then `[atom][band][k]` unless the
k-points come first. -/
def atomFirst (kBeforeBand : Bool) (na nk nb : Nat) (x : List (List (List (List Rat)))) : List (List Table) :=
  ((List.range na).map fun a => (List.range nk).map fun k => x.filterMap fun ks => ks[k]?.bind fun as => as[a]?).map fun y =>
    if kBeforeBand then y else swap nb y

/-- vasprun.py:2540-2627 `_extract_projectors`. -/
def extractProjectors (p : Params) (kBeforeBand : Bool) (species : Option (List Nat)) (kpoints : Option Table) (spin1 : List Node)
    (spin2 : Option (List Node)) : Res (Spins (List (List Table))) :=
  match kpoints with
  | none => .exit 504
  | some ks => match p.ispin with
    | none => .exit 502
    | some _ => match p.nbands with
      | none => .exit 503
      | some nb => match species with
        | none => .exit 503
        | some sp =>
          if (spin1.length : Int) ≠ nb * ks.length * sp.length then .exit 505
          else projRows ks.length nb.toNat spin1 >>= fun d1 =>
            match spin2 with
            | none => .ok (.total (atomFirst kBeforeBand sp.length ks.length nb.toNat d1))
            | some es2 =>
              if (es2.length : Int) ≠ nb * ks.length * sp.length then .exit 505
              else projRows ks.length nb.toNat es2 >>= fun d2 =>
                .ok (.updown (atomFirst kBeforeBand sp.length ks.length nb.toNat d1) (atomFirst kBeforeBand sp.length ks.length nb.toNat d2))

/-- `a[:, c]`. -/
def tableColumn (c : Nat) (d : Table) : List Rat := d.filterMap fun r => r[c]?

/-- vasprun.py:2164-2166, 2174-2176, 2191-2193 (and 474-485, 540-551) partial densities: 10 columns, the first is dropped, one block for each atom. -/
def partialDos (na : Nat) (es : List Node) : Res (List Table) :=
  convert2D es 10 >>= fun d => split na (d.map fun r => r.drop 1)

/-- vasprun.py:2163-2168, 2173-2178, 2190-2195 the partial part, if there are elements. -/
def partialOf (na : Nat) (es : Option (List Node)) : Res (Option (List Table)) :=
  match es with
  | none => .ok none
  | some l => if l.isEmpty then .ok none else partialDos na l >>= fun x => .ok (some x)

/-- vasprun.py:2121-2199 `_extract_dos`. The four lists are not empty or `None`. -/
def extractDos (t1 : List Node) (t2 p1 p2 : Option (List Node)) (fermi : Option Rat) (na : Nat) : Res Dos :=
  match t2 with
  | some l2 =>
    convert2D t1 3 >>= fun d1 => partialOf na p1 >>= fun q1 =>
    convert2D l2 3 >>= fun d2 => partialOf na p2 >>= fun q2 =>
    .ok { up := some ⟨tableColumn 1 d1, tableColumn 2 d1, q1⟩, down := some ⟨tableColumn 1 d2, tableColumn 2 d2, q2⟩,
          energy := tableColumn 0 d1, fermi := fermi }
  | none =>
    convert2D t1 3 >>= fun d1 => partialOf na p1 >>= fun q1 =>
    .ok { whole := some ⟨tableColumn 1 d1, tableColumn 2 d1, q1⟩, energy := tableColumn 0 d1, fermi := fermi }

/-! ### the regular parser -/

/-- vasprun.py:1095-1403 an input parameter: the first element found. -/
def fetch {α : Type} (conv : Node → Res (Option α)) (es : List Node) : Res (Option α) :=
  match es with
  | [] => .ok none
  | e :: _ => conv e

/-- `entry.text`. -/
def textOf (e : Node) : Res (Option Str) := .ok e.text

/-- vasprun.py:1095-1403 the input parameters. -/
def fetchParams (root : Node) : Res Params :=
  fetch convertF (findAny root (t c!"parameters") [tn c!"separator" c!"symmetry", tn c!"i" c!"SYMPREC"]) >>= fun symprec =>
  fetch convertF (findAny root (t c!"parameters") [tn c!"separator" c!"electronic", tn c!"separator" c!"electronic smearing",
    tn c!"i" c!"SIGMA"]) >>= fun sigma =>
  fetch convertI (findAny root (t c!"parameters") [tn c!"separator" c!"electronic", tn c!"separator" c!"electronic smearing",
    tn c!"i" c!"ISMEAR"]) >>= fun ismear =>
  fetch convertI (findAny root (t c!"parameters") [tn c!"separator" c!"electronic", tn c!"separator" c!"electronic spin",
    tn c!"i" c!"ISPIN"]) >>= fun ispin =>
  fetch convertI (findAny root (t c!"parameters") [tn c!"separator" c!"electronic", tn c!"i" c!"NBANDS"]) >>= fun nbands =>
  fetch convertF (findAny root (t c!"parameters") [tn c!"separator" c!"electronic", tn c!"i" c!"NELECT"]) >>= fun nelect =>
  fetch textOf (findAny root (t c!"parameters") [tn c!"separator" c!"general", tn c!"i" c!"SYSTEM"]) >>= fun system =>
  fetch convertI (findAny root (t c!"parameters") [tn c!"separator" c!"electronic", tn c!"separator" c!"electronic convergence",
    tn c!"i" c!"NELM"]) >>= fun nelm =>
  fetch convertI (findAny root (t c!"parameters") [tn c!"separator" c!"ionic", tn c!"i" c!"NSW"]) >>= fun nsw =>
  .ok ⟨symprec, sigma, ismear, ispin, nbands, nelect, system, nelm, nsw⟩

/-- vasprun.py:1095-1122 `_fetch_versionw`. -/
def fetchVersion (root : Node) : Option Str :=
  match findAny root (t c!"generator") [tn c!"i" c!"version"] with
  | [] => none
  | e :: _ => e.text

/-- vasprun.py:1615-1640 `_fetch_speciesw`. -/
def fetchSpecies (root : Node) : Res (Option (List Nat)) :=
  match findAny root (t c!"atominfo") [tn c!"array" c!"atoms", t c!"set", t c!"rc", t c!"c"] with
  | [] => .ok none
  | e => convertSpecies (everyOther e) >>= fun s => .ok (some s)

/-- A conversion of a possibly missing list of elements: `None` if missing. -/
def opt {α : Type} (f : List Node → Res α) (es : List Node) : Res (Option α) :=
  match es with
  | [] => .ok none
  | e => f e >>= fun x => .ok (some x)

/-- vasprun.py:1600-1611: if the second entry is `None` it is the first. -/
def sameIfMissing (d : Steps) : Steps :=
  match d.get? 2 with
  | some (some _) => d
  | _ => d.set 2 ((d.get? 1).join)

/-- vasprun.py:1585-1595 the loop over the further steps for one quantity: `m` rows for each step. -/
def furtherSteps (m : Nat) (es : List Node) : List Nat → Steps → Res Steps
  | [], d => .ok d
  | i :: r, d => convert2D ((es.drop (i * m)).take m) 3 >>= fun x => furtherSteps m es r (d.set (i + 1) (some x))

/-- vasprun.py:1539-1595, 1600-1611 one quantity with `m` rows for each of `n` steps, all steps wanted; `more`: the loop is run. The four
quantities are converted one after the other here; a conversion that fails raises a `TypeError` anyway. -/
def allSteps (m n : Nat) (more : Bool) (es : List Node) : Res Steps :=
  opt (fun e => convert2D (e.take m) 3) es >>= fun a =>
  (if es.length > 3 then convert2D (lastRows m es) 3 >>= fun x => .ok (some x) else .ok none) >>= fun b =>
  (if more && !es.isEmpty then furtherSteps m es ((List.range n).drop 1) [(1, a), (2, b)] else .ok [(1, a), (2, b)]) >>= fun d =>
  .ok (sameIfMissing d)

/-- vasprun.py:1506-1521, 1600-1611 first and last step only: the stress and the forces. -/
def firstLast (m : Nat) (es : List Node) : Res Steps :=
  opt (fun e => convert2D (e.take m) 3) es >>= fun a => opt (fun e => convert2D (lastRows m e) 3) es >>= fun b =>
  .ok (sameIfMissing [(1, a), (2, b)])

/-- vasprun.py:1485-1504, 1600-1611 first and last structure. -/
def initialFinal (first last : List Node) : Res Steps :=
  opt (fun e => convert2D e 3) last >>= fun b => opt (fun e => convert2D e 3) first >>= fun a => .ok (sameIfMissing [(2, b), (1, a)])

/-- The rows of a quantity in all ionic steps. -/
def stepRows (root : Node) (ss : List Step) : List Node := findAny root (t c!"calculation") ss

/-- vasprun.py:1444-1613 `_fetch_upfsw`: unit cell, positions, forces and stress. -/
def fetchUpfs (root : Node) (species : Option (List Nat)) (extractAll : Bool) :
    Res (Option Steps × Option Steps × Option Steps × Option Steps) :=
  match species with
  | none => .ok (none, none, none, none)
  | some sp =>
    let na := sp.length
    let force := stepRows root [tn c!"varray" c!"forces", t c!"v"]
    let stress := stepRows root [tn c!"varray" c!"stress", t c!"v"]
    if !extractAll then
      initialFinal (findAny root (tn c!"structure" c!"initialpos") [t c!"crystal", tn c!"varray" c!"basis", t c!"v"])
        (findAny root (tn c!"structure" c!"finalpos") [t c!"crystal", tn c!"varray" c!"basis", t c!"v"]) >>= fun c =>
      initialFinal (findAny root (tn c!"structure" c!"initialpos") [tn c!"varray" c!"positions", t c!"v"])
        (findAny root (tn c!"structure" c!"finalpos") [tn c!"varray" c!"positions", t c!"v"]) >>= fun p =>
      firstLast 3 stress >>= fun s => firstLast na force >>= fun f => .ok (some c, some p, some f, some s)
    else
      let cell := stepRows root [t c!"structure", t c!"crystal", tn c!"varray" c!"basis", t c!"v"]
      let pos := stepRows root [t c!"structure", tn c!"varray" c!"positions", t c!"v"]
      let n := (stepRows root [t c!"structure"]).length
      if n = 0 then .ok (none, none, none, none)
      else
        let more := decide (max stress.length (max force.length (max cell.length pos.length)) > 6)
        allSteps 3 n more cell >>= fun c => allSteps na n more pos >>= fun p => allSteps na n more force >>= fun f =>
        allSteps 3 n more stress >>= fun s => .ok (some c, some p, some f, some s)

/-- vasprun.py:1803-1835 `_fetch_eigenvaluesw`; `len(None)` is a `TypeError`. -/
def fetchEigenvalues (root : Node) (p : Params) (kBeforeBand : Bool) (kpoints : Option Table) :
    Res (Option (Spins Table) × Option (Spins Table)) :=
  let path (spin : Str) := findAny root (t c!"calculation") [t c!"eigenvalues", t c!"array", t c!"set", tc c!"set" spin, t c!"set", t c!"r"]
  match path c!"spin 1" with
  | [] => .ok (none, none)
  | s1 => match kpoints with
    | none => .raise .typeError
    | some ks => extractEigenvalues p kBeforeBand s1 (nonEmpty (path c!"spin 2")) ks.length >>= fun r => .ok (some r.1, r.2)

/-- The k-points and weights belonging to special eigenvalues. -/
structure Special (α : Type) where
  kpoints : Option Table
  kpointsw : Option (List Rat)
  value : α

/-- vasprun.py:1837-1885 `_fetch_eigenvalues_specificw`; `none` if there are no such eigenvalues. -/
def fetchEigenvaluesSpecific (root : Node) (p : Params) (kBeforeBand : Bool) : Res (Option (Special (Spins Table))) :=
  let path (spin : Str) := findAny root (t c!"calculation")
    [t c!"eigenvalues", t c!"eigenvalues", t c!"array", t c!"set", tc c!"set" spin, t c!"set", t c!"r"]
  match path c!"spin 1" with
  | [] => .ok none
  | s1 =>
    opt (fun e => convert2D e 3) (findAny root (t c!"calculation") [t c!"eigenvalues", t c!"kpoints", tn c!"varray" c!"kpointlist", t c!"v"]) >>= fun ks =>
    opt convert1D (findAny root (t c!"calculation") [t c!"eigenvalues", t c!"kpoints", tn c!"varray" c!"weights", t c!"v"]) >>= fun ws =>
    match ks with
    | none => .raise .typeError
    | some k => extractEigenvalues p kBeforeBand s1 (nonEmpty (path c!"spin 2")) k.length >>= fun r => .ok (some ⟨ks, ws, r.1⟩)

/-- vasprun.py:1887-1938 `_fetch_eigenvelocitiesw`; `none` if there are none. -/
def fetchEigenvelocities (root : Node) (p : Params) (kBeforeBand : Bool) : Res (Option (Special (Spins (List Table)))) :=
  let path (spin : Str) := findAny root (t c!"calculation")
    [t c!"eigenvelocities", t c!"eigenvalues", t c!"array", t c!"set", tc c!"set" spin, t c!"set", t c!"r"]
  match path c!"spin 1" with
  | [] => .ok none
  | s1 =>
    opt (fun e => convert2D e 3) (findAny root (t c!"calculation") [t c!"eigenvelocities", t c!"kpoints", tn c!"varray" c!"kpointlist", t c!"v"]) >>= fun ks =>
    opt convert1D (findAny root (t c!"calculation") [t c!"eigenvelocities", t c!"kpoints", tn c!"varray" c!"weights", t c!"v"]) >>= fun ws =>
    match ks with
    | none => .raise .typeError
    | some k => extractEigenvelocities p kBeforeBand s1 (nonEmpty (path c!"spin 2")) k.length >>= fun r => .ok (some ⟨ks, ws, r⟩)

/-- vasprun.py:1940-1970 `_fetch_projectorsw`. -/
def fetchProjectors (root : Node) (p : Params) (kBeforeBand : Bool) (species : Option (List Nat)) (kpoints : Option Table) :
    Res (Option (Spins (List (List Table)))) :=
  let path (spin : Str) := findAny root (t c!"calculation")
    [t c!"projected", t c!"array", t c!"set", tc c!"set" spin, t c!"set", t c!"set", t c!"r"]
  match path c!"spin1" with
  | [] => .ok none
  | s1 => extractProjectors p kBeforeBand species kpoints s1 (nonEmpty (path c!"spin2")) >>= fun r => .ok (some r)

/-- vasprun.py:2009-2022 the energies of one type in one ionic step, `none` if a list is missing. -/
def fetchEnergy (step : Node) (e : EType) : Res (Option (List Rat × Option Rat)) :=
  match findAny step (t c!"scstep") [t c!"energy", tn c!"i" e.key] with
  | [] => .ok none
  | sc => convert1D sc >>= fun xs => match findRel step [t c!"energy", tn c!"i" e.key] with
    | [] => .ok none
    | f :: _ => convertF f >>= fun y => .ok (some (xs, y))

/-- vasprun.py:2007-2023 the energies of one ionic step. -/
def fetchStepEnergies (step : Node) : List EType → Res (Option Energies)
  | [] => .ok (some {})
  | e :: es => fetchEnergy step e >>= fun r => match r with
    | none => .ok none
    | some (xs, y) => fetchStepEnergies step es >>= fun r => match r with
      | none => .ok none
      | some m => .ok (some ⟨(e, xs) :: m.sc, (e, y) :: m.final⟩)

/-- vasprun.py:2004-2025 all ionic steps, numbered from `i`. -/
def fetchAllEnergies : Nat → List Node → Res (Option (Dict Nat Energies))
  | _, [] => .ok (some [])
  | i, c :: cs => fetchStepEnergies c [.extrapolated, .free, .noEntropy] >>= fun r => match r with
    | none => .ok none
    | some e => fetchAllEnergies (i + 1) cs >>= fun r => match r with
      | none => .ok none
      | some m => .ok (some ((i, e) :: m))

/-- vasprun.py:1972-2025 `_fetch_totensw`. -/
def fetchTotens (root : Node) : Res (Option (Dict Nat Energies)) :=
  match findAny root (t c!"calculation") [] with
  | [] => .ok none
  | cs => fetchAllEnergies 1 cs

/-- vasprun.py:2044-2080 and 2082-2117 one density of states; `d` is the step for the tag `dos`. -/
def fetchOneDos (root : Node) (d : Step) (na : Option Nat) : Res (Option Dos) :=
  fetch convertF (findAny root (t c!"calculation") [d, tn c!"i" c!"efermi"]) >>= fun fermi =>
  let total (spin : Str) := findAny root (t c!"calculation") [d, t c!"total", t c!"array", t c!"set", tc c!"set" spin, t c!"r"]
  let part (spin : Str) := findAny root (t c!"calculation") [d, t c!"partial", t c!"array", t c!"set", t c!"set", tc c!"set" spin, t c!"r"]
  match total c!"spin 1" with
  | [] => .ok none
  | t1 => match na with
    | none => .ok none
    | some n => extractDos t1 (nonEmpty (total c!"spin 2")) (nonEmpty (part c!"spin 1")) (nonEmpty (part c!"spin 2")) fermi n >>= fun x =>
      .ok (some x)

/-- vasprun.py:2027-2119 `_fetch_dosw`: the densities of all `dos` elements, and those of the interpolated ones (only looked for if the first
is found). -/
def fetchDos (root : Node) (species : Option (List Nat)) : Res (Option Dos × Option Dos) :=
  fetchOneDos root (t c!"dos") (species.map List.length) >>= fun d => match d with
    | none => .ok (none, none)
    | some d => fetchOneDos root (tc c!"dos" c!"interpolated") (species.map List.length) >>= fun s => .ok (some d, s)

/-- vasprun.py:2201-2306 `_fetch_dielectricsw` with its default arguments. -/
def fetchDielectrics (root : Node) : Res Diel :=
  let fn (p : Str) := findAny root (t c!"calculation") [t c!"dielectricfunction", t p, t c!"array", t c!"set", t c!"r"]
  opt (fun e => convert2D e 7) (fn c!"imag") >>= fun im =>
  opt (fun e => convert2D e 7) (fn c!"real") >>= fun re =>
  opt (fun e => convert2D e 3) (findAny root (t c!"calculation") [tn c!"varray" c!"epsilon", t c!"v"]) >>= fun eps =>
  opt (fun e => convert2D e 3) (findAny root (t c!"calculation") [tn c!"varray" c!"epsilon_ion", t c!"v"]) >>= fun ion =>
  .ok ⟨im.map (tableColumn 0), im.map fun d => d.map (List.drop 1), re.map fun d => d.map (List.drop 1), eps, ion⟩

/-- vasprun.py:1642-1675 `_fetch_hessian`. -/
def fetchHessian (root : Node) (species : Option (List Nat)) : Res (Option Table) :=
  match findAny root (t c!"calculation") [t c!"dynmat", tn c!"varray" c!"hessian", t c!"v"] with
  | [] => .ok none
  | e => match species with
    | none => .ok none
    | some sp => convert2D e (sp.length * 3) >>= fun x => .ok (some x)

/-- vasprun.py:1677-1720 `_fetch_dynmatw`. -/
def fetchDynmat (root : Node) (species : Option (List Nat)) : Res (Option (List Rat × Table)) :=
  match findAny root (t c!"calculation") [t c!"dynmat", tn c!"v" c!"eigenvalues"] with
  | [] => .ok none
  | e :: _ => match species with
    | none => .ok none
    | some sp => convertArrayF e >>= fun ev =>
      match findAny root (t c!"calculation") [t c!"dynmat", tn c!"varray" c!"eigenvectors"] with
      | [] => .ok none
      | v :: _ => convert2D v.children (sp.length * 3) >>= fun x => .ok (some (ev, x))

/-- vasprun.py:1405-1442 `_fetch_bornw`. -/
def fetchBorn (root : Node) (species : Option (List Nat)) : Res (Option Born) :=
  match findAny root (t c!"calculation") [tn c!"array" c!"born_charges", t c!"set", t c!"v"] with
  | [] => .ok none
  | e => match species with
    | none => .ok (some .nones)
    | some sp => convert2D e 3 >>= fun x => split sp.length x >>= fun b => .ok (some (.charges b))

/-- vasprun.py:1869-1877, 1926-1934 the stored k-points of special eigenvalues: the later ones win. -/
def specialKpoints (vel : Option (Special (Spins (List Table)))) (spec : Option (Special (Spins Table))) : Option Table × Option (List Rat) :=
  match vel with
  | some v => (v.kpoints, v.kpointsw)
  | none => match spec with
    | some s => (s.kpoints, s.kpointsw)
    | none => (none, none)

/-- vasprun.py:1778-1801 `_fetch_kpointdivw`. -/
def fetchDivisions (root : Node) : Res (Option (List Int)) :=
  match findRel root [t c!"kpoints", t c!"generation", tn c!"v" c!"divisions"] with
  | [] => .ok none
  | e :: _ => convertArrayI e >>= fun x => .ok (some x)

/-- vasprun.py:207-260 `_parsew`. -/
def parsew (root : Node) (kBeforeBand extractAll : Bool) : Res Data :=
  fetchParams root >>= fun p =>
  fetchSpecies root >>= fun sp =>
  fetchUpfs root sp extractAll >>= fun u =>
  opt (fun e => convert2D e 3) (findRel root [t c!"kpoints", tn c!"varray" c!"kpointlist", t c!"v"]) >>= fun ks =>
  opt convert1D (findRel root [t c!"kpoints", tn c!"varray" c!"weights", t c!"v"]) >>= fun ws =>
  fetchDivisions root >>= fun kdiv =>
  fetchEigenvalues root p kBeforeBand ks >>= fun eig =>
  fetchEigenvaluesSpecific root p kBeforeBand >>= fun spec =>
  fetchEigenvelocities root p kBeforeBand >>= fun vel =>
  fetchDos root sp >>= fun dos =>
  fetchTotens root >>= fun tot =>
  fetchDielectrics root >>= fun diel =>
  fetchProjectors root p kBeforeBand sp ks >>= fun proj =>
  fetchHessian root sp >>= fun hess =>
  fetchDynmat root sp >>= fun dyn =>
  fetchBorn root sp >>= fun born =>
  .ok { version := fetchVersion root, params := p, species := sp, unitcell := u.1, positions := u.2.1, forces := u.2.2.1, stress := u.2.2.2,
        kpoints := ks, kpointsw := ws, kpointdiv := kdiv, eigenvalues := eig.1, occupancies := eig.2,
        eigenvaluesSpecific := spec.map fun s => s.value, kpointsSpecific := (specialKpoints vel spec).1,
        kpointswSpecific := (specialKpoints vel spec).2,
        eigenvelocities := vel.map fun v => v.value, dos := dos.1, dosSpecific := dos.2, totens := tot, dielectrics := some diel,
        projectors := proj, hessian := hess, dynmat := dyn, born := born }

/-! ### getters -/

/-- vasprun.py:3546-3555 `_check_calc_status`. -/
def checkStatus (status : Str) : Res Unit := if status ∈ [c!"initial", c!"last", c!"all"] then .ok () else .exit 507

/-- What a getter of ionic steps returns. -/
inductive Got (α : Type)
  | nothing
  | one (a : α)
  | all (d : Dict Nat α)
  deriving DecidableEq, Repr

/-- `d[k]`. -/
def item {κ α : Type} [DecidableEq κ] (d : Dict κ α) (k : κ) : Res α :=
  match d.get? k with
  | some v => .ok v
  | none => .raise .keyError

/-- `max(d.keys())`. -/
def maxKey {α : Type} (d : Dict Nat α) : Res Nat :=
  match d.keys with
  | [] => .raise .valueError
  | k :: ks => .ok (ks.foldl max k)

/-- vasprun.py:2866-2895 `get_forces`, 2897-2927 `get_stress`, 3038-3068 `get_unitcell`, 3070-3100 `get_positions`: the same code on
different data. -/
def getSteps (d : Option Steps) (status : Str) : Res (Got (Option Table)) :=
  match d with
  | none => .ok .nothing
  | some d => checkStatus status >>= fun _ =>
    if status = c!"initial" then item d 1 >>= fun v => .ok (.one v)
    else if status = c!"last" then maxKey d >>= fun k => item d k >>= fun v => .ok (.one v)
    else .ok (.all d)

/-- One column of energies as `get_energies` returns it. -/
structure EnergyColumn where
  sc : List Rat
  final : List (Option Rat)
  steps : List Nat
  deriving DecidableEq, Repr

/-- vasprun.py:3283-3290, 3294-3301, 3312-3323 one ionic step appended: `[-1]` of an empty array is an `IndexError`. -/
def appendStep (e : EType) (nosc : Bool) (c : EnergyColumn) (s : Energies) : Res EnergyColumn :=
  item s.final e >>= fun f => item s.sc e >>= fun xs =>
  if nosc then match xs.getLast? with
    | none => .raise .indexError
    | some x => .ok ⟨c.sc ++ [x], c.final ++ [f], c.steps ++ [1]⟩
  else .ok ⟨c.sc ++ xs, c.final ++ [f], c.steps ++ [xs.length]⟩

/-- Insertion into a list sorted by key. -/
def insertKey {α : Type} (e : Nat × α) : List (Nat × α) → List (Nat × α)
  | [] => [e]
  | x :: r => if e.1 ≤ x.1 then e :: x :: r else x :: insertKey e r

/-- `sorted(d.items())`; the keys are different. -/
def sortedItems {α : Type} : Dict Nat α → List (Nat × α)
  | [] => []
  | e :: r => insertKey e (sortedItems r)

/-- vasprun.py:3274-3323 one type of energy. -/
def energyColumn (d : Dict Nat Energies) (status : Str) (nosc : Bool) (e : EType) : Res EnergyColumn :=
  if status = c!"initial" then item d 1 >>= fun s => appendStep e nosc ⟨[], [], []⟩ s
  else if status = c!"last" then maxKey d >>= fun k => item d k >>= fun s => appendStep e nosc ⟨[], [], []⟩ s
  else if status = c!"all" then Res.foldlM' (fun c s => appendStep e nosc c s.2) ⟨[], [], []⟩ (sortedItems d)
  else .ok ⟨[], [], []⟩

/-- vasprun.py:3215-3218 the names of the energies; others are a `ValueError`. -/
def eTypeOf (s : Str) : Res EType :=
  if s = c!"energy_extrapolated" then .ok .extrapolated
  else if s = c!"energy_free" then .ok .free
  else if s = c!"energy_no_entropy" then .ok .noEntropy
  else .raise .valueError

/-- What `get_energies` returns: the columns by type, and `electronic_steps`, which is that of the last type (for an empty list of types it is not
bound). -/
structure EnergyTable where
  columns : Dict EType (List Rat × List (Option Rat))
  electronicSteps : List Nat
  deriving DecidableEq, Repr

/-- vasprun.py:3267-3329 the loop over the types. -/
def energyTable (d : Dict Nat Energies) (status : Str) (nosc : Bool) : List EType → Dict EType (List Rat × List (Option Rat)) → Option (List Nat) →
    Res EnergyTable
  | [], acc, some st => .ok ⟨acc, st⟩
  | [], _, none => .raise .unboundLocalError
  | e :: es, acc, _ => energyColumn d status nosc e >>= fun c => energyTable d status nosc es (acc.set e (c.sc, c.final)) (some c.steps)

/-- vasprun.py:3167-3329 `get_energies(status, etype, nosc)`; `none` for `etype` is `None`. -/
def getEnergies (totens : Option (Dict Nat Energies)) (status : Str) (etype : Option (List Str)) (nosc : Bool) : Res (Option EnergyTable) :=
  Res.mapM' eTypeOf (etype.getD [c!"energy_extrapolated"]) >>= fun es =>
  match totens with
  | none => .ok none
  | some d => checkStatus status >>= fun _ => energyTable d status nosc es [] none >>= fun r => .ok (some r)

/-- A run of digits at the front, not empty: the run and the rest. -/
def digitsAt (s : Str) : Option (Str × Str) :=
  let p := spanP isDigit s
  if p.1 = [] then none else some p

/-- A character at the front. -/
def dotAt : Str → Option Str
  | c :: r => if c = '.' then some r else none
  | [] => none

/-- vasprun.py:3540 `(\d+)\.(\d+)\.(\d+)` at the front; a shorter run of digits is followed by a digit, so backtracking finds nothing more. -/
def versionAt (s : Str) : Option Str :=
  (digitsAt s).bind fun a => (dotAt a.2).bind fun s1 => (digitsAt s1).bind fun b => (dotAt b.2).bind fun s2 =>
  (digitsAt s2).bind fun c => some (a.1 ++ '.' :: b.1 ++ '.' :: c.1)

/-- vasprun.py:3543 `match.search(version).group(0)`. -/
def versionIn : Str → Res Str
  | [] => .raise .attributeError
  | c :: cs => match versionAt (c :: cs) with
    | some v => .ok v
    | none => versionIn cs

/-- vasprun.py:3524-3544 `get_version`. -/
def getVersion (version : Option Str) : Res Str :=
  match version with
  | none => .raise .attributeError
  | some v => versionIn (strip v)

/-! ### the file -/

/-- vasprun.py:3635-3666 `_set_xml_truncated` for a file of bytes (a character stands for a byte). -/
def truncated (file : Str) : Bool :=
  if file.length > 1024 then
    match (readlines (file.drop (file.length - 1024))).getLast? with
    | some l => !contains c!"</modeling>" l
    | none => true
  else true

/-- vasprun.py:190-205 `_parse`: is the regular parser used? The division by 1048576 is exact. -/
def regular (size : Nat) (trunc event : Bool) : Bool := (decide (size < 500 * 1048576) || trunc) && !event

/-- What stands at a path: the path may be the empty string and the file may be missing. -/
inductive Path
  | empty
  | missing
  | file (content : Str)
  deriving DecidableEq, Repr

/-- A file handler, opened in binary or in text mode. -/
inductive Handler
  | binary (content : Str)
  | text (content : Str)
  deriving DecidableEq, Repr

/-- vasprun.py:79-205 what happens before the text is handed to lxml: the file content that is read, the flag `truncated` and whether the
regular parser is used. Without source exit 510; the path `''` exits with 16; a missing file leaves the size unset, which is
an `AttributeError` later; searching bytes in a line of a text handler is a `TypeError` (only done for more than 1024 characters). A handler
is preferred. -/
def begin (path : Option Path) (handler : Option Handler) (event : Bool) : Res (Str × Bool × Bool) :=
  match handler with
  | some (.binary f) => .ok (f, truncated f, regular f.length (truncated f) event)
  | some (.text f) => if f.length > 1024 then .raise .typeError else .ok (f, true, regular f.length true event)
  | none => match path with
    | none => .exit 510
    | some .empty => .exit 16
    | some .missing => .raise .attributeError
    | some (.file f) => .ok (f, truncated f, regular f.length (truncated f) event)

end Verif.Vasprun
