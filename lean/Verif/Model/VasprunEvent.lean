import Verif.Model.Vasprun
/-!
# Model of /repo/parsevasp/vasprun.py:262-1093, the event driven parser `_parsee`

lxml's `iterparse` delivers a start and an end event for each element. Attributes and tag are known at the start event, and the element object
that is put into a list at the start event is read at an end event, when its text is complete; so the lists below hold the elements of the
finished tree. The text an element has at its own start event is what lxml has read of it so far; it is the field `seen` of an event and no
assumption is made on it here. Dictionaries that are stored and changed later (`dos` for `dos_specific`, `dynmat`) are the same object in the
code: here they are read when the parsing is finished.
-/
set_option autoImplicit false
namespace Verif.VasprunEvent
open Verif Verif.Utils Verif.Xml Verif.Vasprun
open Verif.Kpoints (toFloat)

/-- One event of `iterparse`: start (or end) of an element, its parent, and the text visible at the start event. -/
structure Event where
  start : Bool
  node : Node
  parent : Option Node
  seen : Option Str

mutual
/-- The events of an element whose parent is `p`; all text is visible at the start events. -/
def events (p : Option Node) : Node → List Event
  | .node tag attrs text cs =>
    ⟨true, .node tag attrs text cs, p, text⟩ :: (eventsAll (some (.node tag attrs text cs)) cs ++ [⟨false, .node tag attrs text cs, p, text⟩])
/-- The events of the children of an element. -/
def eventsAll (p : Option Node) : List Node → List Event
  | [] => []
  | c :: cs => events p c ++ eventsAll p cs
end

/-- vasprun.py:289-290 `_dos`, `_dos2`: one density of states being collected; `none` is a missing key. -/
structure DosMap where
  energy : Option (List Rat) := none
  total : Option (List Rat) := none
  integrated : Option (List Rat) := none
  partials : Option (Option (List Table)) := none
  fermi : Option (Option Rat) := none
  deriving DecidableEq, Repr

/-- Is the dictionary empty? -/
def DosMap.empty (d : DosMap) : Bool := decide (d = {})

/-- vasprun.py:286 `dos`: what is stored as density of states; `none` is a missing key. -/
structure DosDict where
  up : Option DosMap := none
  down : Option DosMap := none
  total : Option DosMap := none
  deriving DecidableEq, Repr

/-- vasprun.py:288 `dynmat`. -/
structure Dynmat where
  eigenvalues : Option (List Rat) := none
  eigenvectors : Option Table := none
  deriving DecidableEq, Repr

/-- vasprun.py:669-677 `_diel`. -/
structure EDiel where
  energy : List Rat
  imag : Table
  real : Table
  deriving DecidableEq, Repr

/-- vasprun.py:273-336: the lists of elements, the dictionaries for one density of states and the switches. -/
structure Ctl where
  gen : Bool := false
  par : Bool := false
  calcn : Bool := false
  lat : Bool := false
  ucell : Bool := false
  posn : Bool := false
  spec : Bool := false
  kdata : Bool := false
  kp : Bool := false
  kpw : Bool := false
  kpS : Bool := false
  kpwS : Bool := false
  eig : Bool := false
  eigS : Bool := false
  eig1 : Bool := false
  eig2 : Bool := false
  vel : Bool := false
  vel1 : Bool := false
  vel2 : Bool := false
  dos : Bool := false
  dosS : Bool := false
  dos1 : Bool := false
  dos2 : Bool := false
  dosS1 : Bool := false
  dosS2 : Bool := false
  proj : Bool := false
  forces : Bool := false
  stress : Bool := false
  en : Bool := false
  e0 : Bool := false
  efr : Bool := false
  ewo : Bool := false
  sc : Bool := false
  diel : Bool := false
  eproj : Bool := false
  eproj1 : Bool := false
  eproj2 : Bool := false
  dyn : Bool := false
  dynEig : Bool := false
  hess : Bool := false
  born : Bool := false
  data : List Node := []
  data2 : List Node := []
  data3 : List Node := []
  data4 : List Node := []
  data5 : List Node := []
  data6 : List Node := []
  part1 : DosMap := {}
  part2 : DosMap := {}

/-- What has been stored: the attributes of the object, the dictionaries by ionic step and the number of the ionic step. -/
structure Out where
  version : Option Str := none
  params : Params := {}
  species : Option (List Nat) := none
  kpoints : Option Table := none
  kpointsw : Option (List Rat) := none
  kpointdiv : Option (List Int) := none
  eigenvalues : Option (Spins Table) := none
  occupancies : Option (Spins Table) := none
  eigenvaluesSpecific : Option (Spins Table) := none
  kpointsSpecific : Option Table := none
  kpointswSpecific : Option (List Rat) := none
  eigenvelocities : Option (Spins (List Table)) := none
  dosCopy : Option DosDict := none
  dosDict : DosDict := {}
  dosSpecificSet : Bool := false
  dielectrics : Option EDiel := none
  projectors : Option (Spins (List (List Table))) := none
  hessian : Option Table := none
  dynmat : Dynmat := {}
  dynmatSet : Bool := false
  born : Option (List Table) := none
  cell : Dict Nat Table := []
  pos : Dict Nat Table := []
  force : Dict Nat Table := []
  stress : Dict Nat Table := []
  totens : Dict Nat Energies := []
  num : Nat := 1
  deriving DecidableEq, Repr

/-- The state of the parser. -/
structure St where
  c : Ctl := {}
  o : Out := {}

/-! ### helpers -/

/-- `element.attrib.get('name')`. -/
def name (n : Node) : Option Str := n.attrs.get? c!"name"
/-- `element.attrib.get('comment')`. -/
def comment (n : Node) : Option Str := n.attrs.get? c!"comment"

/-- `event == 'start' and element.tag == tag`. -/
def opens (e : Event) (tag : Str) : Bool := e.start && decide (e.node.tag = tag)
/-- `event == 'end' and element.tag == tag`. -/
def closes (e : Event) (tag : Str) : Bool := !e.start && decide (e.node.tag = tag)
/-- Start of an element with this name. -/
def opensN (e : Event) (tag v : Str) : Bool := opens e tag && decide (name e.node = some v)
/-- End of an element with this name. -/
def closesN (e : Event) (tag v : Str) : Bool := closes e tag && decide (name e.node = some v)
/-- Start of an element with this comment. -/
def opensC (e : Event) (tag v : Str) : Bool := opens e tag && decide (comment e.node = some v)
/-- End of an element with this comment. -/
def closesC (e : Event) (tag v : Str) : Bool := closes e tag && decide (comment e.node = some v)

/-- A switch that is set at one event and cleared at another. -/
def switch (old on off : Bool) : Bool := if off then false else if on then true else old

/-- `if b: if event == 'start' and element.tag == tag: list.append(element)`. -/
def collect (b : Bool) (e : Event) (tag : Str) (l : List Node) : List Node := if b && opens e tag then l ++ [e.node] else l

/-- An update that is only made if a condition holds. -/
def when (b : Bool) (f : St → Res St) (s : St) : Res St := if b then f s else .ok s

/-- Several updates one after the other. -/
def seq : List (St → Res St) → St → Res St
  | [], s => .ok s
  | f :: fs, s => f s >>= seq fs

/-- An empty second list is passed as `None`. -/
def orNone (l : List Node) : Option (List Node) := if l.isEmpty then none else some l

/-- `self._lattice['species'].shape[0]` or exit 501 (vasprun.py:479-484, 549-554, 696-701, 937-942, 952-957). -/
def numAtoms (s : St) : Res Nat :=
  match s.o.species with
  | some sp => .ok sp.length
  | none => .exit 501

/-- `len(None)` is a `TypeError`. -/
def lenOf (ks : Option Table) : Res Nat :=
  match ks with
  | some k => .ok k.length
  | none => .raise .typeError

/-! ### sections of the file: vasprun.py:353-393 -/

/-- vasprun.py:353-360 `generator` and `parameters`. -/
def headStage (e : Event) (s : St) : St :=
  { s with c.gen := switch s.c.gen (opens e c!"generator") (closes e c!"generator"),
           c.par := switch s.c.par (opens e c!"parameters") (closes e c!"parameters") }

/-- vasprun.py:366-376 the energies of the electronic steps of a finished ionic step: `totens[calc].update(..)`. -/
def storeSc (s : St) : Res St :=
  convert1D s.c.data3 >>= fun x => convert1D s.c.data4 >>= fun y => convert1D s.c.data5 >>= fun z =>
  match s.o.totens.get? s.o.num with
  | none => .raise .keyError
  | some m => .ok { s with
      o.totens := s.o.totens.set s.o.num { m with sc := ((m.sc.set .extrapolated x).set .free y).set .noEntropy z },
      o.num := s.o.num + 1, c.data3 := [], c.data4 := [], c.data5 := [], c.calcn := false }

/-- vasprun.py:361-376 start and end of an ionic step. -/
def calcStage (e : Event) (s : St) : Res St :=
  if opens e c!"calculation" then .ok { s with o.totens := s.o.totens.set s.o.num {}, c.calcn := true }
  else if closes e c!"calculation" then storeSc s
  else .ok s

/-- vasprun.py:377-385 the array `atoms`. -/
def atomsStage (e : Event) (s : St) : Res St :=
  if opensN e c!"array" c!"atoms" then .ok { s with c.spec := true }
  else if closesN e c!"array" c!"atoms" then
    convertSpecies (everyOther s.c.data) >>= fun sp => .ok { s with o.species := some sp, c.data := [], c.spec := false }
  else .ok s

/-- vasprun.py:386-393 `kpoints` outside an ionic step and `projected`. -/
def groupStage (e : Event) (s : St) : St :=
  { s with c.kdata := switch s.c.kdata (opens e c!"kpoints" && !s.c.calcn) (closes e c!"kpoints" && !s.c.calcn),
           c.proj := switch s.c.proj (opens e c!"projected") (closes e c!"projected") }

/-! ### version and parameters: vasprun.py:396-448 -/

/-- vasprun.py:396-401. -/
def versionStage (e : Event) (s : St) : St :=
  if s.c.gen && e.start && decide (name e.node = some c!"version") then { s with o.version := e.seen } else s

/-- The element as it is at its start event. -/
def asSeen (e : Event) : Node := .node e.node.tag e.node.attrs e.seen e.node.children

/-- vasprun.py:438-443 `element.getparent().attrib['name'] == 'electronic convergence'`; a missing name is a caught `KeyError`, and the root has
no parent. -/
def parentIs (e : Event) (v : Str) : Res Bool :=
  match e.parent with
  | none => .raise .attributeError
  | some p => .ok (decide (name p = some v))

/-- vasprun.py:402-448: any element with the name of a parameter, at its start. -/
def setParam (q : Params) (e : Event) : Res Params :=
  if e.start then match name e.node with
    | none => .ok q
    | some v =>
      if v = c!"SYMPREC" then convertF (asSeen e) >>= fun x => .ok { q with symprec := x }
      else if v = c!"ISPIN" then convertI (asSeen e) >>= fun x => .ok { q with ispin := x }
      else if v = c!"ISMEAR" then convertI (asSeen e) >>= fun x => .ok { q with ismear := x }
      else if v = c!"SIGMA" then convertF (asSeen e) >>= fun x => .ok { q with sigma := x }
      else if v = c!"NBANDS" then convertI (asSeen e) >>= fun x => .ok { q with nbands := x }
      else if v = c!"NELECT" then convertF (asSeen e) >>= fun x => .ok { q with nelect := x }
      else if v = c!"SYSTEM" then .ok { q with system := e.seen }
      else if v = c!"NELM" then parentIs e c!"electronic convergence" >>= fun b =>
        if b then convertI (asSeen e) >>= fun x => .ok { q with nelm := x } else .ok q
      else if v = c!"NSW" then convertI (asSeen e) >>= fun x => .ok { q with nsw := x }
      else .ok q
  else .ok q

/-- vasprun.py:402-448. -/
def paramStage (e : Event) (s : St) : Res St :=
  if s.c.par then setParam s.o.params e >>= fun q => .ok { s with o.params := q } else .ok s

/-! ### densities of states: vasprun.py:455-594 -/

/-- vasprun.py:457-477, 527-547 the end of `total`. -/
def dosTotal (s : St) : Res St :=
  convert2D s.c.data 3 >>= fun d =>
  (if s.c.data2.isEmpty then .ok s.c.part2
   else convert2D s.c.data2 3 >>= fun d2 =>
     .ok { s.c.part2 with total := some (tableColumn 1 d2), integrated := some (tableColumn 2 d2), partials := some none }) >>= fun p2 =>
  .ok { s with
    c.part1 := { s.c.part1 with energy := some (tableColumn 0 d), total := some (tableColumn 1 d), integrated := some (tableColumn 2 d),
                                partials := some none },
    c.part2 := p2, c.data := [], c.data2 := [] }

/-- vasprun.py:478-497, 548-567 the end of `partial`. -/
def dosPartial (s : St) : Res St :=
  numAtoms s >>= fun n => partialDos n s.c.data >>= fun d =>
  (if s.c.data2.isEmpty then .ok s.c.part2 else partialDos n s.c.data2 >>= fun d2 => .ok { s.c.part2 with partials := some (some d2) }) >>= fun p2 =>
  .ok { s with c.part1 := { s.c.part1 with partials := some (some d) }, c.part2 := p2, c.data := [], c.data2 := [] }

/-- vasprun.py:499-508, 569-578 the Fermi level. -/
def fermiOf (es : List Node) : Res (Option Rat) :=
  match es with
  | [] => .ok none
  | [e] => convertF e
  | _ => .exit 500

/-- vasprun.py:510-517, 580-587 the dictionary `dos` at the end of a density of states. -/
def joinDos (d : DosDict) (p1 p2 : DosMap) (fermi : Option Rat) : Res DosDict :=
  if p2.empty then .ok { d with total := some { p1 with fermi := some fermi } }
  else match p1.energy with
    | none => .raise .keyError
    | some en => .ok { up := some { p1 with energy := none }, down := some p2, total := some { fermi := some fermi, energy := some en } }

/-- vasprun.py:498-524, 568-594 the end of `dos`; `spec`: the interpolated one. -/
def dosEnd (spec : Bool) (s : St) : Res St :=
  fermiOf s.c.data6 >>= fun f => joinDos s.o.dosDict s.c.part1 s.c.part2 f >>= fun d =>
  let s := { s with o.dosDict := d, c.data := [], c.data2 := [], c.data6 := [], c.part1 := {}, c.part2 := {} }
  .ok (if spec then { s with o.dosSpecificSet := true, c.dosS := false } else { s with o.dosCopy := some d, c.dos := false })

/-- vasprun.py:455-524 the density of states without comment. -/
def dosStage (e : Event) : St → Res St :=
  seq [when (opens e c!"dos" && decide (comment e.node = none)) (fun s => .ok { s with c.dos := true }),
       fun s => when (closes e c!"total" && s.c.dos) dosTotal s,
       fun s => when (closes e c!"partial" && s.c.dos) dosPartial s,
       fun s => when (closes e c!"dos" && s.c.dos) (dosEnd false) s]

/-- vasprun.py:525-594 the interpolated density of states. -/
def dosSpecificStage (e : Event) : St → Res St :=
  seq [when (opensC e c!"dos" c!"interpolated") (fun s => .ok { s with c.dosS := true }),
       fun s => when (closes e c!"total" && s.c.dosS) dosTotal s,
       fun s => when (closes e c!"partial" && s.c.dosS) dosPartial s,
       fun s => when (closes e c!"dos" && s.c.dosS) (dosEnd true) s]

/-! ### parts of an ionic step: vasprun.py:596-709 -/

/-- vasprun.py:596-599 `structure`. -/
def structureStage (e : Event) (s : St) : St := { s with c.lat := switch s.c.lat (opens e c!"structure") (closes e c!"structure") }

/-- vasprun.py:600-615 `varray` of forces and stress; a missing name is a `KeyError`. -/
def varrayStage (e : Event) (s : St) : Res St :=
  if e.node.tag = c!"varray" then match name e.node with
    | none => .raise .keyError
    | some v =>
      if v = c!"forces" then
        if e.start then .ok { s with c.forces := true }
        else convert2D s.c.data 3 >>= fun x => .ok { s with o.force := s.o.force.set s.o.num x, c.data := [], c.forces := false }
      else if v = c!"stress" then
        if e.start then .ok { s with c.stress := true }
        else convert2D s.c.data 3 >>= fun x => .ok { s with o.stress := s.o.stress.set s.o.num x, c.data := [], c.stress := false }
      else .ok s
  else .ok s

/-- vasprun.py:616-623 `energy` outside an electronic step and `scstep`. -/
def energyStage (e : Event) (s : St) : St :=
  { s with c.en := switch s.c.en (opens e c!"energy" && !s.c.sc) (closes e c!"energy" && !s.c.sc),
           c.sc := switch s.c.sc (opens e c!"scstep") (closes e c!"scstep") }

/-- vasprun.py:629-639 the eigenvalues. -/
def eigEnd (kBeforeBand : Bool) (s : St) : Res St :=
  lenOf s.o.kpoints >>= fun nk => extractEigenvalues s.o.params kBeforeBand s.c.data (orNone s.c.data2) nk >>= fun r =>
  .ok { s with o.eigenvalues := some r.1, o.occupancies := r.2, c.data := [], c.data2 := [], c.eig := false }

/-- vasprun.py:645-654 the interpolated eigenvalues. -/
def eigSEnd (kBeforeBand : Bool) (s : St) : Res St :=
  lenOf s.o.kpointsSpecific >>= fun nk => extractEigenvalues s.o.params kBeforeBand s.c.data (orNone s.c.data2) nk >>= fun r =>
  .ok { s with o.eigenvaluesSpecific := some r.1, c.data := [], c.data2 := [], c.eigS := false }

/-- vasprun.py:657-666 the eigenvelocities. -/
def velEnd (kBeforeBand : Bool) (s : St) : Res St :=
  lenOf s.o.kpointsSpecific >>= fun nk => extractEigenvelocities s.o.params kBeforeBand s.c.data (orNone s.c.data2) nk >>= fun r =>
  .ok { s with o.eigenvelocities := some r, c.data := [], c.data2 := [], c.vel := false }

/-- vasprun.py:624-666. -/
def eigStage (kBeforeBand : Bool) (e : Event) : St → Res St :=
  seq [fun s => when (opens e c!"eigenvalues" && !s.c.vel && !decide (comment e.node = some c!"interpolated") && !s.c.eigS)
         (fun s => .ok { s with c.eig := true }) s,
       fun s => when (closes e c!"eigenvalues" && s.c.eig) (eigEnd kBeforeBand) s,
       when (opensC e c!"eigenvalues" c!"interpolated") (fun s => .ok { s with c.eigS := true }),
       fun s => when (closes e c!"eigenvalues" && s.c.eigS) (eigSEnd kBeforeBand) s,
       when (opens e c!"eigenvelocities") (fun s => .ok { s with c.vel := true }),
       when (closes e c!"eigenvelocities") (velEnd kBeforeBand)]

/-- vasprun.py:669-677 the end of `dielectricfunction`. -/
def dielEnd (s : St) : Res St :=
  convert2D s.c.data 7 >>= fun d => split 2 d >>= fun h => match h with
    | [a, b] => .ok { s with o.dielectrics := some ⟨tableColumn 0 a, a.map (List.drop 1), b.map (List.drop 1)⟩, c.data := [], c.diel := false }
    | _ => .raise .valueError

/-- vasprun.py:667-682 `dielectricfunction` and `dynmat`. -/
def responseStage (e : Event) : St → Res St :=
  seq [when (opens e c!"dielectricfunction") (fun s => .ok { s with c.diel := true }),
       when (closes e c!"dielectricfunction") dielEnd,
       when (opens e c!"dynmat") (fun s => .ok { s with c.dyn := true }),
       when (closes e c!"dynmat") (fun s => .ok { s with o.dynmatSet := true, c.dyn := false })]

/-- vasprun.py:683-708 the array `born_charges`. -/
def bornStage (e : Event) (s : St) : Res St :=
  if opensN e c!"array" c!"born_charges" then .ok { s with c.born := true }
  else if closesN e c!"array" c!"born_charges" then
    numAtoms s >>= fun n => convert2D s.c.data 3 >>= fun d => split n d >>= fun b => .ok { s with o.born := some b, c.data := [], c.born := false }
  else .ok s

/-! ### collecting the elements of an ionic step: vasprun.py:711-977 -/

/-- vasprun.py:711-738 energies of electronic steps: any element that begins while the switch is on is put into the list; a missing name of an `i`
is a `KeyError`. -/
def scStage (e : Event) (s : St) : Res St :=
  if s.c.sc then
    if e.node.tag = c!"i" ∧ name e.node = none then .raise .keyError
    else
      let e0 := switch s.c.e0 (opensN e c!"i" c!"e_0_energy") (closesN e c!"i" c!"e_0_energy")
      let efr := switch s.c.efr (opensN e c!"i" c!"e_fr_energy") (closesN e c!"i" c!"e_fr_energy")
      let ewo := switch s.c.ewo (opensN e c!"i" c!"e_wo_entrp") (closesN e c!"i" c!"e_wo_entrp")
      .ok { s with
        c.e0 := e0, c.efr := efr, c.ewo := ewo,
        c.data3 := if e0 then s.c.data3 ++ [e.node] else s.c.data3,
        c.data4 := if efr then s.c.data4 ++ [e.node] else s.c.data4,
        c.data5 := if ewo then s.c.data5 ++ [e.node] else s.c.data5 }
  else .ok s

/-- vasprun.py:739-763 unit cell and positions. -/
def latticeStage (e : Event) : St → Res St := fun s => when s.c.lat (seq
  [when (opensN e c!"varray" c!"basis") (fun s => .ok { s with c.ucell := true }),
   when (closesN e c!"varray" c!"basis") (fun s => convert2D s.c.data 3 >>= fun x =>
     .ok { s with o.cell := s.o.cell.set s.o.num x, c.data := [], c.ucell := false }),
   when (opensN e c!"varray" c!"positions") (fun s => .ok { s with c.posn := true }),
   when (closesN e c!"varray" c!"positions") (fun s => convert2D s.c.data 3 >>= fun x =>
     .ok { s with o.pos := s.o.pos.set s.o.num x, c.data := [], c.posn := false }),
   fun s => .ok { s with c.data := collect s.c.ucell e c!"v" s.c.data },
   fun s => .ok { s with c.data := collect s.c.posn e c!"v" s.c.data }]) s

/-- vasprun.py:765-771 rows of forces and stress. -/
def forceRows (e : Event) (s : St) : St :=
  let d := collect s.c.forces e c!"v" s.c.data
  { s with c.data := collect s.c.stress e c!"v" d }

/-- The type of an energy by its name in the file. -/
def typeOf (v : Str) : Option EType :=
  if v = c!"e_0_energy" then some .extrapolated
  else if v = c!"e_fr_energy" then some .free
  else if v = c!"e_wo_entrp" then some .noEntropy
  else none

/-- `totens[calc].update({..: x})`. -/
def storeFinal (ty : EType) (x : Rat) (s : St) : Res St :=
  match s.o.totens.get? s.o.num with
  | none => .raise .keyError
  | some m => .ok { s with o.totens := s.o.totens.set s.o.num { m with final := m.final.set ty (some x) } }

/-- vasprun.py:773-785 final energies: `float(element.text)` at the start event. -/
def finalStage (e : Event) (s : St) : Res St :=
  if s.c.en && opens e c!"i" then match name e.node with
    | none => .raise .keyError
    | some v => match typeOf v with
      | none => .ok s
      | some ty => match e.seen with
        | none => .raise .typeError
        | some x => toFloat x >>= fun y => storeFinal ty y s
  else .ok s

/-- vasprun.py:787-805 rows of eigenvalues. -/
def eigRows (e : Event) (s : St) : St :=
  if s.c.eig then
    let a := switch s.c.eig1 (opensC e c!"set" c!"spin 1") (closesC e c!"set" c!"spin 1")
    let b := switch s.c.eig2 (opensC e c!"set" c!"spin 2") (closesC e c!"set" c!"spin 2")
    { s with c.eig1 := a, c.eig2 := b, c.data := collect a e c!"r" s.c.data, c.data2 := collect b e c!"r" s.c.data2 }
  else s

/-- vasprun.py:808-823, 850-865 k-points and weights that belong to special eigenvalues. -/
def specialStage (e : Event) : St → Res St := seq
  [when (opensN e c!"varray" c!"kpointlist") (fun s => .ok { s with c.kpS := true }),
   when (closesN e c!"varray" c!"kpointlist") (fun s => convert2D s.c.data 3 >>= fun x =>
     .ok { s with o.kpointsSpecific := some x, c.data := [], c.kpS := false }),
   when (opensN e c!"varray" c!"weights") (fun s => .ok { s with c.kpwS := true }),
   when (closesN e c!"varray" c!"weights") (fun s => convert1D s.c.data >>= fun x =>
     .ok { s with o.kpointswSpecific := some x, c.data := [], c.kpwS := false })]

/-- vasprun.py:836-841, 878-883 rows of k-points and weights. -/
def specialRows (e : Event) (s : St) : St :=
  let d := collect s.c.kpS e c!"v" s.c.data
  { s with c.data := collect s.c.kpwS e c!"v" d }

/-- vasprun.py:807-847 the interpolated eigenvalues. -/
def eigSRows (e : Event) : St → Res St := fun s => when s.c.eigS (seq
  [specialStage e,
   fun s => .ok { s with c.eig1 := switch s.c.eig1 (opensC e c!"set" c!"spin 1") (closesC e c!"set" c!"spin 1"),
                         c.eig2 := switch s.c.eig2 (opensC e c!"set" c!"spin 2") (closesC e c!"set" c!"spin 2") },
   fun s => .ok (specialRows e s),
   fun s => .ok { s with c.data := collect s.c.eig1 e c!"r" s.c.data, c.data2 := collect s.c.eig2 e c!"r" s.c.data2 }]) s

/-- vasprun.py:849-889 the eigenvelocities. -/
def velRows (e : Event) : St → Res St := fun s => when s.c.vel (seq
  [specialStage e,
   fun s => .ok { s with c.vel1 := switch s.c.vel1 (opensC e c!"set" c!"spin 1") (closesC e c!"set" c!"spin 1"),
                         c.vel2 := switch s.c.vel2 (opensC e c!"set" c!"spin 2") (closesC e c!"set" c!"spin 2") },
   fun s => .ok (specialRows e s),
   fun s => .ok { s with c.data := collect s.c.vel1 e c!"r" s.c.data, c.data2 := collect s.c.vel2 e c!"r" s.c.data2 }]) s

/-- vasprun.py:891-893 rows of the dielectric functions. -/
def dielRows (e : Event) (s : St) : St := { s with c.data := collect s.c.diel e c!"r" s.c.data }

/-- vasprun.py:900-909 the end of the array of projections. -/
def projEnd (kBeforeBand : Bool) (s : St) : Res St :=
  extractProjectors s.o.params kBeforeBand s.o.species s.o.kpoints s.c.data (orNone s.c.data2) >>= fun r =>
  .ok { s with o.projectors := some r, c.data := [], c.data2 := [], c.eproj := false }

/-- vasprun.py:911-929 rows of projections. -/
def projRowsOf (e : Event) (s : St) : St :=
  if s.c.eproj then
    let a := switch s.c.eproj1 (opensC e c!"set" c!"spin1") (closesC e c!"set" c!"spin1")
    let b := switch s.c.eproj2 (opensC e c!"set" c!"spin2") (closesC e c!"set" c!"spin2")
    { s with c.eproj1 := a, c.eproj2 := b, c.data := collect a e c!"r" s.c.data, c.data2 := collect b e c!"r" s.c.data2 }
  else s

/-- vasprun.py:895-929 the projections; the array of eigenvalues in front of them is skipped. -/
def projStage (kBeforeBand : Bool) (e : Event) : St → Res St := fun s => when s.c.proj (seq
  [when (closes e c!"eigenvalues") (fun s => .ok { s with c.eproj := true }),
   fun s => when (closes e c!"array" && s.c.eproj) (projEnd kBeforeBand) s,
   fun s => .ok (projRowsOf e s)]) s

/-- vasprun.py:931-973 Hessian and dynamical matrix. -/
def dynmatStage (e : Event) : St → Res St := fun s => when s.c.dyn (seq
  [when (opensN e c!"varray" c!"hessian") (fun s => .ok { s with c.hess := true }),
   when (closesN e c!"varray" c!"hessian") (fun s => numAtoms s >>= fun n => convert2D s.c.data (n * 3) >>= fun x =>
     .ok { s with o.hessian := some x, c.data := [], c.hess := false }),
   when (opensN e c!"varray" c!"eigenvectors") (fun s => .ok { s with c.dynEig := true }),
   when (closesN e c!"varray" c!"eigenvectors") (fun s => numAtoms s >>= fun n => convert2D s.c.data (n * 3) >>= fun x =>
     .ok { s with o.dynmat.eigenvectors := some x, c.data := [], c.dynEig := false }),
   fun s => .ok { s with c.data := collect s.c.hess e c!"v" s.c.data },
   fun s => .ok { s with c.data := collect s.c.dynEig e c!"v" s.c.data },
   when (e.start && decide (name e.node = some c!"eigenvalues")) (fun s => convertArrayF (asSeen e) >>= fun x =>
     .ok { s with o.dynmat.eigenvalues := some x })]) s

/-- vasprun.py:975-977 rows of the Born charges. -/
def bornRows (e : Event) (s : St) : St := { s with c.data := collect s.c.born e c!"v" s.c.data }

/-- vasprun.py:450-977 what is done inside an ionic step. -/
def calculationStage (kBeforeBand : Bool) (e : Event) : St → Res St := seq
  [dosStage e, dosSpecificStage e, fun s => .ok (structureStage e s), varrayStage e, fun s => .ok (energyStage e s), eigStage kBeforeBand e,
   responseStage e, bornStage e, scStage e, latticeStage e, fun s => .ok (forceRows e s), finalStage e, fun s => .ok (eigRows e s), eigSRows e,
   velRows e, fun s => .ok (dielRows e s), projStage kBeforeBand e, dynmatStage e, fun s => .ok (bornRows e s)]

/-! ### the rest: vasprun.py:979-1058 -/

/-- vasprun.py:979-981 the entries of the atoms. -/
def speciesRows (e : Event) (s : St) : St := { s with c.data := collect s.c.spec e c!"c" s.c.data }

/-- vasprun.py:983-1012 the k-points. -/
def kpointsStage (e : Event) : St → Res St := fun s => when s.c.kdata (seq
  [when (opensN e c!"v" c!"divisions") (fun s => convertArrayI (asSeen e) >>= fun x => .ok { s with o.kpointdiv := some x }),
   when (opensN e c!"varray" c!"kpointlist") (fun s => .ok { s with c.kp := true }),
   when (closesN e c!"varray" c!"kpointlist") (fun s => convert2D s.c.data 3 >>= fun x =>
     .ok { s with o.kpoints := some x, c.data := [], c.kp := false }),
   when (opensN e c!"varray" c!"weights") (fun s => .ok { s with c.kpw := true }),
   when (closesN e c!"varray" c!"weights") (fun s => convert1D s.c.data >>= fun x =>
     .ok { s with o.kpointsw := some x, c.data := [], c.kpw := false }),
   fun s => .ok { s with c.data := collect s.c.kp e c!"v" s.c.data },
   fun s => .ok { s with c.data := collect s.c.kpw e c!"v" s.c.data }]) s

/-- vasprun.py:1014-1035 rows of the density of states. -/
def dosRows (e : Event) (s : St) : St :=
  if s.c.dos then
    let a := switch s.c.dos1 (opensC e c!"set" c!"spin 1") (closesC e c!"set" c!"spin 1")
    let b := switch s.c.dos2 (opensC e c!"set" c!"spin 2") (closesC e c!"set" c!"spin 2")
    { s with c.dos1 := a, c.dos2 := b, c.data := collect a e c!"r" s.c.data, c.data2 := collect b e c!"r" s.c.data2,
             c.data6 := if opensN e c!"i" c!"efermi" then s.c.data6 ++ [e.node] else s.c.data6 }
  else s

/-- vasprun.py:1037-1058 rows of the interpolated density of states. -/
def dosSRows (e : Event) (s : St) : St :=
  if s.c.dosS then
    let a := switch s.c.dosS1 (opensC e c!"set" c!"spin 1") (closesC e c!"set" c!"spin 1")
    let b := switch s.c.dosS2 (opensC e c!"set" c!"spin 2") (closesC e c!"set" c!"spin 2")
    { s with c.dosS1 := a, c.dosS2 := b, c.data := collect a e c!"r" s.c.data, c.data2 := collect b e c!"r" s.c.data2,
             c.data6 := if opensN e c!"i" c!"efermi" then s.c.data6 ++ [e.node] else s.c.data6 }
  else s

/-- vasprun.py:348-1058 what is done for one event. -/
def step (kBeforeBand : Bool) (e : Event) : St → Res St := seq
  [fun s => .ok (headStage e s), calcStage e, atomsStage e, fun s => .ok (groupStage e s), fun s => .ok (versionStage e s), paramStage e,
   fun s => when s.c.calcn (calculationStage kBeforeBand e) s, fun s => .ok (speciesRows e s), kpointsStage e,
   fun s => .ok (dosRows e s), fun s => .ok (dosSRows e s)]

/-- vasprun.py:348 the loop over the events. -/
def run (kBeforeBand : Bool) (es : List Event) (s : St) : Res St := seq (es.map (step kBeforeBand)) s

/-- What the event driven parser leaves behind. -/
structure EData where
  version : Option Str
  params : Params
  species : Option (List Nat)
  unitcell : Option (Dict Nat Table)
  positions : Option (Dict Nat Table)
  forces : Option (Dict Nat Table)
  stress : Option (Dict Nat Table)
  kpoints : Option Table
  kpointsw : Option (List Rat)
  kpointdiv : Option (List Int)
  eigenvalues : Option (Spins Table)
  occupancies : Option (Spins Table)
  eigenvaluesSpecific : Option (Spins Table)
  kpointsSpecific : Option Table
  kpointswSpecific : Option (List Rat)
  eigenvelocities : Option (Spins (List Table))
  dos : Option DosDict
  dosSpecific : Option DosDict
  totens : Option (Dict Nat Energies)
  dielectrics : Option EDiel
  projectors : Option (Spins (List (List Table)))
  hessian : Option Table
  dynmat : Option Dynmat
  born : Option (List Table)
  deriving DecidableEq, Repr

/-- `if not d: d = None`. -/
def orNoneDict {α : Type} (d : Dict Nat α) : Option (Dict Nat α) := if d.isEmpty then none else some d

/-- vasprun.py:1070-1086 has any energy been found? -/
def anyEnergy (d : Dict Nat Energies) : Bool := d.any fun e => !e.2.final.isEmpty || e.2.sc.any fun x => !x.2.isEmpty

/-- vasprun.py:1060-1093 what is stored at the end. -/
def finish (o : Out) : EData :=
  { version := o.version, params := o.params, species := o.species, unitcell := orNoneDict o.cell, positions := orNoneDict o.pos,
    forces := orNoneDict o.force, stress := orNoneDict o.stress, kpoints := o.kpoints, kpointsw := o.kpointsw, kpointdiv := o.kpointdiv,
    eigenvalues := o.eigenvalues, occupancies := o.occupancies, eigenvaluesSpecific := o.eigenvaluesSpecific,
    kpointsSpecific := o.kpointsSpecific, kpointswSpecific := o.kpointswSpecific, eigenvelocities := o.eigenvelocities,
    dos := o.dosCopy, dosSpecific := if o.dosSpecificSet then some o.dosDict else none,
    totens := if anyEnergy o.totens then some o.totens else none, dielectrics := o.dielectrics, projectors := o.projectors,
    hessian := o.hessian, dynmat := if o.dynmatSet then some o.dynmat else none, born := o.born }

/-- vasprun.py:262-1093 `_parsee` on a sequence of events. -/
def parseEvents (kBeforeBand : Bool) (es : List Event) : Res EData := run kBeforeBand es {} >>= fun s => .ok (finish s.o)

/-- vasprun.py:262-1093 `_parsee` on a document whose texts are visible at the start events. -/
def parsee (root : Node) (kBeforeBand : Bool) : Res EData := parseEvents kBeforeBand (events none root)

end Verif.VasprunEvent
