import Verif.Model.VasprunEvent
/-!
# Model of the class `Xml` of /repo/parsevasp/vasprun.py seen from outside: constructor and getters

The two parsers are in `Model/Vasprun.lean` and `Model/VasprunEvent.lean`. What lxml makes of the text of a file is a parameter (`Lxml`).
-/
set_option autoImplicit false
namespace Verif.VasprunApi
open Verif Verif.Utils Verif.Xml Verif.Vasprun Verif.VasprunEvent

/-- vasprun.py:222-227, 348 what lxml makes of a text: a tree (the flag is the recovery mode), or a sequence of events, at the end of which there
may be an exception. -/
structure Lxml where
  tree : Bool → Str → Res Node
  stream : Str → List Event × Option Exc

/-- vasprun.py:107-158 the data in an object, by the parser that has filled it. -/
inductive Filled
  | whole (d : Data)
  | event (e : EData)
  deriving DecidableEq, Repr

/-- An object: `truncated` (vasprun.py:180-183) and the data. -/
structure Obj where
  truncated : Bool
  filled : Filled
  deriving DecidableEq, Repr

/-- vasprun.py:78-205, 207-260, 262-1093 the constructor. -/
def new (x : Lxml) (path : Option Path) (handler : Option Handler) (kBeforeBand extractAll event : Bool) : Res Obj :=
  begin path handler event >>= fun r =>
  if r.2.2 then x.tree r.2.1 r.1 >>= fun root => parsew root kBeforeBand extractAll >>= fun d => .ok ⟨r.2.1, .whole d⟩
  else run kBeforeBand (x.stream r.1).1 {} >>= fun s =>
    match (x.stream r.1).2 with
    | some e => .raise e
    | none => .ok ⟨r.2.1, .event (finish s.o)⟩

/-- The steps stored by the event driven parser, none of which is `None`. -/
def stepsDict (d : Option (Dict Nat Table)) : Option Steps := d.map fun d => d.map fun p => (p.1, some p.2)

/-- vasprun.py:2866-2895 `get_forces`. -/
def getForces (o : Obj) (status : Str) : Res (Got (Option Table)) :=
  match o.filled with
  | .whole d => getSteps d.forces status
  | .event e => getSteps (stepsDict e.forces) status

/-- vasprun.py:2897-2927 `get_stress`. -/
def getStress (o : Obj) (status : Str) : Res (Got (Option Table)) :=
  match o.filled with
  | .whole d => getSteps d.stress status
  | .event e => getSteps (stepsDict e.stress) status

/-- vasprun.py:3038-3068 `get_unitcell`. -/
def getUnitcell (o : Obj) (status : Str) : Res (Got (Option Table)) :=
  match o.filled with
  | .whole d => getSteps d.unitcell status
  | .event e => getSteps (stepsDict e.unitcell) status

/-- vasprun.py:3070-3100 `get_positions`. -/
def getPositions (o : Obj) (status : Str) : Res (Got (Option Table)) :=
  match o.filled with
  | .whole d => getSteps d.positions status
  | .event e => getSteps (stepsDict e.positions) status

/-- vasprun.py:3102-3114 `get_species`. -/
def getSpecies (o : Obj) : Option (List Nat) :=
  match o.filled with
  | .whole d => d.species
  | .event e => e.species

/-- What `get_lattice` returns. -/
structure Lattice where
  unitcell : Got (Option Table)
  positions : Got (Option Table)
  species : Option (List Nat)
  deriving DecidableEq, Repr

/-- vasprun.py:3116-3135 `get_lattice`. -/
def getLattice (o : Obj) (status : Str) : Res Lattice :=
  getUnitcell o status >>= fun u => getPositions o status >>= fun p => .ok ⟨u, p, getSpecies o⟩

/-- vasprun.py:2495-2538 the dictionary of the density of states of one spin. -/
def partDict (p : DosPart) : DosMap := { total := some p.total, integrated := some p.integrated, partials := some p.partials }

/-- vasprun.py:2495-2538 the dictionary of the density of states, as the regular parser makes it. -/
def dosDict (x : Dos) : DosDict :=
  match x.whole with
  | some p => { total := some { partDict p with energy := some x.energy, fermi := some x.fermi } }
  | none => { up := x.up.map partDict, down := x.down.map partDict, total := some { energy := some x.energy, fermi := some x.fermi } }

/-- vasprun.py:3331-3353 `get_dos`. -/
def getDos (o : Obj) : Option DosDict :=
  match o.filled with
  | .whole d => d.dos.map dosDict
  | .event e => e.dos

/-- vasprun.py:3355-3370 `get_dos_specific`. -/
def getDosSpecific (o : Obj) : Option DosDict :=
  match o.filled with
  | .whole d => d.dosSpecific.map dosDict
  | .event e => e.dosSpecific

/-- `d['total']['fermi_level']` for a stored density of states. -/
def fermiIn (d : Option DosDict) : Res (Option Rat) :=
  match d with
  | none => .raise .typeError
  | some d => match d.total with
    | none => .raise .keyError
    | some m => match m.fermi with
      | none => .raise .keyError
      | some f => .ok f

/-- vasprun.py:2993-3005 `get_fermi_level`. -/
def getFermiLevel (o : Obj) : Res (Option Rat) := fermiIn (getDos o)

/-- vasprun.py:3007-3020 `get_fermi_level_specific`. -/
def getFermiLevelSpecific (o : Obj) : Res (Option Rat) := fermiIn (getDosSpecific o)

/-- The dictionary of dielectric functions; the outer `none` is a missing key. -/
structure DielDict where
  energy : Option (List Rat)
  imag : Option Table
  real : Option Table
  epsilon : Option (Option Table)
  epsilonIon : Option (Option Table)
  deriving DecidableEq, Repr

/-- vasprun.py:2958-2970 `get_dielectrics`; the keys are those of vasprun.py:2297-2304 and 669-677. -/
def getDielectrics (o : Obj) : Option DielDict :=
  match o.filled with
  | .whole d => d.dielectrics.map fun x => ⟨x.energy, x.imag, x.real, some x.epsilon, some x.epsilonIon⟩
  | .event e => e.dielectrics.map fun x => ⟨some x.energy, some x.imag, some x.real, none, none⟩

/-- `d[key]` where `d` may be `None` and the key may be missing. -/
def keyOf {α β : Type} (d : Option α) (key : α → Option β) : Res β :=
  match d with
  | none => .raise .typeError
  | some d => match key d with
    | none => .raise .keyError
    | some x => .ok x

/-- vasprun.py:2972-2976 `get_epsilon`. -/
def getEpsilon (o : Obj) : Res (Option Table) := keyOf (getDielectrics o) fun d => d.epsilon

/-- vasprun.py:2978-2991 `get_epsilon_ion`. -/
def getEpsilonIon (o : Obj) : Res (Option Table) := keyOf (getDielectrics o) fun d => d.epsilonIon

/-- vasprun.py:2929-2940 `get_hessian`. -/
def getHessian (o : Obj) : Option Table :=
  match o.filled with
  | .whole d => d.hessian
  | .event e => e.hessian

/-- vasprun.py:2942-2956 `get_dynmat`. -/
def getDynmat (o : Obj) : Option Dynmat :=
  match o.filled with
  | .whole d => d.dynmat.map fun x => ⟨some x.1, some x.2⟩
  | .event e => e.dynmat

/-- vasprun.py:3022-3036 `get_born`. -/
def getBorn (o : Obj) : Option Born :=
  match o.filled with
  | .whole d => d.born
  | .event e => e.born.map Born.charges

/-- vasprun.py:3137-3150 `get_kpoints`. -/
def getKpoints (o : Obj) : Option Table :=
  match o.filled with
  | .whole d => d.kpoints
  | .event e => e.kpoints

/-- vasprun.py:3152-3165 `get_kpointsw`. -/
def getKpointsw (o : Obj) : Option (List Rat) :=
  match o.filled with
  | .whole d => d.kpointsw
  | .event e => e.kpointsw

/-- vasprun.py:3425-3441 `get_kpoints_specific`. -/
def getKpointsSpecific (o : Obj) : Option Table :=
  match o.filled with
  | .whole d => d.kpointsSpecific
  | .event e => e.kpointsSpecific

/-- vasprun.py:3443-3459 `get_kpointsw_specific`. -/
def getKpointswSpecific (o : Obj) : Option (List Rat) :=
  match o.filled with
  | .whole d => d.kpointswSpecific
  | .event e => e.kpointswSpecific

/-- vasprun.py:3167-3329 `get_energies` of an object. -/
def getEnergiesOf (o : Obj) (status : Str) (etype : Option (List Str)) (nosc : Bool) : Res (Option EnergyTable) :=
  match o.filled with
  | .whole d => getEnergies d.totens status etype nosc
  | .event e => getEnergies e.totens status etype nosc

/-- vasprun.py:3372-3386 `get_eigenvalues`. -/
def getEigenvalues (o : Obj) : Option (Spins Table) :=
  match o.filled with
  | .whole d => d.eigenvalues
  | .event e => e.eigenvalues

/-- vasprun.py:3388-3402 `get_eigenvalues_specific`. -/
def getEigenvaluesSpecific (o : Obj) : Option (Spins Table) :=
  match o.filled with
  | .whole d => d.eigenvaluesSpecific
  | .event e => e.eigenvaluesSpecific

/-- vasprun.py:3404-3423 `get_eigenvelocities`. -/
def getEigenvelocities (o : Obj) : Option (Spins (List Table)) :=
  match o.filled with
  | .whole d => d.eigenvelocities
  | .event e => e.eigenvelocities

/-- vasprun.py:3461-3474 `get_occupancies`. -/
def getOccupancies (o : Obj) : Option (Spins Table) :=
  match o.filled with
  | .whole d => d.occupancies
  | .event e => e.occupancies

/-- vasprun.py:3476-3492 `get_projectors`. -/
def getProjectors (o : Obj) : Option (Spins (List (List Table))) :=
  match o.filled with
  | .whole d => d.projectors
  | .event e => e.projectors

/-- vasprun.py:3510-3522 `get_parameters`. -/
def getParameters (o : Obj) : Params :=
  match o.filled with
  | .whole d => d.params
  | .event e => e.params

/-- vasprun.py:3524-3544 `get_version` of an object. -/
def getVersionOf (o : Obj) : Res Str :=
  match o.filled with
  | .whole d => getVersion d.version
  | .event e => getVersion e.version

end Verif.VasprunApi
