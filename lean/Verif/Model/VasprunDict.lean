import Verif.Model.VasprunApi
/-! # Model of `Xml.get_dict` of /repo/parsevasp/vasprun.py -/
set_option autoImplicit false
namespace Verif.VasprunApi
open Verif Verif.Utils Verif.Xml Verif.Vasprun Verif.VasprunEvent

/-- vasprun.py:135-142 `_lattice`. -/
structure LatticeDict where
  unitcell : Option Steps
  species : Option (List Nat)
  positions : Option Steps
  kpoints : Option Table
  kpointsw : Option (List Rat)
  kpointdiv : Option (List Int)
  deriving DecidableEq, Repr

/-- vasprun.py:143-160 `_data`; `kpoints` and `kpointsw` are those of the special eigenvalues. -/
structure DataDict where
  eigenvalues : Option (Spins Table)
  eigenvaluesSpecific : Option (Spins Table)
  eigenvelocities : Option (Spins (List Table))
  kpoints : Option Table
  kpointsw : Option (List Rat)
  occupancies : Option (Spins Table)
  dos : Option DosDict
  dosSpecific : Option DosDict
  totens : Option (Dict Nat Energies)
  forces : Option Steps
  stress : Option Steps
  dielectrics : Option DielDict
  projectors : Option (Spins (List (List Table)))
  hessian : Option Table
  dynmat : Option Dynmat
  born : Option Born
  deriving DecidableEq, Repr

/-- The three dictionaries. -/
structure XmlDict where
  parameters : Params
  lattice : LatticeDict
  data : DataDict
  deriving DecidableEq, Repr

/-- vasprun.py:3494-3508 `get_dict` of an object filled by the regular parser (vasprun.py:233-260). -/
def wholeDict (d : Data) : XmlDict :=
  { parameters := d.params,
    lattice := ⟨d.unitcell, d.species, d.positions, d.kpoints, d.kpointsw, d.kpointdiv⟩,
    data := { eigenvalues := d.eigenvalues, eigenvaluesSpecific := d.eigenvaluesSpecific, eigenvelocities := d.eigenvelocities,
              kpoints := d.kpointsSpecific, kpointsw := d.kpointswSpecific, occupancies := d.occupancies, dos := d.dos.map dosDict,
              dosSpecific := d.dosSpecific.map dosDict, totens := d.totens, forces := d.forces, stress := d.stress,
              dielectrics := d.dielectrics.map fun x => ⟨x.energy, x.imag, x.real, some x.epsilon, some x.epsilonIon⟩,
              projectors := d.projectors, hessian := d.hessian, dynmat := d.dynmat.map fun x => ⟨some x.1, some x.2⟩, born := d.born } }

/-- vasprun.py:3494-3508 `get_dict` of an object filled by the event driven parser (vasprun.py:1060-1093). -/
def eventDict (e : EData) : XmlDict :=
  { parameters := e.params,
    lattice := ⟨stepsDict e.unitcell, e.species, stepsDict e.positions, e.kpoints, e.kpointsw, e.kpointdiv⟩,
    data := { eigenvalues := e.eigenvalues, eigenvaluesSpecific := e.eigenvaluesSpecific, eigenvelocities := e.eigenvelocities,
              kpoints := e.kpointsSpecific, kpointsw := e.kpointswSpecific, occupancies := e.occupancies, dos := e.dos,
              dosSpecific := e.dosSpecific, totens := e.totens, forces := stepsDict e.forces, stress := stepsDict e.stress,
              dielectrics := e.dielectrics.map fun x => ⟨some x.energy, some x.imag, some x.real, none, none⟩,
              projectors := e.projectors, hessian := e.hessian, dynmat := e.dynmat, born := e.born.map Born.charges } }

/-- vasprun.py:3494-3508 `get_dict`. -/
def getDict (o : Obj) : XmlDict :=
  match o.filled with
  | .whole d => wholeDict d
  | .event e => eventDict e

end Verif.VasprunApi
