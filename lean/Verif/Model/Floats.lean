import Verif.Model.Kpoints
import Verif.Model.Poscar
/-!
# Binary floating point numbers in KPOINTS and POSCAR

The other modules keep the exact value of a printed number.  Here `float(word)` delivers the machine number nearest to it.  Nothing is
assumed about the machine numbers but that zero is one of them, that there is a largest one, an integer, and that reading is correctly
rounded (CPython's `float()` is); which of two equally near numbers is taken is left open.
-/
set_option autoImplicit false
namespace Verif

/-- A set of machine numbers with correctly rounded reading. Literals beyond the largest number (`float()` gives `inf`) are not considered:
nothing is said about `near` there. -/
structure Floats where
  /-- The machine numbers. -/
  mem : Rat → Prop
  /-- The largest machine number. -/
  big : Nat
  /-- `float(word)` for a word of that exact value. -/
  near : Rat → Rat
  zero_mem : mem 0
  bound : ∀ x : Rat, mem x → |x| ≤ big
  near_mem : ∀ r : Rat, |r| ≤ big → mem (near r)
  near_best : ∀ r x : Rat, |r| ≤ big → mem x → |near r - r| ≤ |x - r|

namespace Kpoints

/-- Every number of a point as a machine number. -/
def Kpoint.machine (N : Floats) (k : Kpoint) : Kpoint := ⟨k.coord.map N.near, k.weight.map N.near, k.direct⟩

/-- Every number of a value as a machine number. -/
def Atom.machine (N : Floats) : Atom → Atom
  | .float x => .float (N.near x)
  | .point k => .point (k.machine N)
  | a => a

/-- Likewise for elements of lists. -/
def Elem.machine (N : Floats) : Elem → Elem
  | .atom a => .atom (a.machine N)
  | .list l => .list (l.map (Atom.machine N))

/-- Likewise for values of entries. -/
def Val.machine (N : Floats) : Val → Val
  | .atom a => .atom (a.machine N)
  | .list l => .list (l.map (Elem.machine N))

/-- kpoints.py:149-284 stores `float(word)` and computes nothing with it. So what is read is what the exact reader reads, with every number
replaced by the nearest machine number. (The weight of a point in line mode, the literal `1.0`, is a machine number.) -/
def readFloats (N : Floats) (s : Sources) : Res Entries := init s >>= fun e => .ok (e.map fun kv => (kv.1, kv.2.machine N))

end Kpoints

namespace Poscar
open Lattice

/-- Every number of a vector as a machine number. -/
def floatV (N : Floats) (v : Vec) : Vec := ⟨N.near v.x, N.near v.y, N.near v.z⟩

/-- Likewise for a cell. -/
def floatM (N : Floats) (c : Cell) : Cell := ⟨floatV N c.a, floatV N c.b, floatV N c.c⟩

/-- Likewise for a site. -/
def Site.machine (N : Floats) (s : Site) : Site :=
  { s with
    position := floatV N s.position
    velocities := s.velocities.map (floatV N)
    predictors := s.predictors.map (floatV N) }

/-- Likewise for the elements of the list of sites. -/
def Elem.machine (N : Floats) : Elem → Elem
  | .site s => .site (s.machine N)
  | x => x

/-- Likewise for the values of entries. -/
def Val.machine (N : Floats) : Val → Val
  | .cell (some c) => .cell (some (floatM N c))
  | .sites l => .sites (l.map (Elem.machine N))
  | v => v

/-- poscar.py:174-356 for a text in direct coordinates with the scaling factor 1 (as `write` with `direct=True` makes them): the numbers are
`float(word)`, those of the cell are multiplied by 1.0, which changes nothing. So what is read is what the exact reader reads, with every number
replaced by the nearest machine number. Not meant for other texts, where the program computes with the numbers. -/
def readFloats (N : Floats) (s : Sources) : Res Entries := init s >>= fun e => .ok (e.map fun kv => (kv.1, kv.2.machine N))

end Poscar
end Verif
