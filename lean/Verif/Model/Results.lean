import Verif.Model.Potcar
import Verif.Model.Chgcar
import Verif.Model.Doscar
import Verif.Model.Eigenval
import Verif.Model.Outcar
/-!
# The results of the read-only parsers in memory

A parser keeps dictionaries, lists and arrays; its getters hand out these objects themselves, not copies (`dos = self._data['dos']; return dos`).
Here results are built in memory and getters return references. An array is a list of its rows (`a[i]` is a view, so a change through it is a
change of `a`, as here). Simplification: the caller changes items to numbers, texts, truth values or `None` only, not to lists or dictionaries.
-/
set_option autoImplicit false
namespace Verif.Results
open Verif

/-- Immutable values. -/
inductive Leaf
  | none
  | bool (b : Bool)
  | int (i : Int)
  | num (x : Rat)
  | float (x : PyFloat)
  | str (s : Str)
  deriving DecidableEq, Repr

/-- A key of a dictionary or a position in a list. -/
inductive Key
  | name (s : Str)
  | index (n : Int)
  deriving DecidableEq, Repr

/-- What a result consists of. -/
inductive Data
  | leaf (l : Leaf)
  | node (items : List (Key × Data))

/-- A Python value: immutable, or the address of a dictionary, list or array. -/
inductive Ref
  | leaf (l : Leaf)
  | addr (a : Nat)
  deriving DecidableEq, Repr

/-- A dictionary, list or array in memory. -/
abbrev Cell := List (Key × Ref)
/-- The memory. -/
abbrev Heap := List Cell

mutual
/-- Building a value: everything that is not immutable gets a new address, what it contains first. -/
def alloc (h : Heap) : Data → Heap × Ref
  | .leaf l => (h, .leaf l)
  | .node items => ((allocItems h items).1 ++ [(allocItems h items).2], .addr (allocItems h items).1.length)
/-- Building the items. -/
def allocItems (h : Heap) : List (Key × Data) → Heap × Cell
  | [] => (h, [])
  | (k, d) :: r => ((allocItems (alloc h d).1 r).1, (k, (alloc h d).2) :: (allocItems (alloc h d).1 r).2)
end

/-- The fields of a parser object, by name. -/
abbrev Fields := List (Str × Ref)

/-- Building the fields one after the other. -/
def allocFields (h : Heap) : List (Str × Data) → Heap × Fields
  | [] => (h, [])
  | (k, d) :: r => ((allocFields (alloc h d).1 r).1, (k, (alloc h d).2) :: (allocFields (alloc h d).1 r).2)

/-- Memory, objects and the variables of the caller; with each variable the object it was taken from (nothing depends on that). -/
structure World where
  heap : Heap := []
  objects : List Fields := []
  vars : List (Nat × Ref) := []

/-- What a program does. Objects and variables are numbered in the order in which they are made. -/
inductive Call
  /-- a parser object with these results -/
  | make (fields : List (Str × Data))
  /-- `x = o.get_...()` -/
  | get (o : Nat) (field : Str)
  /-- `y = x[k]` -/
  | item (x : Nat) (k : Key)
  /-- `x[k] = v`, for a key that is there -/
  | setItem (x : Nat) (k : Key) (v : Leaf)

/-- Replace the value of a key. -/
def Cell.replace (c : Cell) (k : Key) (r : Ref) : Cell := c.map fun p => if p.1 = k then (k, r) else p

/-- One call; a call that fails (no such field, key, variable) changes nothing.
Getters: doscar.py:258-312, eigenval.py:136-191, chgcar.py:111-119, outcar.py:284-389, potcar.py:151-173, stream.py:89-102: the stored object is
returned. -/
def World.step (w : World) : Call → World
  | .make fs => { w with heap := (allocFields w.heap fs).1, objects := w.objects ++ [(allocFields w.heap fs).2] }
  | .get o f => match (w.objects[o]?).bind fun fs => fs.lookup f with
    | some r => { w with vars := w.vars ++ [(o, r)] }
    | none => w
  | .item x k => match w.vars[x]? with
    | some (o, .addr a) => match (w.heap[a]?).bind fun c => c.lookup k with
      | some r => { w with vars := w.vars ++ [(o, r)] }
      | none => w
    | _ => w
  | .setItem x k v => match w.vars[x]? with
    | some (_, .addr a) => { w with heap := w.heap.modify a fun c => Cell.replace c k (.leaf v) }
    | _ => w

/-- A program. -/
def World.run (w : World) (l : List Call) : World := l.foldl World.step w

/-! ### the results of the classes -/

/-- A dictionary. -/
def dictOf {α} (f : α → Data) (d : List (Str × α)) : Data := .node (d.map fun p => (.name p.1, f p.2))
/-- A list or array. -/
def listOf {α} (f : α → Data) (l : List α) : Data := .node (l.zipIdx.map fun p => (.index p.2, f p.1))
/-- `None` or a value. -/
def optOf {α} (f : α → Data) : Option α → Data
  | some a => f a
  | none => .leaf .none
/-- A number. -/
def numOf (x : Rat) : Data := .leaf (.num x)
/-- An integer. -/
def intOf (i : Int) : Data := .leaf (.int i)
/-- A text. -/
def strOf (s : Str) : Data := .leaf (.str s)
/-- A truth value. -/
def boolOf (b : Bool) : Data := .leaf (.bool b)

/-- chgcar.py:111-119 `charge_density`, `magnetization_density`: the array, and `None`, an array or a dictionary of arrays (a grid is a list of planes,
these are lists of rows). -/
def chgcarFields (d : Chgcar.Data) : List (Str × Data) :=
  let grid : Chgcar.Grid → Data := listOf (listOf (listOf numOf))
  [(c!"charge_density", grid d.total),
   (c!"magnetization_density", match d.magnetization with
     | .none => .leaf .none
     | .collinear g => grid g
     | .components x y z => dictOf grid [(c!"x", x), (c!"y", y), (c!"z", z)])]

/-- potcar.py:95-173 `metadata` (a dictionary), `symbol` and `element` (texts). -/
def potcarFields (d : Potcar.Data) : List (Str × Data) :=
  [(c!"metadata", dictOf (fun v => match v with
      | .text s => strOf s
      | .bool b => boolOf b
      | .int i => intOf i
      | .float x => numOf x
      | .floats xs => listOf numOf xs) d.metadata),
   (c!"symbol", strOf d.symbol), (c!"element", strOf d.element)]

/-- doscar.py:258-312 `get_metadata`, `get_dos`, `get_pdos`; a record is the dictionary of its columns (with one spin a list of one number here). -/
def doscarFields (d : Doscar.Data) : List (Str × Data) :=
  let columns : Doscar.Record → Data := dictOf (listOf numOf)
  [(c!"get_metadata", .node [(.name c!"n_ions", intOf d.metadata.nIons), (.name c!"n_atoms", intOf d.metadata.nAtoms),
      (.name c!"cartesian", boolOf d.metadata.cartesian), (.name c!"name", strOf d.metadata.name), (.name c!"emax", numOf d.metadata.emax),
      (.name c!"emin", numOf d.metadata.emin), (.name c!"n_dos", intOf d.metadata.nDos), (.name c!"efermi", numOf d.metadata.efermi),
      (.name c!"weight", numOf d.metadata.weight)]),
   (c!"get_dos", listOf columns d.dos), (c!"get_pdos", listOf (listOf columns) d.pdos)]

/-- A number or a list of numbers. -/
def oneOrMany : Utils.OneOrMany Rat → Data
  | .one x => numOf x
  | .many l => listOf numOf l

/-- eigenval.py:116-191 `get_metadata`, `get_eigenvalues`, `get_kpoints`. -/
def eigenvalFields (d : Eigenval.Data) : List (Str × Data) :=
  let m := d.metadata
  [(c!"get_metadata", .node [(.index 0, listOf intOf m.line0), (.index 1, oneOrMany m.line1), (.index 2, oneOrMany m.line2),
      (.name c!"n_ions", intOf m.nIons), (.name c!"n_atoms", intOf m.nAtoms), (.name c!"p00", intOf m.p00), (.name c!"nspin", intOf m.nspin),
      (.name c!"cartesian", boolOf m.cartesian), (.name c!"name", strOf m.name), (.name c!"some_num", intOf m.someNum),
      (.name c!"n_bands", intOf m.nBands), (.name c!"n_kp", intOf m.nKp)]),
   (c!"get_eigenvalues", listOf (listOf (listOf numOf)) d.arrays.values), (c!"get_kpoints", listOf (listOf numOf) d.arrays.kpoints)]

/-- outcar.py:45-94, 284-389 `get_symmetry`, `get_elastic_moduli`, `get_magnetization`, `get_run_stats`, `get_run_status`. The keys of the moments of
the sites are integers. Simplification: with a single ion `total_magnetization` is the dictionary of that ion itself (outcar.py:215-219), here a
copy; this makes a difference only if the caller changes it. -/
def outcarFields (d : Outcar.Data) : List (Str × Data) :=
  let pair : Outcar.Pair → Data := fun p => dictOf (listOf strOf) [(c!"static", p.static), (c!"dynamic", p.dynamic)]
  let sphere : Outcar.Sphere → Data := fun m => .node [
    (.name c!"site_moment", .node (m.sites.map fun p => (.index p.1, dictOf numOf p.2))), (.name c!"total_magnetization", dictOf numOf m.total)]
  [(c!"get_symmetry", .node [
      (.name c!"num_space_group_operations", dictOf (listOf intOf) [(c!"static", d.state.symmetry.opsStatic), (c!"dynamic", d.state.symmetry.opsDynamic)]),
      (.name c!"original_cell_type", pair d.state.symmetry.original), (.name c!"symmetrized_cell_type", pair d.state.symmetry.symmetrized)]),
   (c!"get_elastic_moduli", dictOf (optOf (listOf (listOf numOf))) d.state.elastic),
   (c!"get_magnetization", .node [
      (.name c!"sphere", dictOf sphere [(c!"x", d.state.magX), (c!"y", d.state.magY), (c!"z", d.state.magZ)]),
      (.name c!"full_cell", match d.state.fullCell with
        | some l => listOf numOf l
        | none => .node [])]),
   (c!"get_run_stats", dictOf (optOf fun x => .leaf (.float x)) d.stats),
   (c!"get_run_status", .node [
      (.name c!"nelm", optOf intOf (Outcar.number d.state.status c!"nelm")), (.name c!"nsw", optOf intOf (Outcar.number d.state.status c!"nsw")),
      (.name c!"last_iteration_index", listOf intOf [(d.last.1 : Int), (d.last.2 : Int)]), (.name c!"finished", boolOf d.state.finished),
      (.name c!"ionic_converged", optOf boolOf d.verdict.ionic), (.name c!"electronic_converged", boolOf d.verdict.electronic),
      (.name c!"consistent_nelm_breach", boolOf d.verdict.consistent), (.name c!"contains_nelm_breach", boolOf d.verdict.contains)])]

end Verif.Results
