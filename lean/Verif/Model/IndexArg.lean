import Verif.Model.Kpoints
import Verif.Model.Poscar
/-! # The index argument of `modify`, `delete_point` and `delete_site` of any type

`Model/Kpoints` and `Model/Poscar` have an `int` there. Here the argument is any Python object. -/
set_option autoImplicit false
namespace Verif

/-- An index argument that is not `None`: an `int`, a `bool` (an `int` for Python) or any other object (a float, a string, a list, a numpy number ...). -/
inductive IndexArg
  | int (n : Int)
  | bool (b : Bool)
  | other
  deriving DecidableEq, Repr

/-- kpoints.py:504, poscar.py:579 `isinstance(number, int)`; `True` and `False` are the numbers 1 and 0 wherever they are compared or index a list. -/
def IndexArg.number : IndexArg → Option Int
  | .int n => some n
  | .bool b => some (if b then 1 else 0)
  | .other => none

namespace Kpoints

/-- kpoints.py:493-512 `_check_point_number` for any argument. -/
def checkPointIndex (e : Entries) (i : IndexArg) : Res Int :=
  match i.number with
  | none => .exit 13
  | some n => checkPointNumber e n >>= fun _ => .ok n

/-- kpoints.py:286-348 `modify(entry, value, point_number)` with any `point_number`. The test of line 315 repeats that of line 504. -/
def modifyAny (e : Entries) (entry : Str) (v : Val) (i : Option IndexArg) : Res Entries :=
  match i with
  | none => modify e entry v none
  | some i =>
    checkAllowed entry >>= fun _ => checkDict e >>= fun _ => checkPoint e v >>= fun _ => checkPointIndex e i >>= fun n =>
    lookup e c!"points" >>= fun w => match w with
      | .list l => match pyIndex n l.length with
        | some k => .ok (e.set c!"points" (.list (l.set k (elemOf v))))
        | none => .raise .indexError
      | _ => .raise .typeError

/-- kpoints.py:350-364 `delete_point` with any argument but `None`, which is refused like any other object that is not an `int`. -/
def deleteAny (e : Entries) (i : IndexArg) : Res Entries :=
  checkPoints e .none >>= fun _ => checkPointIndex e i >>= fun n =>
  lookup e c!"points" >>= fun w => match w with
    | .list l => match pyIndex n l.length with
      | some k => .ok (e.set c!"points" (.list (l.eraseIdx k)))
      | none => .raise .indexError
    | _ => .raise .typeError

end Kpoints

namespace Poscar
open Verif.Kpoints (pyIndex)

/-- poscar.py:567-587 `_check_site_number` for any argument. -/
def checkSiteIndex (e : Entries) (i : IndexArg) : Res Int :=
  match i.number with
  | none => .exit 13
  | some n => checkSiteNumber e n >>= fun _ => .ok n

/-- poscar.py:378-389 `modify(entry, value, site_number)` with any `site_number` but `None`. The test of line 386 (`float(number)`) is true for
every `int`; simplification: for one below -2^1024 it raises `OverflowError`, here the `IndexError` of the next line is raised. -/
def modifySiteAny (e : Entries) (entry : Str) (v : Option Elem) (i : IndexArg) : Res Entries :=
  checkAllowed entry >>= fun _ => checkSite e v >>= fun _ => checkSiteIndex e i >>= fun n =>
  lookup e c!"sites" >>= fun w => match w with
    | .sites l => match pyIndex n l.length with
      | some k => .ok (e.set c!"sites" (.sites (l.set k (v.getD .other))))
      | none => .raise .indexError
    | _ => .raise .typeError

/-- poscar.py:402-417 `delete_site` with any argument. -/
def deleteSiteAny (e : Entries) (i : IndexArg) : Res Entries :=
  checkSites e .none >>= fun _ => checkSiteIndex e i >>= fun n =>
  lookup e c!"sites" >>= fun w => match w with
    | .sites l => match pyIndex n l.length with
      | some k => .ok (e.set c!"sites" (.sites (l.eraseIdx k)))
      | none => .raise .indexError
    | _ => .raise .typeError

end Poscar
end Verif
