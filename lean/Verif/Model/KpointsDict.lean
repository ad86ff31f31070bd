import Verif.Model.Kpoints
/-! # Model of /repo/parsevasp/kpoints.py:808-853: `get_dict` and what the constructor makes of the result -/
set_option autoImplicit false
namespace Verif.Kpoints
open Verif

/-- A value in the dictionary `get_dict` returns: the stored value, or the list made for the points. -/
inductive DictVal
  | entry (v : Val)
  | points (l : List (List Rat × Option Rat × Bool))
  deriving DecidableEq, Repr

/-- kpoints.py:824-826 `[element.get_point(), element.get_weight(), element.get_direct()]`. -/
def pointTriple : Elem → Res (List Rat × Option Rat × Bool)
  | .atom (.point p) => .ok (p.coord, p.weight, p.direct)
  | _ => .raise .attributeError

/-- kpoints.py:821-830 one entry. -/
def entryToDict (kv : Str × Val) : Res (Str × DictVal) :=
  if kv.1 = c!"points" then
    match kv.2 with
    | .atom .none => .ok (kv.1, .entry .none)
    | .list l => Res.mapM' pointTriple l >>= fun x => .ok (kv.1, .points x)
    | .atom (.str []) => .ok (kv.1, .points [])
    | .atom (.str _) => .raise .attributeError
    | _ => .raise .typeError
  else .ok (kv.1, .entry kv.2)

/-- kpoints.py:808-832 `get_dict`. -/
def getDict (e : Entries) : Res (Dict Str DictVal) := Res.mapM' entryToDict e

/-- A point in the result of `get_dict` as the constructor's checks see it: a list of an array, a weight and a flag. -/
def tripleElem (x : List Rat × Option Rat × Bool) : Elem :=
  .list [.other, (match x.2.1 with | some w => .float w | Option.none => .none), .other]

/-- A value of `get_dict` as the constructor's checks see it. -/
def DictVal.arg : DictVal → Val
  | .entry v => v
  | .points l => .list (l.map tripleElem)

/-- The result of `get_dict` as argument `kpoints_dict`. -/
def dictArg (d : Dict Str DictVal) : Entries := d.map fun p => (p.1, p.2.arg)

/-- kpoints.py:834-853 `get_string`: what `_write` writes into an `io.StringIO`. -/
def getString (prec : Nat) (e : Entries) : Res Str := write prec e

end Verif.Kpoints
