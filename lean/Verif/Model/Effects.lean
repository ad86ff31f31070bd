import Verif.Model.KpointsHeap
import Verif.Model.PoscarHeap
import Verif.Model.Incar
/-!
# The editing methods statement by statement

In the other modules a method that fails has no result.  In Python it also has an effect: whatever was assigned before the exception stays
assigned (an exception, `SystemExit` included, can be caught by the caller).  Here the methods that change objects are written as the
sequences of statements they are, over the memory of `Model/KpointsHeap.lean` and `Model/PoscarHeap.lean`.
-/
set_option autoImplicit false
namespace Verif

/-- A piece of Python: from a memory to the memory afterwards, and the outcome. -/
def Prog (σ α : Type) : Type := σ → σ × Res α

namespace Prog
variable {σ α β : Type}

/-- One statement after the other: the first failure ends it, the memory stays as it is then. -/
def bind (p : Prog σ α) (f : α → Prog σ β) : Prog σ β := fun s =>
  match p s with
  | (s', .ok a) => f a s'
  | (s', .exit c) => (s', .exit c)
  | (s', .raise e) => (s', .raise e)

/-- An expression without side effects, evaluated in the present memory; it may fail. -/
def eval (f : σ → Res α) : Prog σ α := fun s => (s, f s)

/-- An assignment. -/
def assign (f : σ → σ) : Prog σ Unit := fun s => (f s, .ok ())

/-- A loop over a list. -/
def forEach (body : β → Prog σ Unit) : List β → Prog σ Unit
  | [] => eval fun _ => .ok ()
  | b :: bs => bind (body b) fun _ => forEach body bs

end Prog
open Prog

/-! ### Incar -/

namespace Incar

/-- incar.py:306-324 `modify`: the item is made and checked, then stored. -/
def modifyS (F : FloatEnv) (tag : Str) (value : Value) (comment : Option Str) : Prog Entries Unit :=
  (eval fun _ => cleanEntry F tag value comment).bind fun item => assign fun d => d.set item.tag item

/-- incar.py:326-339 `delete`: a missing tag is caught. -/
def deleteS (tag : Str) : Prog Entries Unit := assign fun d => d.del tag

end Incar

/-! ### Kpoints -/

namespace Kpoints

/-- `self.entries['points'][n]`, the place: the list in memory and the position. -/
def placeOf (h : Heap) (d : Nat) (n : Int) : Res (Nat × Nat) :=
  match (h.dict d).get? c!"points" with
  | some (.list a) => match pyIndex n (h.lists[a]?.getD []).length with
    | some i => .ok (a, i)
    | Option.none => .raise .indexError
  | some (.atom _) => .raise .typeError
  | Option.none => .raise .keyError

/-- kpoints.py:286-348 `modify(entry, value, point_number)` on the object whose entries are at address `d`. -/
def modifyS (d : Nat) (entry : Str) (r : Ref) (pointNumber : Option Int) : Prog Heap Unit :=
  (eval fun _ => checkAllowed entry).bind fun _ =>
  (eval fun h => checkDict (h.entries d)).bind fun _ =>
  match pointNumber with
  | some n =>
    (eval fun h => checkPoint (h.entries d) (h.val r)).bind fun _ =>
    (eval fun h => checkPointNumber (h.entries d) n).bind fun _ =>
    (eval fun h => placeOf h d n).bind fun p =>
    assign fun h => { h with lists := h.lists.set p.1 ((h.lists[p.1]?.getD []).set p.2 (elemOf (h.val r))) }
  | Option.none =>
    (eval fun h => checkEntry (h.entries d) entry (h.val r)).bind fun _ =>
    assign fun h => { h with dicts := h.dicts.set d ((h.dict d).set entry r) }

/-- kpoints.py:350-364 `delete_point` on the object whose entries are at address `d`. -/
def deletePointS (d : Nat) (n : Int) : Prog Heap Unit :=
  (eval fun h => checkPoints (h.entries d) .none).bind fun _ =>
  (eval fun h => checkPointNumber (h.entries d) n).bind fun _ =>
  (eval fun h => placeOf h d n).bind fun p =>
  assign fun h => { h with lists := h.lists.set p.1 ((h.lists[p.1]?.getD []).eraseIdx p.2) }

/-- kpoints.py:366-379 `add_point`. -/
def addPointS : Prog Heap Unit := eval fun _ => .raise .notImplementedError

/-- kpoints.py:115-127 `Kpoints(kpoints_dict=x)`: the dictionary is stored and checked. -/
def constructS (d : Nat) : Prog Heap Unit := eval fun h => validate (h.entries d)

end Kpoints

/-! ### Poscar -/

namespace Poscar
open Verif.Kpoints (pyIndex)

/-- `self.entries['sites'][n]`, the place. -/
def placeOf (h : Heap) (d : Nat) (n : Int) : Res (Nat × Nat) :=
  match (h.dict d).get? c!"sites" with
  | some (.list a) => match pyIndex n (h.list a).length with
    | some i => .ok (a, i)
    | Option.none => .raise .indexError
  | some (.imm _) => .raise .typeError
  | Option.none => .raise .keyError

/-- poscar.py:358-400 `modify(entry, value)` on the object whose entries are at address `d`. -/
def modifyS (d : Nat) (entry : Str) (r : PRef) : Prog Heap Unit :=
  (eval fun _ => checkAllowed entry).bind fun _ =>
  (eval fun h => checkEntry (h.entries d) entry (h.val r)).bind fun _ =>
  assign fun h => { h with dicts := h.dicts.set d ((h.dict d).set entry r) }

/-- poscar.py:378-389 `modify(entry, value, site_number)` on the object whose entries are at address `d`. -/
def modifySiteS (d : Nat) (entry : Str) (v : Option ERef) (n : Int) : Prog Heap Unit :=
  (eval fun _ => checkAllowed entry).bind fun _ =>
  (eval fun h => checkSite (h.entries d) (v.map h.elem)).bind fun _ =>
  (eval fun h => checkSiteNumber (h.entries d) n).bind fun _ =>
  (eval fun h => placeOf h d n).bind fun p =>
  assign fun h => { h with lists := h.lists.set p.1 ((h.list p.1).set p.2 (v.getD .other)) }

/-- poscar.py:402-417 `delete_site` on the object whose entries are at address `d`. -/
def deleteSiteS (d : Nat) (n : Int) : Prog Heap Unit :=
  (eval fun h => checkSites (h.entries d) .none).bind fun _ =>
  (eval fun h => checkSiteNumber (h.entries d) n).bind fun _ =>
  (eval fun h => placeOf h d n).bind fun p =>
  assign fun h => { h with lists := h.lists.set p.1 ((h.list p.1).eraseIdx p.2) }

/-- poscar.py:419-433 `add_site`. -/
def addSiteS : Prog Heap Unit := eval fun _ => .raise .notImplementedError

/-- Change the `Site` at an address. -/
def setSite (i : Nat) (f : Site → Site) (h : Heap) : Heap := { h with sites := h.sites.modify i f }

/-- poscar.py:149-172, one turn of the loop: a cartesian `Site` gets its position (line 168), then its velocities (line 171), then its
flag (line 172). Every other element is only looked at: what is made of a dictionary is dropped. -/
def convertS (c : Option Cell) (r : ERef) : Prog Heap Unit :=
  (eval fun h => .ok (h.elem r)).bind fun x =>
  match r, x with
  | .site i, .site s =>
    if s.direct then eval fun _ => .ok ()
    else
      (eval fun _ => toDirect s.position c).bind fun p =>
      (assign (setSite i fun t => { t with position := p })).bind fun _ =>
      (match s.velocities with
        | some v => (eval fun _ => toDirect v c).bind fun v' => assign (setSite i fun t => { t with velocities := some v' })
        | Option.none => eval fun _ => .ok ()).bind fun _ =>
      assign (setSite i fun t => { t with direct := true })
  | _, x => (eval fun _ => convertElem c x).bind fun _ => eval fun _ => .ok ()

/-- poscar.py:142-172 `_from_dict` on the dictionary at address `d`. -/
def fromDictS (d : Nat) : Prog Heap Unit :=
  (eval fun h => .ok (h.dict d, cellOf (h.entries d), h)).bind fun q =>
  match q.1.get? c!"sites" with
  | some (.list a) => forEach (convertS q.2.1) (q.2.2.list a)
  | some (.imm (.str [])) => eval fun _ => .ok ()
  | some _ => eval fun _ => .raise .typeError
  | Option.none => eval fun _ => .raise .keyError

/-- poscar.py:112-120 `Poscar(poscar_dict=x)`: `_from_dict`, then `_validate`. -/
def constructS (d : Nat) : Prog Heap Unit :=
  (fromDictS d).bind fun _ => eval fun h => validate (h.entries d)

end Poscar
end Verif
