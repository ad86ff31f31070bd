import Verif.Model.Poscar
/-!
# Poscar objects in memory

`Model/Poscar.lean` treats the entries of an object as a value.  Here they are what they are in Python: `self.entries` is a reference to
a dictionary (poscar.py:106-117: the one given as `poscar_dict`, or the one made by `_from_list`), `sites` a reference to a list and every
`Site` an object that `_from_dict` changes in place (poscar.py:162-172).  `modify(..., site_number)` and `delete_site` change the list in
place (poscar.py:389, 417), `modify(entry, value)` stores the reference it is given (poscar.py:400).

Simplification: arrays, and sites in dictionary form, are values (the class never changes them).
-/
set_option autoImplicit false
namespace Verif.Poscar
open Verif Verif.Lattice
open Verif.Kpoints (pyIndex)

/-- Values that are not lists. -/
inductive Imm
  | none
  | str (s : Str)
  | cell (c : Option Cell)
  | other
  deriving DecidableEq, Repr

/-- As values. -/
def Imm.toVal : Imm → Val
  | .none => .none
  | .str s => .str s
  | .cell c => .cell c
  | .other => .other

/-- What a dictionary holds under a key: an immutable object or a reference to a list. -/
inductive PRef
  | imm (v : Imm)
  | list (addr : Nat)
  deriving DecidableEq, Repr

/-- What a list of sites holds: references to `Site` objects, or something else. -/
inductive ERef
  | site (addr : Nat)
  | dict (d : SiteDict)
  | other
  deriving DecidableEq, Repr

/-- Memory: the `Site` objects, the lists and the dictionaries, by address. -/
structure Heap where
  sites : List Site := []
  lists : List (List ERef) := []
  dicts : List (Dict Str PRef) := []

/-- The element behind a reference. -/
def Heap.elem (h : Heap) : ERef → Elem
  | .site i => match h.sites[i]? with
    | some s => .site s
    | Option.none => .other
  | .dict d => .dict d
  | .other => .other

/-- The list at an address. -/
def Heap.list (h : Heap) (a : Nat) : List ERef := h.lists[a]?.getD []

/-- The value behind a reference. -/
def Heap.val (h : Heap) : PRef → Val
  | .imm v => v.toVal
  | .list a => .sites ((h.list a).map h.elem)

/-- The dictionary at an address. -/
def Heap.dict (h : Heap) (d : Nat) : Dict Str PRef := h.dicts[d]?.getD []

/-- What a caller sees in the dictionary at an address. -/
def Heap.entries (h : Heap) (d : Nat) : Entries := (h.dict d).map fun p => (p.1, h.val p.2)

/-! ### expressions make new objects -/

/-- An element made by an expression: `Site(...)` gets a new address. -/
def Heap.allocElem (h : Heap) : Elem → Heap × ERef
  | .site s => ({ h with sites := h.sites ++ [s] }, .site h.sites.length)
  | .dict d => (h, .dict d)
  | .other => (h, .other)

/-- Elements made by an expression. -/
def Heap.allocElems (h : Heap) : List Elem → Heap × List ERef
  | [] => (h, [])
  | x :: xs =>
    let a := h.allocElem x
    let b := a.1.allocElems xs
    (b.1, a.2 :: b.2)

/-- A value made by an expression. -/
def Heap.alloc (h : Heap) : Val → Heap × PRef
  | .none => (h, .imm .none)
  | .str s => (h, .imm (.str s))
  | .cell c => (h, .imm (.cell c))
  | .other => (h, .imm .other)
  | .sites l =>
    let a := h.allocElems l
    ({ a.1 with lists := a.1.lists ++ [a.2] }, .list a.1.lists.length)

/-- The values of a dictionary made by an expression. -/
def Heap.allocAll (h : Heap) : Entries → Heap × Dict Str PRef
  | [] => (h, [])
  | (k, v) :: r =>
    let a := h.alloc v
    let b := a.1.allocAll r
    (b.1, (k, a.2) :: b.2)

/-- A dictionary made by an expression, or by `_from_list` (poscar.py:351-356). -/
def Heap.newDict (h : Heap) (e : Entries) : Heap × Nat :=
  let b := h.allocAll e
  ({ b.1 with dicts := b.1.dicts ++ [b.2] }, b.1.dicts.length)

/-! ### construction -/

/-- poscar.py:149-172, one site: a cartesian `Site` is changed in place. The new position is stored before the velocities are
converted; both conversions use the same cell, so the second fails only if the first does. -/
def convertRef (c : Option Cell) (h : Heap) (r : ERef) : Heap × Res Unit :=
  match convertElem c (h.elem r), r with
  | .ok (.site s), .site i => ({ h with sites := h.sites.set i s }, .ok ())
  | .ok _, _ => (h, .ok ())
  | .exit n, _ => (h, .exit n)
  | .raise x, _ => (h, .raise x)

/-- poscar.py:148-172, the loop; what was changed before an exception stays changed. -/
def convertRefs (c : Option Cell) (h : Heap) : List ERef → Heap × Res Unit
  | [] => (h, .ok ())
  | r :: rs => match convertRef c h r with
    | (h', .ok _) => convertRefs c h' rs
    | (h', .exit n) => (h', .exit n)
    | (h', .raise x) => (h', .raise x)

/-- poscar.py:142-172 `_from_dict` on the dictionary at address `d`. -/
def fromDictH (h : Heap) (d : Nat) : Heap × Res Unit :=
  match (h.dict d).get? c!"sites" with
  | some (.list a) => convertRefs (cellOf (h.entries d)) h (h.list a)
  | some (.imm (.str [])) => (h, .ok ())
  | some _ => (h, .raise .typeError)
  | Option.none => (h, .raise .keyError)

/-- poscar.py:112-120: `_from_dict`, then `_validate`, on the dictionary at address `d`. -/
def construct (h : Heap) (d : Nat) : Heap × Res Unit :=
  match fromDictH h d with
  | (h', .ok _) => (h', validate (h'.entries d))
  | (h', .exit n) => (h', .exit n)
  | (h', .raise x) => (h', .raise x)

/-! ### editing -/

/-- poscar.py:358-400 `modify(entry, value)` on the object whose entries are at address `d`. -/
def modifyH (h : Heap) (d : Nat) (entry : Str) (r : PRef) : Res Heap :=
  checkAllowed entry >>= fun _ => checkEntry (h.entries d) entry (h.val r) >>= fun _ =>
  .ok { h with dicts := h.dicts.set d ((h.dict d).set entry r) }

/-- poscar.py:378-389 `modify(entry, value, site_number)` on the object whose entries are at address `d`. -/
def modifySiteH (h : Heap) (d : Nat) (entry : Str) (v : Option ERef) (n : Int) : Res Heap :=
  checkAllowed entry >>= fun _ => checkSite (h.entries d) (v.map h.elem) >>= fun _ => checkSiteNumber (h.entries d) n >>= fun _ =>
  match (h.dict d).get? c!"sites" with
  | some (.list a) => match pyIndex n (h.list a).length with
    | some i => .ok { h with lists := h.lists.set a ((h.list a).set i (v.getD .other)) }
    | Option.none => .raise .indexError
  | some (.imm _) => .raise .typeError
  | Option.none => .raise .keyError

/-- poscar.py:402-417 `delete_site` on the object whose entries are at address `d`. -/
def deleteSiteH (h : Heap) (d : Nat) (n : Int) : Res Heap :=
  checkSites (h.entries d) .none >>= fun _ => checkSiteNumber (h.entries d) n >>= fun _ =>
  match (h.dict d).get? c!"sites" with
  | some (.list a) => match pyIndex n (h.list a).length with
    | some i => .ok { h with lists := h.lists.set a ((h.list a).eraseIdx i) }
    | Option.none => .raise .indexError
  | some (.imm _) => .raise .typeError
  | Option.none => .raise .keyError

/-! ### programs -/

/-- Memory and the objects: the address of `self.entries` of each. -/
structure World where
  heap : Heap := {}
  objects : List Nat := []

/-- What a program does. Objects are numbered in the order of their construction. -/
inductive Call
  /-- `Poscar(poscar_string=...)`, `Poscar(file_path=...)`, `Poscar(file_handler=...)`; the dictionary argument is not used here. -/
  | fromText (s : Sources)
  /-- `Poscar(poscar_dict={...})` with a dictionary, a list and `Site` objects made for this call. -/
  | fromNewDict (e : Entries)
  /-- `x = {...}` with new objects only -/
  | makeDict (e : Entries)
  /-- `x = {...}` with lists that exist already -/
  | makeDictOf (e : Dict Str PRef)
  /-- `Poscar(poscar_dict=x)` with the dictionary at this address. -/
  | fromDict (d : Nat)
  /-- `o.modify(entry, value)` with a value made for this call. -/
  | modify (o : Nat) (entry : Str) (v : Val)
  /-- `o.modify(entry, x)` with the list at this address. -/
  | modifyRef (o : Nat) (entry : Str) (addr : Nat)
  /-- `o.modify(entry, value, n)` with a value made for this call. -/
  | modifySite (o : Nat) (entry : Str) (v : Option Elem) (n : Int)
  /-- `o.delete_site(n)` -/
  | deleteSite (o : Nat) (n : Int)

/-- A new object, if the construction returns normally. -/
def World.construct (w : World) (d : Nat) : World :=
  match Poscar.construct w.heap d with
  | (h, .ok _) => ⟨h, w.objects ++ [d]⟩
  | (h, _) => ⟨h, w.objects⟩

/-- A call on an object: one that exits or raises changes nothing. -/
def World.call (w : World) (o : Nat) (f : Nat → Res Heap) : World :=
  match w.objects[o]? with
  | some d => match f d with
    | .ok h => ⟨h, w.objects⟩
    | _ => w
  | Option.none => w

/-- A call. -/
def World.step (w : World) : Call → World
  | .fromText s => match init { s with dict := Option.none } with
    | .ok e => ⟨(w.heap.newDict e).1, w.objects ++ [(w.heap.newDict e).2]⟩
    | _ => w
  | .fromNewDict e => World.construct ⟨(w.heap.newDict e).1, w.objects⟩ (w.heap.newDict e).2
  | .makeDict e => ⟨(w.heap.newDict e).1, w.objects⟩
  | .makeDictOf e => ⟨{ w.heap with dicts := w.heap.dicts ++ [e] }, w.objects⟩
  | .fromDict d => w.construct d
  | .modify o entry v => w.call o fun d => modifyH (w.heap.alloc v).1 d entry (w.heap.alloc v).2
  | .modifyRef o entry addr => w.call o fun d => modifyH w.heap d entry (.list addr)
  | .modifySite o entry Option.none n => w.call o fun d => modifySiteH w.heap d entry Option.none n
  | .modifySite o entry (some x) n =>
    w.call o fun d => modifySiteH (w.heap.allocElem x).1 d entry (some (w.heap.allocElem x).2) n
  | .deleteSite o n => w.call o fun d => deleteSiteH w.heap d n

/-- A program. -/
def World.run (w : World) (cs : List Call) : World := cs.foldl World.step w

/-- What the objects hold. -/
def World.views (w : World) : List Entries := w.objects.map w.heap.entries

end Verif.Poscar
