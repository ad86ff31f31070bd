import Verif.Model.Kpoints
/-!
# Kpoints objects in memory

`Model/Kpoints.lean` treats the entries of an object as a value.  Here they are what they are in Python: `self.entries` is a reference to
a dictionary (kpoints.py:115-124: the one given as `kpoints_dict`, or the one made by `_from_list`), whose values may be references to
lists; `modify(..., point_number)` and `delete_point` change the list in place (kpoints.py:318, 364), `modify(entry, value)` stores the
reference it is given (kpoints.py:348).

Simplification: `Kpoint` objects and inner lists are values (the class never changes them).
-/
set_option autoImplicit false
namespace Verif.Kpoints
open Verif

/-- What a dictionary holds under a key: an immutable object or a reference to a list. -/
inductive Ref
  | atom (a : Atom)
  | list (addr : Nat)
  deriving DecidableEq, Repr

/-- Memory: the dictionaries and the lists, by address. -/
structure Heap where
  dicts : List (Dict Str Ref) := []
  lists : List (List Elem) := []

/-- The value behind a reference. -/
def Heap.val (h : Heap) : Ref → Val
  | .atom a => .atom a
  | .list i => .list (h.lists[i]?.getD [])

/-- The dictionary at an address. -/
def Heap.dict (h : Heap) (d : Nat) : Dict Str Ref := h.dicts[d]?.getD []

/-- What a caller sees in the dictionary at an address. -/
def Heap.entries (h : Heap) (d : Nat) : Entries := (h.dict d).map fun p => (p.1, h.val p.2)

/-- A value made by an expression: a list gets a new address. -/
def Heap.alloc (h : Heap) : Val → Heap × Ref
  | .atom a => (h, .atom a)
  | .list l => ({ h with lists := h.lists ++ [l] }, .list h.lists.length)

/-- The values of a dictionary made by an expression. -/
def Heap.allocAll (h : Heap) : Entries → Heap × Dict Str Ref
  | [] => (h, [])
  | (k, v) :: r =>
    let a := h.alloc v
    let b := a.1.allocAll r
    (b.1, (k, a.2) :: b.2)

/-- A dictionary made by an expression, or by `_from_list` (kpoints.py:272-284). -/
def Heap.newDict (h : Heap) (e : Entries) : Heap × Nat :=
  let b := h.allocAll e
  ({ b.1 with dicts := b.1.dicts ++ [b.2] }, b.1.dicts.length)

/-- kpoints.py:286-348 `modify(entry, value, point_number)` on the object whose entries are at address `d`. -/
def modifyH (h : Heap) (d : Nat) (entry : Str) (r : Ref) (pointNumber : Option Int) : Res Heap :=
  checkAllowed entry >>= fun _ =>
  checkDict (h.entries d) >>= fun _ =>
  match pointNumber with
  | some n =>
    checkPoint (h.entries d) (h.val r) >>= fun _ => checkPointNumber (h.entries d) n >>= fun _ =>
    match (h.dict d).get? c!"points" with
    | some (.list a) => match pyIndex n (h.lists[a]?.getD []).length with
      | some i => .ok { h with lists := h.lists.set a ((h.lists[a]?.getD []).set i (elemOf (h.val r))) }
      | Option.none => .raise .indexError
    | some (.atom _) => .raise .typeError
    | Option.none => .raise .keyError
  | Option.none =>
    checkEntry (h.entries d) entry (h.val r) >>= fun _ => .ok { h with dicts := h.dicts.set d ((h.dict d).set entry r) }

/-- kpoints.py:350-364 `delete_point` on the object whose entries are at address `d`. -/
def deletePointH (h : Heap) (d : Nat) (n : Int) : Res Heap :=
  checkPoints (h.entries d) .none >>= fun _ => checkPointNumber (h.entries d) n >>= fun _ =>
  match (h.dict d).get? c!"points" with
  | some (.list a) => match pyIndex n (h.lists[a]?.getD []).length with
    | some i => .ok { h with lists := h.lists.set a ((h.lists[a]?.getD []).eraseIdx i) }
    | Option.none => .raise .indexError
  | some (.atom _) => .raise .typeError
  | Option.none => .raise .keyError

/-- Memory and the objects: the address of `self.entries` of each. -/
structure World where
  heap : Heap := {}
  objects : List Nat := []

/-- What a program does. Objects are numbered in the order of their construction. -/
inductive Call
  /-- `Kpoints(kpoints_string=...)`, `Kpoints(file_path=...)`, `Kpoints(file_handler=...)`; the dictionary argument is not used here. -/
  | fromText (s : Sources)
  /-- `Kpoints(kpoints_dict={...})` with a dictionary made for this call. -/
  | fromNewDict (e : Entries)
  /-- `x = {...}` -/
  | makeDict (e : Entries)
  /-- `Kpoints(kpoints_dict=x)` with the dictionary at this address. -/
  | fromDict (d : Nat)
  /-- `o.modify(entry, value, n)` with a value made for this call. -/
  | modify (o : Nat) (entry : Str) (v : Val) (n : Option Int)
  /-- `o.modify(entry, x, n)` with the list at this address. -/
  | modifyRef (o : Nat) (entry : Str) (addr : Nat) (n : Option Int)
  /-- `o.delete_point(n)` -/
  | deletePoint (o : Nat) (n : Int)

/-- A call; one that exits or raises leaves all objects as they are. -/
def World.step (w : World) : Call → World
  | .fromText s => match init { s with dict := Option.none } with
    | .ok e => let b := w.heap.newDict e; ⟨b.1, w.objects ++ [b.2]⟩
    | _ => w
  | .fromNewDict e => match init { dict := some e } with
    | .ok e => let b := w.heap.newDict e; ⟨b.1, w.objects ++ [b.2]⟩
    | _ => w
  | .makeDict e => ⟨(w.heap.newDict e).1, w.objects⟩
  | .fromDict d => match init { dict := some (w.heap.entries d) } with
    | .ok _ => ⟨w.heap, w.objects ++ [d]⟩
    | _ => w
  | .modify o entry v n => match w.objects[o]? with
    | some d =>
      let a := w.heap.alloc v
      match modifyH a.1 d entry a.2 n with
      | .ok h => ⟨h, w.objects⟩
      | _ => w
    | Option.none => w
  | .modifyRef o entry addr n => match w.objects[o]? with
    | some d => match modifyH w.heap d entry (.list addr) n with
      | .ok h => ⟨h, w.objects⟩
      | _ => w
    | Option.none => w
  | .deletePoint o n => match w.objects[o]? with
    | some d => match deletePointH w.heap d n with
      | .ok h => ⟨h, w.objects⟩
      | _ => w
    | Option.none => w

/-- A program. -/
def World.run (w : World) (cs : List Call) : World := cs.foldl World.step w

/-- What the objects hold. -/
def World.views (w : World) : List Entries := w.objects.map w.heap.entries

end Verif.Kpoints
