import Verif.Model.Incar
/-!
# Incar objects in memory

`Model/Incar.lean` treats the values of an object as values.  In Python a list is an object: `IncarItem` keeps the list it is given
(incar.py:582-590 `clean_value = value`), `get` hands it out (incar.py:366, 476) and so does `get_dict` (incar.py:390).  The dictionary
of entries is made by each object for itself (incar.py:104-107, 192-240), a list of several tokens by each `IncarItem` (incar.py:552-567).

Simplification: list elements are scalars. What `get_dict` hands out is what `get` hands out for each tag.
-/
set_option autoImplicit false
namespace Verif.Incar
open Verif

/-- A Python value: a scalar, a reference to a list, or something else (`None` included). -/
inductive IRef
  | scalar (s : Scalar)
  | list (addr : Nat)
  | other
  deriving DecidableEq, Repr

/-- incar.py:447-493 `IncarItem` with its value as a reference. -/
structure ItemH where
  tag : Str
  value : IRef
  comment : Option Str
  deriving DecidableEq, Repr

/-- The lists in memory, by address. -/
abbrev Lists := List (List Scalar)

/-- The value behind a reference. -/
def Lists.val (h : Lists) : IRef → Value
  | .scalar s => .one s
  | .list a => .list (h[a]?.getD [])
  | .other => .other

/-- A value made by an expression: a list gets a new address. -/
def Lists.alloc (h : Lists) : Value → Lists × IRef
  | .one s => (h, .scalar s)
  | .list l => (h ++ [l], .list h.length)
  | .other => (h, .other)

/-- incar.py:495-599 `_clean_entry`: a list is kept as it is given, everything else is made new. -/
def cleanEntryH (F : FloatEnv) (h : Lists) (tag : Str) (r : IRef) (comment : Option Str) : Res (Lists × ItemH) :=
  cleanEntry F tag (h.val r) comment >>= fun item =>
  match r with
  | .list a => .ok (h, ⟨item.tag, .list a, item.comment⟩)
  | _ => .ok ((h.alloc item.value).1, ⟨item.tag, (h.alloc item.value).2, item.comment⟩)

/-- incar.py:216-234, one item of the dictionary. -/
def dictItemH (F : FloatEnv) (h : Lists) (tag : Str) (r : IRef) : Res (Lists × ItemH) :=
  match r with
  | .scalar (.str s) => match splitOn '#' s with
    | [_] => cleanEntryH F h tag r none
    | [v, c] => cleanEntryH F h tag (.scalar (.str v)) (some c)
    | _ => .exit 103
  | _ => cleanEntryH F h tag r none

/-- `self.entries` with references. -/
abbrev EntriesH := Dict Str ItemH

/-- incar.py:192-240 `_from_dict`. -/
def fromDictH (F : FloatEnv) (h : Lists) (items : List (Str × IRef)) : Res (Lists × EntriesH) :=
  Res.foldlM' (fun (s : Lists × EntriesH) (p : Str × IRef) =>
    dictItemH F s.1 p.1 p.2 >>= fun r => .ok (r.1, s.2.set r.2.tag r.2)) (h, []) items

/-- What a caller sees in an item. -/
def viewItem (h : Lists) (i : ItemH) : Item := ⟨i.tag, h.val i.value, i.comment⟩

/-- What a caller sees in the entries. -/
def view (h : Lists) (d : EntriesH) : Entries := d.map fun p => (p.1, viewItem h p.2)

/-- incar.py:127-190: the entries made from a text, all of them new. -/
def storeAll (h : Lists) : Entries → Lists × EntriesH
  | [] => (h, [])
  | (k, i) :: r =>
    let a := h.alloc i.value
    let b := storeAll a.1 r
    (b.1, (k, ⟨i.tag, a.2, i.comment⟩) :: b.2)

/-- An argument: an expression with a new value, or a variable of the caller. -/
inductive Arg
  | new (v : Value)
  | var (i : Nat)

/-- Memory, the objects and the variables of the caller. -/
structure World where
  lists : Lists := []
  objects : List EntriesH := []
  vars : List IRef := []

/-- What a program does. Objects and variables are numbered in the order in which they are made. -/
inductive Call
  /-- `x = [...]` or another value -/
  | bind (v : Value)
  /-- `Incar(incar_string=...)`, `Incar(file_path=...)`, `Incar(file_handler=...)`; the dictionary argument is not used here -/
  | fromText (s : Sources)
  /-- `Incar(incar_dict={...})` -/
  | fromDict (items : List (Str × Arg))
  /-- `o.modify(tag, value, comment)` -/
  | modify (o : Nat) (tag : Str) (v : Arg) (comment : Option Str)
  /-- `o.delete(tag)` -/
  | delete (o : Nat) (tag : Str)
  /-- `x = o.get(tag)` or `x = o.get_dict()[tag]` -/
  | get (o : Nat) (tag : Str)
  /-- `x[k] = s` (the caller changes a list in place) -/
  | setItem (x k : Nat) (s : Scalar)

/-- The reference an argument evaluates to. -/
def evalArg (w : World) (h : Lists) : Arg → Lists × IRef
  | .new v => h.alloc v
  | .var i => (h, (w.vars[i]?).getD .other)

/-- The references of the values of a dictionary expression. -/
def evalArgs (w : World) (h : Lists) : List (Str × Arg) → Lists × List (Str × IRef)
  | [] => (h, [])
  | (k, a) :: r =>
    let x := evalArg w h a
    let y := evalArgs w x.1 r
    (y.1, (k, x.2) :: y.2)

/-- incar.py:101-107: the entries are stored, then checked. -/
def checked (validateTags : Bool) (allowed : List Str) (w : World) (r : Res (Lists × EntriesH)) : World :=
  match r with
  | .ok (h, d) => match validate validateTags allowed (view h d) with
    | .ok _ => { w with lists := h, objects := w.objects ++ [d] }
    | _ => w
  | _ => w

/-- A call; one that exits or raises leaves everything as it is (C104). -/
def World.step (F : FloatEnv) (validateTags : Bool) (allowed : List Str) (w : World) : Call → World
  | .bind v => { w with lists := (w.lists.alloc v).1, vars := w.vars ++ [(w.lists.alloc v).2] }
  | .fromText s => match init F allowed validateTags { s with dict := none } with
    | .ok e => { w with lists := (storeAll w.lists e).1, objects := w.objects ++ [(storeAll w.lists e).2] }
    | _ => w
  | .fromDict items => checked validateTags allowed w (fromDictH F (evalArgs w w.lists items).1 (evalArgs w w.lists items).2)
  | .modify o tag v comment => match w.objects[o]? with
    | some d => match cleanEntryH F (evalArg w w.lists v).1 tag (evalArg w w.lists v).2 comment with
      | .ok (h, item) => { w with lists := h, objects := w.objects.set o (d.set item.tag item) }
      | _ => w
    | none => w
  | .delete o tag => match w.objects[o]? with
    | some d => { w with objects := w.objects.set o (d.del tag) }
    | none => w
  | .get o tag => match w.objects[o]? with
    | some d => { w with vars := w.vars ++ [((d.get? tag).map ItemH.value).getD .other] }
    | none => w
  | .setItem x k s => match w.vars[x]? with
    | some (.list a) => { w with lists := w.lists.modify a fun l => l.set k s }
    | _ => w

/-- A program. -/
def World.run (F : FloatEnv) (validateTags : Bool) (allowed : List Str) (w : World) (cs : List Call) : World :=
  cs.foldl (World.step F validateTags allowed) w

/-- What the objects hold. -/
def World.views (w : World) : List Entries := w.objects.map (view w.lists)

end Verif.Incar
