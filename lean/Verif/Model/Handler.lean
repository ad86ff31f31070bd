import Verif.Model.Incar
import Verif.Model.Kpoints
import Verif.Model.Poscar
import Verif.Model.Potcar
import Verif.Model.Chgcar
import Verif.Model.Doscar
import Verif.Model.Eigenval
import Verif.Model.Outcar
import Verif.Model.Stream
import Verif.Model.Vasprun
/-!
# File handlers: the text and the position in it

In the other modules a handler is the text it delivers. Here it is an open file with a position. Every parser but `Xml` reads from the
position to the end (utils.py:47-52 `read()` or `readlines()`) and neither rewinds nor closes the handler. Not modelled: closed handlers,
handlers opened for writing, positions of a text file on disk that are not numbers of characters.
-/
set_option autoImplicit false
namespace Verif.Handlers
open Verif

/-- An open file. -/
structure Handler where
  text : Str
  pos : Nat := 0
  deriving DecidableEq, Repr

/-- What `read()` delivers; `readlines()` cuts it into lines. -/
def Handler.rest (h : Handler) : Str := h.text.drop h.pos
/-- The handler after `read()` or `readlines()`. -/
def Handler.afterRead (h : Handler) : Handler := { h with pos := max h.pos h.text.length }
/-- `seek(n)`. -/
def Handler.seek (h : Handler) (n : Nat) : Handler := { h with pos := n }
/-- `seek(0, 2)`. -/
def Handler.seekEnd (h : Handler) : Handler := { h with pos := h.text.length }

/-- A class with its arguments other than the source. -/
inductive Class (Rx : Type)
  | incar (F : FloatEnv) (allowed : List Str) (validateTags : Bool)
  | kpoints
  | poscar
  | potcar
  | chgcar
  | doscar (nonCollinear : Bool)
  | eigenval
  | outcar
  | stream (E : Stream.Engine Rx) (dflt : Stream.Config Rx) (user : Option (Stream.Config Rx)) (history : Bool)

/-- An object of one of the classes. -/
inductive Object (Rx : Type)
  | incar (e : Incar.Entries)
  | kpoints (e : Kpoints.Entries)
  | poscar (e : Poscar.Entries)
  | potcar (d : Potcar.Data)
  | chgcar (d : Chgcar.Data)
  | doscar (d : Doscar.Data)
  | eigenval (d : Eigenval.Data)
  | outcar (d : Outcar.Data)
  | stream (o : Stream.Object Rx)

variable {Rx : Type}

/-- The constructors with a path only (`some text` what the file holds, `none` if there is no such file). -/
def fromPath (c : Class Rx) (file : Option Str) : Res (Object Rx) :=
  match c with
  | .incar F a v => Incar.init F a v { path := some file } >>= fun x => .ok (.incar x)
  | .kpoints => Kpoints.init { path := some file } >>= fun x => .ok (.kpoints x)
  | .poscar => Poscar.init { path := some file } >>= fun x => .ok (.poscar x)
  | .potcar => Potcar.init (some file) none >>= fun x => .ok (.potcar x)
  | .chgcar => Chgcar.init (some file) none >>= fun x => .ok (.chgcar x)
  | .doscar n => Doscar.init (some file) none n >>= fun x => .ok (.doscar x)
  | .eigenval => Eigenval.init (some file) none >>= fun x => .ok (.eigenval x)
  | .outcar => Outcar.init (some file) none >>= fun x => .ok (.outcar x)
  | .stream E d u h => Stream.init E d u h (some file) none >>= fun x => .ok (.stream x)

/-- The constructors with a handler only, given what the handler delivers. -/
def fromHandler (c : Class Rx) (t : Str) : Res (Object Rx) :=
  match c with
  | .incar F a v => Incar.init F a v { handler := some t } >>= fun x => .ok (.incar x)
  | .kpoints => Kpoints.init { handler := some t } >>= fun x => .ok (.kpoints x)
  | .poscar => Poscar.init { handler := some t } >>= fun x => .ok (.poscar x)
  | .potcar => Potcar.init none (some t) >>= fun x => .ok (.potcar x)
  | .chgcar => Chgcar.init none (some t) >>= fun x => .ok (.chgcar x)
  | .doscar n => Doscar.init none (some t) n >>= fun x => .ok (.doscar x)
  | .eigenval => Eigenval.init none (some t) >>= fun x => .ok (.eigenval x)
  | .outcar => Outcar.init none (some t) >>= fun x => .ok (.outcar x)
  | .stream E d u h => Stream.init E d u h none (some t) >>= fun x => .ok (.stream x)

/-- Does the constructor come to read the handler? Only the stream scanner does something before that can fail (stream.py:60-71: the
configuration). -/
def reads : Class Rx → Bool
  | .stream E d u _ =>
    let config := match u with
      | some u => Stream.update d u
      | none => d
    (Stream.setStreams [] config >>= fun kinds => Stream.build E kinds config).isOk
  | _ => true

/-- utils.py:47-52 within the constructor: the handler afterwards and the outcome. -/
def make (c : Class Rx) (h : Handler) : Handler × Res (Object Rx) := (if reads c then h.afterRead else h, fromHandler c h.rest)

/-- What a program does with its handlers. -/
inductive Call (Rx : Type)
  | make (c : Class Rx) (i : Nat)
  | seek (i n : Nat)

/-- The handlers, and the outcomes of the constructions in order. -/
structure World (Rx : Type) where
  handlers : List Handler
  made : List (Res (Object Rx)) := []

/-- One call. A handler that does not exist is not used. -/
def World.step (w : World Rx) : Call Rx → World Rx
  | .make c i => match w.handlers[i]? with
    | some h => ⟨w.handlers.set i (make c h).1, w.made ++ [(make c h).2]⟩
    | none => w
  | .seek i n => { w with handlers := w.handlers.modify i fun h => h.seek n }

/-- A program. -/
def World.run (w : World Rx) (l : List (Call Rx)) : World Rx := l.foldl World.step w

/-! ### vasprun.xml -/

/-- vasprun.py:3605-3633 `_set_file_size` with a handler: `seek(0, 2)`, `tell()`, `seek(0)`. -/
def setFileSize (h : Handler) : Handler × Nat := (h.seekEnd.seek 0, h.seekEnd.pos)

/-- vasprun.py:3635-3666 `_set_xml_truncated` with a binary handler: `seek(shift)`, `readlines()[-1]`, `seek(0)`. -/
def setTruncated (h : Handler) (size : Nat) : Handler × Res Bool :=
  if size > 1024 then
    let g := h.seek (size - 1024)
    match (readlines g.rest).getLast? with
    | some l => (g.afterRead.seek 0, .ok (!contains c!"</modeling>" l))
    | none => (g.afterRead, .raise .indexError)
  else (h, .ok true)

/-- vasprun.py:169-205 with a binary handler: what lxml is given, the flag `truncated` and whether the regular parser is used. -/
def beginXml (h : Handler) (event : Bool) : Res (Str × Bool × Bool) :=
  let s := setFileSize h
  let t := setTruncated s.1 s.2
  t.2 >>= fun b => .ok (t.1.rest, b, Vasprun.regular s.2 b event)

end Verif.Handlers
