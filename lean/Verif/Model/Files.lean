import Verif.Model.Base
import Verif.Model.Incar
import Verif.Model.Kpoints
import Verif.Model.Poscar
/-! # The disk behind `write()` and the file checks (base.py, utils.py)

`Model/Base.lean` gives the file operations of a `write()` call in order. Here they act on a disk. A text file opened by
Python keeps what is written in a buffer and passes any part of it on at any time, so a run may flush any prefix of the
buffer between any two operations; a process killed at any point leaves the disk as it is then. Not modelled: the encoding
(files hold text; `'\n'` is written as it is, as on Linux), a disk that fills up, other processes, and a file object kept
alive after its `write()` call failed. -/
set_option autoImplicit false
namespace Verif.Files
open Verif Verif.Base

/-- What a path names. -/
inductive Node
  | file (content : Str)
  | dir
  deriving DecidableEq, Repr

/-- The disk: what each path names, if anything. -/
abbrev Disk := Str → Option Node

/-- The disk with another content of the file `p`. -/
def Disk.set (d : Disk) (p : Str) (content : Str) : Disk := fun q => if q = p then some (.file content) else d q

/-- The text of the file `p`, `none` if there is no such file: the `path` argument of the constructors (`some none` there
means that the file cannot be read, exit 14). -/
def Disk.read (d : Disk) (p : Str) : Option Str :=
  match d p with
  | some (.file t) => some t
  | _ => none

/-- base.py:163-165 `open(file_name, 'w')` succeeds unless the path is a directory or the system refuses (`perm`: missing
parent directory, rights, …). -/
def canOpen (perm : Str → Bool) (d : Disk) (p : Str) : Bool := perm p && d p != some .dir

/-- A running program: the disk, the file it has open with the text not yet passed on, and the text the caller's own handler
received. -/
structure World where
  disk : Disk
  handle : Option (Str × Str)
  sink : Str

/-- base.py:64-99, 130-174: the effect of one file operation. -/
inductive Step : World → Event → World → Prop
  | openFile (w : World) (p : Str) : Step w (.open p) ⟨w.disk.set p [], some (p, []), w.sink⟩
  | writeFile (w : World) (p buf s : Str) (h : w.handle = some (p, buf)) :
      Step w (.write (.file p) s) { w with handle := some (p, buf ++ s) }
  | chopFile (w : World) (p buf c : Str) (h : w.handle = some (p, buf)) (hd : w.disk p = some (.file c)) :
      Step w (.chop (.file p)) ⟨w.disk.set p (c ++ buf).dropLast, some (p, []), w.sink⟩
  | closeFile (w : World) (p buf c : Str) (h : w.handle = some (p, buf)) (hd : w.disk p = some (.file c)) :
      Step w (.close (.file p)) ⟨w.disk.set p (c ++ buf), none, w.sink⟩
  | writeHandler (w : World) (s : Str) : Step w (.write .handler s) { w with sink := w.sink ++ s }
  | chopHandler (w : World) : Step w (.chop .handler) { w with sink := w.sink.dropLast }

/-- Part of the buffer is passed on to the disk. -/
inductive Flush : World → World → Prop
  | part (w : World) (p a b c : Str) (h : w.handle = some (p, a ++ b)) (hd : w.disk p = some (.file c)) :
      Flush w ⟨w.disk.set p (c ++ a), some (p, b), w.sink⟩

/-- The worlds a program may be in after the given operations. -/
inductive Run : World → List Event → World → Prop
  | start (w : World) : Run w [] w
  | flush {w w' w'' : World} {ev : List Event} : Run w ev w' → Flush w' w'' → Run w ev w''
  | step {w w' w'' : World} {ev : List Event} {e : Event} : Run w ev w' → Step w' e w'' → Run w (ev ++ [e]) w''

/-- A call `x.write(...)` on a disk `d`. -/
def call (perm : Str → Bool) (d : Disk) (w : Writer) (a : Args) : List Event × Res Unit := write (canOpen perm d) w a

/-- The world before a call. -/
def World.before (d : Disk) : World := ⟨d, none, []⟩

/-- `Crash perm d w a d'`: the program calls `x.write(...)` with disk `d` and is killed at some point of the call, which
leaves the disk `d'`. -/
def Crash (perm : Str → Bool) (d : Disk) (w : Writer) (a : Args) (d' : Disk) : Prop :=
  ∃ done rest s, (call perm d w a).1 = done ++ rest ∧ Run (.before d) done s ∧ s.disk = d'

/-- `Ends perm d w a r d' sink`: the call ends with the outcome `r`, the disk is then `d'` and the caller's handler got the
text `sink`. -/
def Ends (perm : Str → Bool) (d : Disk) (w : Writer) (a : Args) (r : Res Unit) (d' : Disk) (sink : Str) : Prop :=
  ∃ s, (call perm d w a).2 = r ∧ Run (.before d) (call perm d w a).1 s ∧ s.disk = d' ∧ s.sink = sink

/-- A writer that produces the text `t` of the model's `_write`, in whatever pieces, or fails like it, after whatever pieces
(the models of `_write` give the text of a normal return only). -/
def Writes (w : Writer) : Res Str → Prop
  | .ok t => w.result = .ok () ∧ (if w.chop then w.pieces.flatten.dropLast else w.pieces.flatten) = t
  | .exit c => w.result = .exit c
  | .raise e => w.result = .raise e

/-- stream.py:85-87, chgcar.py:48-50, vasprun.py:181-183, outcar.py:98-100, doscar.py:143-145, eigenval.py:46-48: `_write` of
the read-only parsers. -/
def readOnlyWriter : Writer := ⟨[], .raise .notImplementedError, false⟩

/-- potcar.py:211-212 `_write` of Potcar: `pass`. -/
def potcarWriter : Writer := ⟨[], .ok (), false⟩

/-- kpoints.py:866, poscar.py:840: `_validate` comes first, so a failing check writes nothing. -/
def refusedWriter (r : Res Unit) : Writer := ⟨[], r, false⟩

/-- incar.py:414-444 `_write`: one `write` per tag, in order of the tags. -/
def incarWriter (comments : Bool) (d : Incar.Entries) : Writer :=
  ⟨(Incar.sortStrs d.keys).map fun k => match d.get? k with
    | some item => Incar.writeLine comments k item
    | none => [], .ok (), false⟩

/-- utils.py:86-120 `file_exists`: exit 16 for an empty path (`None` or `''`), else whether `os.stat` finds anything. -/
def fileExists (d : Disk) (p : Option Str) : Res Bool :=
  match p with
  | none => .exit 16
  | some [] => .exit 16
  | some p => .ok (d p).isSome

/-- base.py:101-123 `_check_file`: exit 14 unless the path (the argument, or the one of the object) is a regular file. An
object without a path: `os.path.isfile(None)` raises `TypeError`. -/
def checkFile (d : Disk) (own arg : Option Str) : Res Unit :=
  match (match arg with
    | some p => some p
    | none => own) with
  | none => .raise .typeError
  | some p => if (d.read p).isSome then .ok () else .exit 14

end Verif.Files
