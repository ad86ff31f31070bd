import Verif.Model.Files
/-!
# What `_write` does to an open file

`Model/Kpoints.lean` and `Model/Poscar.lean` give the text of a `_write` that returns. Here are its single `write` calls in order, also
those made before a failure, and an output file with a position: `write` overwrites from the position on, past the end it fills up with
NUL characters, `truncate(n)` cuts the file and leaves the position where it is (`io.StringIO`, a file opened with 'w', 'r+' or 'a').
Not modelled: a file opened without the right to write, positions that are not numbers of characters (texts outside ASCII on disk).
-/
set_option autoImplicit false
namespace Verif.Output
open Verif Verif.Base

/-! ### single writes -/

/-- A piece of `_write`: the texts written so far and how it ended. -/
abbrev Prog := List Str × Res Unit

/-- `file_handler.write(s)`. -/
def put (s : Str) : Prog := ([s], .ok ())

/-- One after the other. -/
def seq (a b : Prog) : Prog :=
  match a.2 with
  | .ok () => (a.1 ++ b.1, b.2)
  | .exit c => (a.1, .exit c)
  | .raise e => (a.1, .raise e)

/-- A computation that writes nothing, then the rest. -/
def after {α : Type} (r : Res α) (f : α → Prog) : Prog :=
  match r with
  | .ok a => f a
  | .exit c => ([], .exit c)
  | .raise e => ([], .raise e)

/-- Nothing. -/
def skip : Prog := ([], .ok ())

/-- A loop that writes one text per element. -/
def each {α : Type} (f : α → Res Str) : List α → Prog
  | [] => skip
  | a :: l => after (f a) fun s => seq (put s) (each f l)

/-! ### KPOINTS -/

/-- kpoints.py:868-873 the comment. -/
def kpointsHead (c : Kpoints.Val) : Str :=
  match c with
  | .atom (.str s) => c!"# " ++ s ++ ['\n']
  | _ => c!"# No comment\n"

/-- `for point in entries['points']`. -/
def eachPoint (v : Kpoints.Val) (f : Kpoints.Elem → Res Str) : Prog :=
  match v with
  | .list l => each f l
  | .atom (.str []) => skip
  | .atom (.str _) => ([], .raise .attributeError)
  | _ => ([], .raise .typeError)

/-- kpoints.py:902-918 the tetrahedra. -/
def tetraProg (prec : Nat) (e : Kpoints.Entries) (tetra : Kpoints.Val) : Prog :=
  match tetra with
  | .list rows =>
    seq (put c!"Tetrahedra\n") <|
    after (Kpoints.lookup e c!"tetra_volume") fun vol => match vol with
    | .atom (.float x) =>
      seq (put (fmtInt 6 rows.length ++ [' '] ++ fmtFixed (prec + 4) prec x ++ ['\n'])) <|
      each (fun r => Kpoints.tetraInts r >>= fun is => .ok (Kpoints.intRow 6 is)) rows
    | _ => ([], .raise .typeError)
  | _ => skip

/-- kpoints.py:877-918 explicit mode. -/
def explicitProg (prec : Nat) (e : Kpoints.Entries) : Prog :=
  after (Kpoints.lookup e c!"num_kpoints") fun n => match n with
  | .atom (.int num) =>
    seq (put (fmtInt 6 num ++ ['\n'])) <| seq (put c!"Direct\n") <|
    after (Kpoints.lookup e c!"points") fun pts => seq (eachPoint pts (Kpoints.writePoint prec)) <|
    after (Kpoints.lookup e c!"tetra") fun t => tetraProg prec e t
  | _ => ([], .raise .typeError)

/-- kpoints.py:923-928 the divisions. -/
def divisionsProg (prec : Nat) : Kpoints.Val → Prog
  | .list l => after (Kpoints.three l >>= Res.mapM' Kpoints.intElem) fun is => put (Kpoints.intRow (prec + 4) is)
  | _ => skip

/-- kpoints.py:930-935 the generating vectors. -/
def vectorsProg (prec : Nat) : Kpoints.Val → Prog
  | .list l => each (fun r => Kpoints.floatElems r >>= fun xs => .ok (Kpoints.floatRow prec xs)) l
  | _ => skip

/-- kpoints.py:919-946 automatic mode. -/
def automaticProg (prec : Nat) (e : Kpoints.Entries) : Prog :=
  seq (put c!"0\n") <|
  after (Kpoints.lookup e c!"centering") fun cen => match cen with
  | .atom (.str s) => seq (put (s ++ ['\n'])) <|
    after (Kpoints.lookup e c!"divisions") fun d => seq (divisionsProg prec d) <|
    after (Kpoints.lookup e c!"generating_vectors") fun g => seq (vectorsProg prec g) <|
    after (Kpoints.lookup e c!"shifts") fun sh => after (Kpoints.writeShifts prec sh) put
  | _ => ([], .raise .typeError)

/-- kpoints.py:953-965 the points of line mode; `b`: this point completes a pair. -/
def linePoints (prec : Nat) (b : Bool) : List Kpoints.Elem → Prog
  | [] => skip
  | p :: ps => after (Kpoints.writeLinePoint prec p) fun s => seq (put s) <|
    seq (if b then put ['\n'] else skip) (linePoints prec (!b) ps)

/-- kpoints.py:948-965 line mode, without `remove_newline`. -/
def lineProg (prec : Nat) (e : Kpoints.Entries) : Prog :=
  after (Kpoints.lookup e c!"num_kpoints") fun n => match n with
  | .atom (.int num) =>
    seq (put (fmtInt 6 num ++ ['\n'])) <| seq (put c!"Line-mode\n") <| seq (put c!"Direct\n") <|
    after (Kpoints.lookup e c!"points") fun pts => match pts with
    | .list l => linePoints prec false l
    | .atom (.str []) => skip
    | .atom (.str _) => ([], .raise .attributeError)
    | _ => ([], .raise .typeError)
  | _ => ([], .raise .typeError)

/-- kpoints.py:855-965 `_write`. -/
def kpointsProg (prec : Nat) (e : Kpoints.Entries) : Prog :=
  after (Kpoints.validate e) fun _ =>
  after (Kpoints.lookup e c!"comment") fun c =>
  seq (put (kpointsHead c)) <|
  after (Kpoints.lookup e c!"mode") fun m =>
  if m = .atom (.str c!"explicit") then explicitProg prec e
  else if m = .atom (.str c!"automatic") then automaticProg prec e
  else if m = .atom (.str c!"line") then lineProg prec e
  else skip

/-- kpoints.py:855-966 with utils.py:226-246: line mode ends with `remove_newline`. -/
def kpointsWriter (prec : Nat) (e : Kpoints.Entries) : Writer :=
  ⟨(kpointsProg prec e).1, (kpointsProg prec e).2, decide (e.get? c!"mode" = some (.atom (.str c!"line")))⟩

/-! ### POSCAR -/

/-- poscar.py:894-911 a position: coordinates, flags, newline. -/
def siteProg (prec : Nat) (direct : Bool) (c : Poscar.Cell) (sel : Bool) (s : Poscar.Site) : Prog :=
  seq (put (Poscar.vecLine prec (if direct then s.position else Lattice.dirToCart s.position c))) <|
  seq (if sel then put ([' '] ++ Poscar.flagStr s.selective.1 ++ [' '] ++ Poscar.flagStr s.selective.2.1 ++ [' '] ++
    Poscar.flagStr s.selective.2.2) else skip) <|
  put ['\n']

/-- poscar.py:894-911 the positions. -/
def sitesProg (prec : Nat) (direct : Bool) (c : Poscar.Cell) (sel : Bool) : List Poscar.Site → Prog
  | [] => skip
  | s :: ss => seq (siteProg prec direct c sel s) (sitesProg prec direct c sel ss)

/-- poscar.py:855-935 the writes. -/
def groupedProg (prec : Nat) (direct : Bool) (comment : Poscar.Val) (c : Poscar.Cell) (g : Poscar.Grouped) : Prog :=
  let coords : Str := if direct then c!"Direct\n" else c!"Cartesian\n"
  seq (put (Poscar.headline (Poscar.compound g.species g.nums) comment ++ ['\n'])) <|
  seq (put (fmtFixed (prec + 4) prec 1 ++ ['\n'])) <|
  seq (put (Poscar.vecLine prec c.a ++ ['\n'])) <| seq (put (Poscar.vecLine prec c.b ++ ['\n'])) <|
  seq (put (Poscar.vecLine prec c.c ++ ['\n'])) <|
  seq (put (rstrip (g.species.flatMap fun s => Poscar.padRight 5 (Poscar.capitalize s) ++ [' ']) ++ ['\n'])) <|
  seq (put (rstrip (g.nums.flatMap fun (n : Nat) => fmtInt 5 n ++ [' ']) ++ ['\n'])) <|
  seq (if g.selective then put c!"Selective dynamics\n" else skip) <|
  seq (put coords) <|
  seq (sitesProg prec direct c g.selective g.sites) <|
  seq (if g.velocities then seq (put coords) (each (fun s => Poscar.velLine prec direct c s >>= fun l => .ok (l ++ ['\n'])) g.sites) else skip) <|
  if g.predictors then seq (put ['\n']) (each (fun s => Poscar.predLine prec s >>= fun l => .ok (l ++ ['\n'])) g.sites) else skip

/-- poscar.py:829-935 `_write`. -/
def poscarProg (prec : Nat) (conserve direct : Bool) (e : Poscar.Entries) : Prog :=
  after (Poscar.validate e) fun _ =>
  after (Poscar.lookup e c!"comment") fun comment =>
  after (Poscar.lookup e c!"unitcell") fun cell =>
  after (Poscar.sortAndGroup conserve e) fun g =>
  match cell with
  | .cell (some c) => groupedProg prec direct comment c g
  | _ => ([], .raise .typeError)

/-- poscar.py:829-935. -/
def poscarWriter (prec : Nat) (conserve direct : Bool) (e : Poscar.Entries) : Writer :=
  ⟨(poscarProg prec conserve direct e).1, (poscarProg prec conserve direct e).2, false⟩

/-! ### the file -/

/-- An open file: text, position, and whether it was opened for appending. -/
structure Out where
  text : Str
  pos : Nat
  append : Bool := false
  deriving DecidableEq, Repr

/-- `write(s)`. -/
def Out.write (o : Out) (s : Str) : Out :=
  if s = [] then o
  else if o.append then { o with text := o.text ++ s, pos := o.text.length + s.length }
  else { o with
    text := o.text.take o.pos ++ List.replicate (o.pos - o.text.length) (Char.ofNat 0) ++ s ++ o.text.drop (o.pos + s.length)
    pos := o.pos + s.length }

/-- `truncate(n)` for `n` up to the length. -/
def Out.truncate (o : Out) (n : Nat) : Out := { o with text := o.text.take n }

/-- utils.py:226-246 `remove_newline`: `truncate(tell() - 1)` (`os.linesep` is one character). -/
def Out.removeNewline (o : Out) : Out := o.truncate (o.pos - 1)

/-- One file operation. -/
def Out.apply (o : Out) : Event → Out
  | .write .handler s => o.write s
  | .chop .handler => o.removeNewline
  | _ => o

/-- base.py:64-99 `x.write(file_handler=f)`: the file afterwards and how the call ends. -/
def writeTo (w : Writer) (o : Out) : Out × Res Unit :=
  ((Base.write (fun _ => false) w { handler := some true }).1.foldl Out.apply o,
   (Base.write (fun _ => false) w { handler := some true }).2)

/-- An object that can be written, with its arguments. -/
inductive Item
  | incar (comments : Bool) (d : Incar.Entries)
  | kpoints (prec : Nat) (e : Kpoints.Entries)
  | poscar (prec : Nat) (conserve direct : Bool) (e : Poscar.Entries)

/-- Its `_write`. -/
def Item.writer : Item → Writer
  | .incar b d => Files.incarWriter b d
  | .kpoints prec e => kpointsWriter prec e
  | .poscar prec c d e => poscarWriter prec c d e

/-- Several objects written to one file, one after another; the first failure ends it. -/
def writeAll : List Item → Out → Out × Res Unit
  | [], o => (o, .ok ())
  | x :: xs, o => match writeTo x.writer o with
    | (o', .ok ()) => writeAll xs o'
    | r => r

end Verif.Output
