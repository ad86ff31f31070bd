import Verif.Model.Poscar
import Verif.Model.DoscarFull
/-!
# Model of /repo/parsevasp/poscar.py for any number of ions

`Verif.Model.Poscar` leaves open files whose numbers of ions add up to less than zero. The loops over the ions then run zero times, and the line
numbers computed from the number of ions may be negative, which Python counts from the end of the file.
-/
set_option autoImplicit false
namespace Verif.Poscar
open Verif Verif.Utils
open Verif.Kpoints (idx toFloat toInt)

/-- poscar.py:276-302: what follows the positions, where line `p0` may be counted from the end. -/
def readTailZ (lines : List Str) (p0 : Int) : Res (Bool × Bool × Bool) :=
  (if p0 < lines.length then
    idxZ lines p0 >>= fun l => idx l 0 >>= fun c =>
    if lowerC c = 'd' ∨ lowerC c = 'c' then .ok (true, decide (lowerC c = 'c'), false) else .ok (false, false, isBlank l)
   else .ok (false, false, false)) >>= fun t =>
  if p0 + 1 < lines.length then
    idxZ lines (p0 + 1) >>= fun l => idx (words l) 0 >>= fun w => if isNumber w then .ok t else .exit 302
  else .ok (t.1, t.2.1, false)

/-- poscar.py:315-328: the test for predictors behind the velocities; without ions nothing is read. -/
def checkPredZ (lines : List Str) (p : Int) : Res Unit :=
  if p < lines.length then
    idxZ lines p >>= fun l =>
    if isBlank l then idxZ lines (p + 1) >>= fun l' => idx (words l') 0 >>= fun _ => .ok () else .ok ()
  else .ok ()

/-- poscar.py:174-356 `_from_list`, before packing, for any number of ions. -/
def parseZ (lines : List Str) : Res Parsed :=
  readHeader lines >>= fun h =>
  let nions := h.atoms.sum
  if nions < 0 then
    readTailZ lines (nions + h.loopmax) >>= fun t =>
    if t.1 then checkPredZ lines (nions + (nions + h.loopmax + 1)) >>= fun _ => .ok ⟨h.comment, h.cell, []⟩
    else .ok ⟨h.comment, h.cell, []⟩
  else parse lines

/-- poscar.py:36-120 `Poscar(file_handler=...)`, for any number of ions. -/
def initZ (t : Str) : Res Entries :=
  parseZ (readlines t) >>= fun p => fromDict p.toEntries >>= fun e => validate e >>= fun _ => .ok e

end Verif.Poscar
