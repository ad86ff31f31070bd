import Verif.Py.Res
import Verif.Py.Num
/-! # Specification vocabulary for INCAR texts (independent of the parser model) -/
set_option autoImplicit false
namespace Verif.IncarSpec
open Verif

/-- The part of a line in front of the first `#`. -/
def code (line : Str) : Str := line.takeWhile (· != '#')

/-- The text behind the first `#`, if any. -/
def remark (line : Str) : Option Str :=
  match line.dropWhile (· != '#') with
  | [] => none
  | _ :: c => some c

/-- A line that assigns nothing: blank, or only a comment. -/
def Blank (line : Str) : Prop := ∀ c ∈ code line, isSpace c = true

instance (line : Str) : Decidable (Blank line) := by unfold Blank; infer_instance

/-- The `;`-separated assignments of a line (a bare newline behind the last `;` is none). -/
def assignTexts (line : Str) : List Str :=
  if Blank line then [] else (splitOn ';' (code line)).filter (fun p => !decide (p = ['\n']))

/-- All assignments of a text in reading order, each with the comment of its line. -/
def assigns (lines : List Str) : List (Str × Option Str) :=
  lines.flatMap fun l => (assignTexts l).map fun p => (p, remark l)

/-- The last element of a list that belongs to `t`. -/
def lastFor {α} (key : α → Str) (t : Str) (l : List α) : Option α := (l.filter fun a => decide (key a = t)).getLast?

end Verif.IncarSpec
