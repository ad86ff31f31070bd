import Verif.Model.Poscar
import Verif.Model.Potcar
import Verif.Model.Outcar
import Verif.Model.Eigenval
import Verif.Model.Vasprun
import Verif.Model.Newlines
import Verif.Model.Chgcar
open Verif Verif.Utils
def unhex (s : String) : Str := (s.splitOn ",").filterMap fun w => w.toNat?.map Char.ofNat
def hex (s : Str) : String := ",".intercalate (s.map fun c => toString c.toNat)
def hexs (l : List Str) : String := "|".intercalate (l.map fun s => "[" ++ hex s ++ "]")
def rs {α} (f : α → String) : Res α → String
  | .ok a => f a
  | _ => "err"
def pv : Potcar.Value → String
  | .text s => hex s
  | .bool b => toString b
  | .int i => toString i
  | .float x => toString x.num ++ "/" ++ toString x.den
  | .floats xs => ";".intercalate (xs.map fun x => toString x.num ++ "/" ++ toString x.den)
def run (line : String) : String :=
  match line.splitOn " " with
  | ["iter", s] => match Outcar.iterOf (unhex s) with | none => "none" | some (a, b) => toString a ++ "," ++ toString b
  | ["timeline", s] => toString (Outcar.isTimeLine (unhex s)) ++ toString (Outcar.isMemLine (unhex s))
  | ["runs", s] => hexs (Outcar.splitRuns (unhex s))
  | ["cut", p, s] => let r := Outcar.cut (unhex p) (unhex s); hexs (r.1 :: r.2.toList)
  | ["splitstr", p, s] => hexs (Chgcar.splitStr (unhex p) (unhex s).length (unhex s))
  | ["univ", s] => hexs [Newlines.universal (unhex s)]
  | ["bool", s] => rs pv (Potcar.toBool (unhex s))
  | ["integer", s] => rs pv (Potcar.toInteger (unhex s))
  | ["floatpart", s] => hexs [Potcar.floatPart (unhex s)]
  | ["reals", s] => rs pv (Potcar.toReals (unhex s))
  | ["findall", s] => hexs ((Potcar.findAll (unhex s).length (unhex s)).flatMap fun p => [p.1, p.2])
  | ["empty", s] => hexs (Eigenval.splitEmpty (unhex s).length (unhex s))
  | ["param", k, s] => match matchIntParam (unhex k) (unhex s) with | none => "none" | some g => hexs [g]
  | ["version", s] => rs (fun v => hexs [v]) (Vasprun.getVersion (some (unhex s)))
  | ["cap", s] => hexs [Poscar.capitalize (unhex s)]
  | _ => "?"
partial def loop (h : IO.FS.Stream) : IO Unit := do
  let l ← h.getLine
  if l.isEmpty then return
  IO.println (run (l.replace "\n" ""))
  loop h
def main : IO Unit := do loop (← IO.getStdin)
