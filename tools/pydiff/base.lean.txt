import Verif.Py.Num
import Verif.Py.Str
open Verif
def unhex (s : String) : Str := (s.splitOn ",").filterMap fun w => w.toNat?.map Char.ofNat
def hex (s : Str) : String := ",".intercalate (s.map fun c => toString c.toNat)
def hexs (l : List Str) : String := "|".intercalate (l.map fun s => "[" ++ hex s ++ "]")
def pf (s : Str) : String := match pyFloat s with
  | none => "err"
  | some f => match f with
    | .fin d => toString d.toRat.num ++ "/" ++ toString d.toRat.den
    | .inf n => if n then "-inf" else "inf"
    | .nan => "nan"
def run (line : String) : String :=
  match line.splitOn " " with
  | ["words", s] => hexs (words (unhex s))
  | ["int", s] => match pyInt (unhex s) with | none => "err" | some i => toString i
  | ["float", s] => pf (unhex s)
  | ["strip", s] => hexs [strip (unhex s), lstrip (unhex s), rstrip (unhex s)]
  | ["splitlines", s] => hexs (splitlines (unhex s))
  | ["readlines", s] => hexs (readlines (unhex s))
  | ["split", c, s] => hexs (splitOn (Char.ofNat c.toNat!) (unhex s))
  | ["split1", c, s] => let r := split1 (Char.ofNat c.toNat!) (unhex s); hexs (r.1 :: r.2.toList)
  | ["lower", s] => hexs [lower (unhex s), upper (unhex s)]
  | ["in", p, s] => toString (contains (unhex p) (unhex s)) ++ toString (startsWith (unhex p) (unhex s))
  | ["fmtint", w, i] => hexs [fmtInt w.toNat! i.toInt!]
  | ["fmt", w, p, n, d] => hexs [fmtFixed w.toNat! p.toNat! (mkRat n.toInt! d.toNat!)]
  | ["repr", neg, m, e] => hexs [floatStr (.fin ⟨neg == "1", m.toNat!, e.toInt!⟩)]
  | _ => "?"
partial def loop (h : IO.FS.Stream) : IO Unit := do
  let l ← h.getLine
  if l.isEmpty then return
  IO.println (run (l.replace "\n" ""))
  loop h
def main : IO Unit := do loop (← IO.getStdin)
