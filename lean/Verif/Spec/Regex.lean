import Verif.Py.Res
import Verif.Py.Num
/-!
# Python's `re` for the patterns of the program (independent of the scanners of the model)

All patterns of parsevasp outside stream.yml are sequences of pieces: one character of a class, an optional character, a greedy or a lazy
repetition of a class, and a look ahead. The engine tries the ways of the first piece in order of preference, and for each of them the ways of the
pieces behind it: the first that comes through is the match.
-/
set_option autoImplicit false
namespace Verif.Regex
open Verif

/-- A piece of a pattern. -/
inductive Piece
  /-- `[...]`: one character of the class. -/
  | one (p : Char → Bool)
  /-- `[...]?`: one character of the class, or none. -/
  | opt (p : Char → Bool)
  /-- `[...]*`: as many characters of the class as possible. -/
  | star (p : Char → Bool)
  /-- `[...]*?`: as few characters of the class as possible. -/
  | lazy (p : Char → Bool)
  /-- `(?=...)`, `$`: a condition on what follows; nothing is consumed. -/
  | ahead (q : Str → Bool)

/-- One character of the class. -/
def oneWay (p : Char → Bool) : Str → List (Str × Str)
  | [] => []
  | c :: cs => if p c then [([c], cs)] else []

/-- All ways to take characters of the class, the longest first. -/
def starWays (p : Char → Bool) : Str → List (Str × Str)
  | [] => [([], [])]
  | c :: cs => if p c then (starWays p cs).map (fun x => (c :: x.1, x.2)) ++ [([], c :: cs)] else [([], c :: cs)]

/-- The ways of a piece in order of preference: what it takes and what is left. -/
def ways : Piece → Str → List (Str × Str)
  | .one p, s => oneWay p s
  | .opt p, s => oneWay p s ++ [([], s)]
  | .star p, s => starWays p s
  | .lazy p, s => (starWays p s).reverse
  | .ahead q, s => if q s then [([], s)] else []

/-- All ways of a sequence of pieces in order of preference: what each piece takes, and what is left. -/
def run : List Piece → Str → List (List Str × Str)
  | [], s => [([], s)]
  | x :: r, s => (ways x s).flatMap fun y => (run r y.2).map fun z => (y.1 :: z.1, z.2)

/-- `re.match`: the first way. -/
def first (r : List Piece) (s : Str) : Option (List Str × Str) := (run r s).head?

/-- `re.search`: the leftmost match: what is in front of it, what each piece takes, and what is left. -/
def search (r : List Piece) : Str → Option (Str × List Str × Str)
  | [] => (first r []).map fun y => ([], y)
  | c :: cs => match first r (c :: cs) with
    | some y => some ([], y)
    | none => (search r cs).map fun y => (c :: y.1, y.2)

/-- `re.findall` for a pattern that takes at least one character: the matches one behind the other. -/
inductive FindAll (r : List Piece) : Str → List (List Str) → Prop
  | done {s : Str} (h : search r s = none) : FindAll r s []
  | next {s pre t : Str} {y : List Str} {l : List (List Str)} (h : search r s = some (pre, y, t)) (hr : FindAll r t l) : FindAll r s (y :: l)

/-- `re.split` for a pattern without groups that takes at least one character: what is between the matches. -/
inductive Split (r : List Piece) : Str → List Str → Prop
  | done {s : Str} (h : search r s = none) : Split r s [s]
  | next {s pre t : Str} {y : List Str} {l : List Str} (h : search r s = some (pre, y, t)) (hr : Split r t l) : Split r s (pre :: l)

/-- Ordinary characters. -/
def lits (s : Str) : List Piece := s.map fun c => .one (· == c)

/-- `\S`. -/
def nonSpace (c : Char) : Bool := !isSpace c
/-- `.` -/
def dot (c : Char) : Bool := c != '\n'

end Verif.Regex
