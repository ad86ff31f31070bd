import Verif.Py.Num
import Verif.Py.Res
import Verif.Py.Dict
/-! # Model of /repo/parsevasp/utils.py (text part; the lattice functions are in `Model/Lattice.lean`) -/
set_option autoImplicit false
namespace Verif.Utils
open Verif

/-- The three answers of `test_string_content`. -/
inductive Kind
  | int | float | string
  deriving DecidableEq, Repr

/-- utils.py:146-169 `test_string_content`. `float(string)` decides string/number, then `'.'`, `'e'`, `'E'` decide
int/float. -/
def testStringContent (s : Str) : Kind :=
  match pyFloat s with
  | some _ => if (s.count '.' == 0) && !(s.contains 'e') && !(s.contains 'E') then .int else .float
  | none => .string

/-- utils.py:201-223 `is_number`. -/
def isNumber (s : Str) : Bool := (pyFloat s).isSome

/-- utils.py:172-198 `is_numbers` with the default splitter `' '`. -/
def isNumbers (s : Str) : Bool := (splitOn ' ' s).all isNumber

/-- The `contains` argument of `read_from_file`. -/
inductive Contains
  | none
  | list (es : List Str)
  | str (s : Str)

/-- Result of `read_from_file` with `lines=True`: a list of lines, or a single line
(branch utils.py:78-79, reached only by a non-sequence argument). -/
inductive ReadResult
  | lines (ls : List Str)
  | line (l : Str)
  deriving DecidableEq, Repr

/-- utils.py:123-143 `is_sequence`: a list has `__getitem__` and no `strip`; a `str` has `__iter__` (Python 3); `None` has
neither. -/
def isSequence : Contains → Bool
  | .none => false
  | .list _ => true
  | .str _ => true

/-- The elements the loop utils.py:74 iterates over: the list items, or the characters of a string. -/
def containsElements : Contains → List Str
  | .none => []
  | .list es => es
  | .str s => s.map fun c => [c]

/-- utils.py:64-83, the selection loop of `read_from_file` on the lines read. -/
def selectLines (fileData : List Str) (c : Contains) : ReadResult :=
  match c with
  | .none => .lines fileData
  | _ =>
    if isSequence c then
      .lines (fileData.foldl (fun parsed line =>
        (containsElements c).foldl (fun parsed element =>
          if Verif.contains element line then parsed ++ [line] else parsed) parsed) [])
    else
      match c with
      | .str s => fileData.foldl (fun parsed line => if Verif.contains s line then .line line else parsed) (.lines [])
      | _ => .lines []

/-- utils.py:13-83 `read_from_file(..., lines=True)` on a file/handler of the given text. -/
def readFromFile (text : Str) (c : Contains) : ReadResult := selectLines (readlines text) c

/-- The leading run of characters satisfying `p`, and the rest (greedy `p*`). -/
def spanP (p : Char → Bool) : Str → Str × Str
  | [] => ([], [])
  | c :: cs => if p c then let r := spanP p cs; (c :: r.1, r.2) else ([], c :: cs)

/-- Remove a literal prefix. -/
def dropPrefix? : Str → Str → Option Str
  | [], s => some s
  | _ :: _, [] => none
  | a :: p, b :: s => if a = b then dropPrefix? p s else none

/-- utils.py:356 `re.match(r'^ +' + key + r' *= *([-0-9]+)', string)`: the captured group. The greedy matching below is
equivalent to the backtracking regex because `key` does not begin with a blank and each repeated class is disjoint from what
follows it. -/
def matchIntParam (key s : Str) : Option Str :=
  match spanP (· == ' ') s with
  | (_ :: _, r1) =>
    match dropPrefix? key r1 with
    | some r2 =>
      match (spanP (· == ' ') r2).2 with
      | '=' :: r3 =>
        match spanP (fun c => c == '-' || isDigit c) (spanP (· == ' ') r3).2 with
        | (c :: cs, _) => some (c :: cs)
        | _ => none
      | _ => none
    | none => none
  | _ => none

/-- utils.py:336-358 `match_integer_param`: `inputs[key.lower()] = int(match.group(1))` when the line matches. -/
def matchIntegerParam (inputs : Dict Str (Option Int)) (key s : Str) : Res (Dict Str (Option Int)) :=
  match matchIntParam key s with
  | some g => match pyInt g with
    | some i => .ok (inputs.set (lower key) (some i))
    | none => .raise .valueError
  | none => .ok inputs

/-- Result of `line_to_type`: one item or a list of them. -/
inductive OneOrMany (α : Type _)
  | one (a : α)
  | many (as : List α)
  deriving DecidableEq, Repr

/-- utils.py:361-386 `line_to_type` with `no_split=False`; `conv` is `d_type`. -/
def lineToType {α} (conv : Str → Res α) (line : Str) : Res (OneOrMany α) :=
  match Res.mapM' conv (words line) with
  | .ok [a] => .ok (.one a)
  | .ok as => .ok (.many as)
  | .exit c => .exit c
  | .raise e => .raise e

/-- utils.py:361-386 `line_to_type` with `no_split=True`: the stripped line; `result[0]` if it has exactly one character,
which is the same string. -/
def lineToTypeNoSplit (line : Str) : Str := strip line

end Verif.Utils
