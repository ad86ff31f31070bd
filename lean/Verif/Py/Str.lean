/-!
# Python strings

A `str` is a list of characters.  These are the string methods parsevasp uses; they model CPython, no file of /repo.
Simplification: `lower`/`upper` change ASCII letters only (CPython also maps non-ASCII letters).
-/
set_option autoImplicit false
namespace Verif

/-- A Python `str`. -/
abbrev Str := List Char

/-- `c!"abc"` is the character list `['a', 'b', 'c']`. -/
macro:max "c!" s:str : term => do
  let cs := s.getString.toList
  let elems : Array (Lean.TSyntax `term) := cs.toArray.map fun c => Lean.Syntax.mkCharLit c
  `([$elems,*])

/-- `str.isspace` on one character: all 29 code points CPython treats as white space. -/
def isSpace (c : Char) : Bool :=
  let n := c.toNat
  (9 ≤ n && n ≤ 13) || (28 ≤ n && n ≤ 32) || n == 0x85 || n == 0xa0 || n == 0x1680 ||
  (0x2000 ≤ n && n ≤ 0x200a) || n == 0x2028 || n == 0x2029 || n == 0x202f || n == 0x205f || n == 0x3000

/-- The characters at which `str.splitlines` breaks. -/
def isLineBreak (c : Char) : Bool :=
  let n := c.toNat
  (10 ≤ n && n ≤ 13) || (28 ≤ n && n ≤ 30) || n == 0x85 || n == 0x2028 || n == 0x2029

/-- Put a character in front of the first piece. -/
def consHead (x : Char) : List Str → List Str
  | [] => [[x]]
  | w :: ws => (x :: w) :: ws

/-- Split at every character satisfying `p` (separators removed, empty pieces kept). -/
def splitP (p : Char → Bool) : Str → List Str
  | [] => [[]]
  | x :: xs => if p x then [] :: splitP p xs else consHead x (splitP p xs)

/-- `s.split(c)` for a one-character separator. -/
def splitOn (c : Char) (s : Str) : List Str := splitP (· == c) s

/-- `s.split()`: maximal runs of non-white-space. -/
def words (s : Str) : List Str := (splitP isSpace s).filter (fun w => !w.isEmpty)

/-- `s.split(c, 1)`: the part before the first `c` and, if there is a `c`, the part after it. -/
def split1 (c : Char) : Str → Str × Option Str
  | [] => ([], none)
  | x :: xs => if x == c then ([], some xs) else
      let r := split1 c xs
      (x :: r.1, r.2)

/-- `s.lstrip()`. -/
def lstrip (s : Str) : Str := s.dropWhile isSpace
/-- `s.rstrip()`. -/
def rstrip (s : Str) : Str := (s.reverse.dropWhile isSpace).reverse
/-- `s.strip()`. -/
def strip (s : Str) : Str := rstrip (lstrip s)

/-- `sep.join(ws)`. -/
def join (sep : Str) : List Str → Str
  | [] => []
  | [w] => w
  | w :: w' :: ws => w ++ sep ++ join sep (w' :: ws)

/-- ASCII lower case of a character. -/
def lowerC (c : Char) : Char :=
  if 65 ≤ c.toNat && c.toNat ≤ 90 then Char.ofNat (c.toNat + 32) else c
/-- ASCII upper case of a character. -/
def upperC (c : Char) : Char :=
  if 97 ≤ c.toNat && c.toNat ≤ 122 then Char.ofNat (c.toNat - 32) else c
/-- `s.lower()`. -/
def lower (s : Str) : Str := s.map lowerC
/-- `s.upper()`. -/
def upper (s : Str) : Str := s.map upperC

/-- `s.startswith(p)`. -/
def startsWith : (p s : Str) → Bool
  | [], _ => true
  | _ :: _, [] => false
  | a :: p, b :: s => a == b && startsWith p s

/-- `p in s`. -/
def contains (p : Str) : Str → Bool
  | [] => startsWith p []
  | x :: xs => startsWith p (x :: xs) || contains p xs

/-- Lines of a text file as `readlines()` gives them: every line but possibly the last keeps its `'\n'`.
The text is what the text layer delivers, i.e. after universal-newline translation. -/
def readlines : Str → List Str
  | [] => []
  | x :: xs => if x == '\n' then ['\n'] :: readlines xs else consHead x (readlines xs)

/-- `s.splitlines()`: pieces between line breaks, `"\r\n"` counting as one, no trailing empty piece. -/
def splitlines : Str → List Str
  | [] => []
  | '\r' :: '\n' :: xs => [] :: splitlines xs
  | x :: xs => if isLineBreak x then [] :: splitlines xs else consHead x (splitlines xs)

end Verif
