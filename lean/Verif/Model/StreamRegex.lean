import Verif.Model.StreamYml
/-!
# Python's `re` for the patterns of stream.yml, and the public properties of `Stream`

The patterns of stream.yml consist of ordinary characters and dots.  For these, `re.compile` succeeds and `search` looks for a place
where the characters stand one after the other, a dot standing for any character but a line feed.  For all other patterns
`compile` gives `none` here (they are not modelled; the theorems about general configurations have the engine as a parameter).
-/
set_option autoImplicit false
namespace Verif.Stream
open Verif

/-- The special characters of `re` except the dot. -/
def special : List Char := ['^', '$', '*', '+', '?', '{', '}', '[', ']', '\\', '|', '(', ')']

/-- One character of a pattern against one of the line (`re` without flags: a dot does not match a line feed). -/
def charFits (p c : Char) : Bool := if p = '.' then decide (c ≠ '\n') else decide (p = c)

/-- `pattern.match`: the characters of the pattern, from here on. -/
def fitsHere : List Char → Str → Bool
  | [], _ => true
  | _ :: _, [] => false
  | p :: ps, c :: cs => charFits p c && fitsHere ps cs

/-- `pattern.search`. -/
def fits (ps : List Char) : Str → Bool
  | [] => fitsHere ps []
  | c :: cs => fitsHere ps (c :: cs) || fits ps cs

/-- `re` for patterns of characters and dots (stream.py:292-295, 432: `re.compile(regex)`, `regex.search(line)`). -/
def dotEngine : Engine (List Char) :=
  ⟨fun s => if s.all (fun c => !special.contains c) then some s else none, fun r l => fits r l⟩

variable {Rx : Type}

/-- stream.py:90-92 `configured_streams`. -/
def configuredStreams (o : Object Rx) : Table Rx := o.configured
/-- stream.py:95-97 `kinds`. -/
def kindsOf (o : Object Rx) : List Str := o.kinds
/-- stream.py:105-107 `has_entries`. -/
def hasEntries (o : Object Rx) : Bool := !o.entries.isEmpty
/-- stream.py:110-112 `number_of_entries`. -/
def numberOfEntries (o : Object Rx) : Nat := o.entries.length
/-- stream.py:81-83 `__str__`. -/
def reportStr (o : Object Rx) : Str :=
  c!"We detected " ++ Nat.toDigits 10 (numberOfEntries o) ++ c!" unique " ++ join c!", " o.kinds ++ c!"'s"
/-- stream.py:308-310 `VaspStream.__str__`. -/
def entryStr (t : Trigger Rx) : Str := c!"(" ++ t.kind ++ c!") " ++ t.shortname ++ c!": " ++ t.message

end Verif.Stream
