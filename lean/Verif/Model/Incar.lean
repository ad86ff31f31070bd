import Verif.Model.Utils
import Verif.Model.Tables
/-! # Model of /repo/parsevasp/incar.py -/
set_option autoImplicit false
namespace Verif.Incar
open Verif Verif.Utils

/-- One INCAR value: `int`, `float`, `bool` or `str`. -/
inductive Scalar
  | int (i : Int)
  | float (f : PyFloat)
  | bool (b : Bool)
  | str (s : Str)
  deriving DecidableEq, Repr

/-- A value as passed to / stored in an `IncarItem`. `other` is any object that is none of `bool, float, int, list, str`.
Simplification: list elements are scalars. -/
inductive Value
  | one (s : Scalar)
  | list (l : List Scalar)
  | other
  deriving DecidableEq, Repr

/-- incar.py:447-493 `IncarItem`: cleaned tag, value, comment. -/
structure Item where
  tag : Str
  value : Value
  comment : Option Str
  deriving DecidableEq, Repr

/-- incar.py:104-107 `self.entries`. -/
abbrev Entries := Dict Str Item

/-- incar.py:601-629 `_test_string_for_bool`. -/
def testStringForBool (s : Str) : Scalar :=
  if contains c!".True." s || contains c!".TRUE." s || contains c!".true." s || contains c!".t." s || contains c!".T." s then
    .bool true
  else if contains c!".False." s || contains c!".FALSE." s || contains c!".false." s || contains c!".f." s
      || contains c!".F." s then
    .bool false
  else .str s

/-- incar.py:556-566, one pass of the loop over the value tokens: kind and converted element. -/
def cleanToken (F : FloatEnv) (element : Str) : Res (Kind × Scalar) :=
  match testStringContent element with
  | .int => match pyInt element with
    | some i => .ok (.int, .int i)
    | none => .raise .valueError
  | .float => match pyFloatR F element with
    | some f => .ok (.float, .float f)
    | none => .raise .valueError
  | .string => .ok (.string, testStringForBool element)

/-- incar.py:574 `all(x == content_type[0] for x in content_type)`. -/
def allSame : List Kind → Bool
  | [] => true
  | k :: ks => (k :: ks).all (· == k)

/-- incar.py:542 the tags whose string is left intact. -/
def rawTags : List Str := [c!"system", c!"magmom", c!"m_constr"]

/-- incar.py:548-580 string values: tokenise, convert, unpack a single element, refuse mixed kinds. -/
def cleanString (F : FloatEnv) (value : Str) : Res Value :=
  match Res.mapM' (cleanToken F) (words value) with
  | .ok r =>
    let v := match r.map Prod.snd with
      | [x] => Value.one x
      | xs => Value.list xs
    if allSame (r.map Prod.fst) then .ok v else .exit 104
  | .exit c => .exit c
  | .raise e => .raise e

/-- incar.py:495-599 `_clean_entry`. -/
def cleanEntry (F : FloatEnv) (tag : Str) (value : Value) (comment : Option Str) : Res Item :=
  match words tag with
  | [] => .raise .indexError
  | t :: _ =>
    let cleanTag := lower t
    match value with
    | .one (.str s) =>
      if cleanTag ∈ rawTags then .ok ⟨cleanTag, .one (.str (strip s)), none⟩
      else match cleanString F s with
        | .ok v => .ok ⟨cleanTag, v, comment.map strip⟩
        | .exit c => .exit c
        | .raise e => .raise e
    | .other => .exit 105
    | v => .ok ⟨cleanTag, v, comment.map strip⟩

/-- incar.py:164-188, one `;`-separated entry of a line. -/
def parseEntry (F : FloatEnv) (comment : Option Str) (d : Entries) (ntry : Str) : Res Entries :=
  if ntry = ['\n'] then .ok d
  else match splitOn '=' ntry with
    | [tag, value] =>
      match cleanEntry F tag (.one (.str value)) comment with
      | .ok item => .ok (d.set item.tag item)
      | .exit c => .exit c
      | .raise e => .raise e
    | _ :: _ :: _ :: _ => .exit 101
    | _ => .exit 102

/-- incar.py:151-188, one line. -/
def parseLine (F : FloatEnv) (d : Entries) (line : Str) : Res Entries :=
  if (words (((splitOn '#' line).head?).getD [])).isEmpty then .ok d
  else
    let r := split1 '#' line
    Res.foldlM' (parseEntry F r.2) d (splitOn ';' r.1)

/-- incar.py:127-190 `_from_list`. -/
def fromList (F : FloatEnv) (lines : List Str) : Res Entries := Res.foldlM' (parseLine F) [] lines

/-- incar.py:216-234, one item of the dictionary. -/
def dictItem (F : FloatEnv) (tag : Str) (value : Value) : Res Item :=
  match value with
  | .one (.str s) => match splitOn '#' s with
    | [_] => cleanEntry F tag value none
    | [v, c] => cleanEntry F tag (.one (.str v)) (some c)
    | _ => .exit 103
  | _ => cleanEntry F tag value none

/-- incar.py:192-240 `_from_dict` (input: the items of the dictionary in order). -/
def fromDict (F : FloatEnv) (items : List (Str × Value)) : Res Entries :=
  Res.foldlM' (fun d (p : Str × Value) => match dictItem F p.1 p.2 with
    | .ok item => .ok (d.set item.tag item)
    | .exit c => .exit c
    | .raise e => .raise e) [] items

/-- incar.py:280-304 `validate`. -/
def validate (validateTags : Bool) (allowed : List Str) (d : Entries) : Res Unit :=
  if !validateTags then .ok ()
  else if d.keys.all (fun k => k ∈ allowed) then .ok () else .exit 100

/-- incar.py:306-324 `modify`. -/
def modify (F : FloatEnv) (d : Entries) (tag : Str) (value : Value) (comment : Option Str) : Res Entries :=
  match cleanEntry F tag value comment with
  | .ok item => .ok (d.set item.tag item)
  | .exit c => .exit c
  | .raise e => .raise e

/-- incar.py:326-339 `delete`. -/
def delete (d : Entries) (tag : Str) : Entries := d.del tag

/-- incar.py:341-374 `get(tag)`. -/
def get (d : Entries) (tag : Str) : Option Value := (d.get? tag).map Item.value

/-- incar.py:341-374 `get(tag, comment=True)`: the second component is filled from `get_value()` as well (line 368). -/
def getWithComment (d : Entries) (tag : Str) : Option Value × Option Value :=
  ((d.get? tag).map Item.value, (d.get? tag).map Item.value)

/-- incar.py:376-392 `get_dict`. -/
def getDict (d : Entries) : Dict Str Value := d.foldl (fun acc e => Dict.set acc e.1 e.2.value) []

/-- `str(x)` of a scalar. -/
def scalarStr : Scalar → Str
  | .int i => intStr i
  | .float f => floatStr f
  | .bool true => c!"True"
  | .bool false => c!"False"
  | .str s => s

/-- incar.py:242-278 `_convert_value_to_string`. -/
def valueStr : Value → Str
  | .list l => join [' '] (l.map scalarStr)
  | .one (.bool true) => c!".TRUE."
  | .one (.bool false) => c!".FALSE."
  | .one s => scalarStr s
  | .other => []   -- unreachable: `cleanEntry` exits 105 on `other`

/-- Order of Python strings: by code point, lexicographic. -/
def strLe : Str → Str → Bool
  | [], _ => true
  | _ :: _, [] => false
  | a :: s, b :: t => if a.toNat < b.toNat then true else if b.toNat < a.toNat then false else strLe s t

/-- Insertion into a sorted list of strings. -/
def insertStr (k : Str) : List Str → List Str
  | [] => [k]
  | x :: xs => if strLe k x then k :: x :: xs else x :: insertStr k xs

/-- `sorted(keys)`; on distinct keys every sorting algorithm gives the same list. -/
def sortStrs (ks : List Str) : List Str := ks.foldr insertStr []

/-- incar.py:434-444, the line written for one key. -/
def writeLine (comments : Bool) (key : Str) (item : Item) : Str :=
  let comment := match item.comment with
    | some c => if comments then c!" # " ++ c else []
    | none => []
  upper key ++ c!" = " ++ valueStr item.value ++ comment ++ ['\n']

/-- incar.py:414-444 `_write`: the text written. -/
def writeText (comments : Bool) (d : Entries) : Str :=
  (sortStrs d.keys).flatMap fun k => match d.get? k with
    | some item => writeLine comments k item
    | none => []   -- unreachable: `k` is a key of `d`

/-- incar.py:394-412 `get_string`. -/
def getString (d : Entries) : Str := writeText false d

/-- The arguments of `Incar(...)` that name a source. `path` is `some none` if there is no such file. A file is given by its
text. -/
structure Sources where
  string : Option Str := none
  dict : Option (List (Str × Value)) := none
  path : Option (Option Str) := none
  handler : Option Str := none

/-- incar.py:76-78 the guard against several sources (note `and` binds tighter than `or`). -/
def tooMany (hasString hasDict hasPath hasHandler : Bool) : Bool :=
  (hasString && hasDict) || (hasString && hasPath) || ((hasDict && hasPath) && hasHandler)

/-- incar.py:83-86 the guard against no source. -/
def noneGiven (hasString hasDict hasPath hasHandler : Bool) : Bool :=
  !hasString && !hasDict && !hasPath && !hasHandler

/-- incar.py:109-116 `_from_file`, utils.py:47-60: the handler wins over the path; a missing file exits 14. -/
def fileLines (s : Sources) : Res (List Str) :=
  match s.handler with
  | some t => .ok (readlines t)
  | none => match s.path with
    | some (some t) => .ok (readlines t)
    | some none => .exit 14
    | none => .raise .typeError   -- not called in this case

/-- incar.py:94-101: with the file lines at hand, choose string over file, dictionary over both. -/
def parseSource (F : FloatEnv) (s : Sources) (fromFile : List Str) : Res Entries :=
  match s.dict with
  | some items => fromDict F items
  | none => fromList F (match s.string with
    | some t => splitlines t
    | none => fromFile)

/-- incar.py:90-101: the file is read (line 92) even if its lines are not used. -/
def loadEntries (F : FloatEnv) (s : Sources) : Res Entries :=
  if s.path.isSome || s.handler.isSome then fileLines s >>= parseSource F s else parseSource F s []

/-- incar.py:34-107 `Incar.__init__`. -/
def init (F : FloatEnv) (allowed : List Str) (validateTags : Bool) (s : Sources) : Res Entries :=
  if tooMany s.string.isSome s.dict.isSome s.path.isSome s.handler.isSome then .exit 10
  else if noneGiven s.string.isSome s.dict.isSome s.path.isSome s.handler.isSome then .exit 10
  else loadEntries F s >>= fun entries => validate validateTags allowed entries >>= fun _ => .ok entries

end Verif.Incar
