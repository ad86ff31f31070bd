import Verif.Model.Stream
/-!
# `VaspStream` objects as objects: attributes, setters, construction (stream.py:249-435)

`Model/Stream.lean` has the outcome of the construction as one value; here the assignments are executed one after the other on an object, as the
class does, and attributes can be assigned later. Not modelled: `__repr__` (it prints the pattern object), assignment to the private names.
-/
set_option autoImplicit false
namespace Verif.Stream
open Verif

/-- The attributes of a `VaspStream` that have a setter. -/
inductive Attr
  | shortname | kind | regex | message | suggestion | location | recover | inverse
  deriving DecidableEq, Repr

/-- The object: the attributes that have a value (stream.py:288-299, the private names behind the properties). -/
abbrev Instance (Rx : Type) := Dict Attr (Obj Rx)

variable {Rx : Type}

/-- What a setter stores, or the exception it raises: stream.py:317-323 `shortname`, 330-342 `kind`, 349-355 `regex`, 362-367 `message`,
374-381 `suggestion`, 388-393 `location`, 400-405 `recover`, 417-422 `inverse`. -/
def stored (E : Engine Rx) : Attr → Obj Rx → Res (Obj Rx)
  | .shortname, .str s => .ok (.str s)
  | .shortname, _ => .raise .valueError
  | .kind, .str s => if upper s ∈ allowedKinds then .ok (.str s) else .raise .valueError
  | .kind, _ => .raise .valueError
  | .regex, .str s => match E.compile s with
    | some r => .ok (.rx r)
    | none => .raise .reError
  | .regex, v => .ok v
  | .message, .str s => .ok (.str s)
  | .message, _ => .raise .valueError
  | .suggestion, .none => .ok .none
  | .suggestion, .str s => .ok (.str s)
  | .suggestion, _ => .raise .valueError
  | .location, .str s => if s ∈ allowedLocations then .ok (.str s) else .raise .valueError
  | .location, _ => .raise .valueError
  | .recover, .bool b => .ok (.bool b)
  | .recover, _ => .raise .valueError
  | .inverse, .bool b => .ok (.bool b)
  | .inverse, _ => .raise .valueError

/-- `o.a = v`: the object afterwards and the outcome. -/
def assignAttr (E : Engine Rx) (o : Instance Rx) (a : Attr) (v : Obj Rx) : Instance Rx × Res Unit :=
  match stored E a v with
  | .ok w => (o.set a w, .ok ())
  | .exit c => (o, .exit c)
  | .raise e => (o, .raise e)

/-- Assignments one after the other; the first exception ends the sequence. -/
def assignAll (E : Engine Rx) : Instance Rx → List (Attr × Obj Rx) → Instance Rx × Res Unit
  | o, [] => (o, .ok ())
  | o, (a, v) :: r => match assignAttr E o a v with
    | (o', .ok _) => assignAll E o' r
    | (o', .exit c) => (o', .exit c)
    | (o', .raise e) => (o', .raise e)

/-- The arguments of `VaspStream(...)` in the order of stream.py:255-265, with the defaults filled in by the caller of this function. -/
structure Arguments (Rx : Type) where
  shortname : Obj Rx
  kind : Obj Rx
  regex : Obj Rx
  message : Obj Rx
  suggestion : Obj Rx := .none
  location : Obj Rx := .str c!"STDOUT"
  recover : Obj Rx := .bool false
  inverse : Obj Rx := .bool false

/-- stream.py:290-299 the assignments of the constructor, in order. (A string is compiled in line 293 and the pattern assigned.) -/
def Arguments.list (x : Arguments Rx) : List (Attr × Obj Rx) :=
  [(.shortname, x.shortname), (.kind, x.kind), (.regex, x.regex), (.message, x.message), (.suggestion, x.suggestion), (.location, x.location),
   (.recover, x.recover), (.inverse, x.inverse)]

/-- stream.py:255-299 `VaspStream(...)`. -/
def construct (E : Engine Rx) (x : Arguments Rx) : Res (Instance Rx) :=
  match assignAll E [] x.list with
  | (o, .ok _) => .ok o
  | (_, .exit c) => .exit c
  | (_, .raise e) => .raise e

/-- The value of an attribute; `AttributeError` if it was never set. stream.py:312-415 the getters. -/
def getAttr (o : Instance Rx) (a : Attr) : Res (Obj Rx) :=
  match o.get? a with
  | some v => .ok v
  | none => .raise .attributeError

/-- stream.py:408-410 `recoverable`. -/
def recoverable (o : Instance Rx) : Res (Obj Rx) := getAttr o .recover

/-- `format(v)` of a string; other objects are not modelled. -/
def strOf : Obj Rx → Res Str
  | .str s => .ok s
  | _ => .raise .outOfModel

/-- stream.py:308-310 `__str__`. -/
def reportLine (o : Instance Rx) : Res Str :=
  getAttr o .kind >>= fun k => strOf k >>= fun k => getAttr o .shortname >>= fun n => strOf n >>= fun n => getAttr o .message >>= fun m =>
  strOf m >>= fun m => .ok (c!"(" ++ k ++ c!") " ++ n ++ c!": " ++ m)

/-- stream.py:424-435 `check_line`: `None`, or a new object built from the attributes of this one. -/
def checkInstance (E : Engine Rx) (o : Instance Rx) (line : Str) : Res (Option (Instance Rx)) :=
  getAttr o .regex >>= fun r => match r with
    | .rx p =>
      if E.search p line then
        getAttr o .shortname >>= fun a => getAttr o .kind >>= fun b => getAttr o .message >>= fun c => getAttr o .suggestion >>= fun d =>
        getAttr o .location >>= fun e => getAttr o .recover >>= fun f => getAttr o .inverse >>= fun g =>
        construct E ⟨a, b, .rx p, c, d, e, f, g⟩ >>= fun n => .ok (some n)
      else .ok none
    | _ => .raise .attributeError

end Verif.Stream
