import Verif.Py.Str
import Verif.Py.Res
import Verif.Py.Dict
/-!
# Model of /repo/parsevasp/stream.py

Regular expressions are abstract: `Engine` says which patterns compile and which compiled patterns are found in a line.
Simplifications: configuration values are dictionaries, short names are strings; an exception of `re.compile` is `reError`.
Not modelled: logging, `__repr__`, `__str__`.
-/
set_option autoImplicit false
namespace Verif.Stream
open Verif

/-- The regular expression library: `re.compile` and `pattern.search`. -/
structure Engine (Rx : Type) where
  compile : Str → Option Rx
  search : Rx → Str → Bool

/-- Python objects as far as the type checks tell them apart; `rx` is a compiled pattern. -/
inductive Obj (Rx : Type)
  | str (s : Str)
  | bool (b : Bool)
  | none
  | rx (r : Rx)
  | other

/-- The configuration of one stream. -/
abbrev Conf (Rx : Type) := Dict Str (Obj Rx)
/-- The configuration: short name to entry. -/
abbrev Config (Rx : Type) := Dict Str (Conf Rx)

/-- stream.py:249-299 `VaspStream`. `regex` is `none` if an object without `search` was given. -/
structure Trigger (Rx : Type) where
  shortname : Str
  kind : Str
  regex : Option Rx
  message : Str
  suggestion : Option Str
  location : Str
  recover : Bool
  inverse : Bool

/-- stream.py:252 `_ALLOWED_STREAMS`. -/
def allowedKinds : List Str := [c!"ERROR", c!"WARNING"]
/-- stream.py:253 `_ALLOWED_LOCATIONS`. -/
def allowedLocations : List Str := [c!"STDOUT", c!"STDERR"]
/-- stream.py:255-265 the keyword arguments of `VaspStream`. -/
def allowedKeys : List Str :=
  [c!"kind", c!"regex", c!"message", c!"suggestion", c!"location", c!"recover", c!"inverse"]

variable {Rx : Type}

/-- stream.py:330-342 the setter of `kind`. -/
def setKind : Obj Rx → Res Str
  | .str s => if upper s ∈ allowedKinds then .ok s else .raise .valueError
  | _ => .raise .valueError

/-- stream.py:292-295 and 349-355 `regex`: compiled if it is a string, else taken as it is. -/
def setRegex (E : Engine Rx) : Obj Rx → Res (Option Rx)
  | .str s => match E.compile s with
    | some r => .ok (some r)
    | none => .raise .reError
  | .rx r => .ok (some r)
  | _ => .ok none

/-- stream.py:362-367 the setter of `message`. -/
def setMessage : Obj Rx → Res Str
  | .str s => .ok s
  | _ => .raise .valueError

/-- stream.py:374-381 the setter of `suggestion`; the argument defaults to `None`. -/
def setSuggestion : Option (Obj Rx) → Res (Option Str)
  | none => .ok none
  | some .none => .ok none
  | some (.str s) => .ok (some s)
  | some _ => .raise .valueError

/-- stream.py:388-393 the setter of `location`; the argument defaults to `'STDOUT'`. -/
def setLocation : Option (Obj Rx) → Res Str
  | none => .ok c!"STDOUT"
  | some (.str s) => if s ∈ allowedLocations then .ok s else .raise .valueError
  | some _ => .raise .valueError

/-- stream.py:400-405 and 417-422 the setters of `recover` and `inverse`; the arguments default to `False`. -/
def setBool : Option (Obj Rx) → Res Bool
  | none => .ok false
  | some (.bool b) => .ok b
  | some _ => .raise .valueError

/-- stream.py:255-299 `VaspStream(shortname=shortname, **config)`. -/
def mkTrigger (E : Engine Rx) (short : Str) (c : Conf Rx) : Res (Trigger Rx) :=
  if c.keys.all (fun k => decide (k ∈ allowedKeys)) then
    match c.get? c!"kind", c.get? c!"regex", c.get? c!"message" with
    | some k, some r, some m =>
      setKind k >>= fun kind => setRegex E r >>= fun rx => setMessage m >>= fun msg =>
      setSuggestion (c.get? c!"suggestion") >>= fun sug => setLocation (c.get? c!"location") >>= fun loc =>
      setBool (c.get? c!"recover") >>= fun rec => setBool (c.get? c!"inverse") >>= fun inv =>
      .ok ⟨short, kind, rx, msg, sug, loc, rec, inv⟩
    | _, _, _ => .raise .typeError
  else .raise .typeError

/-- stream.py:114-123 `_load_config`: `dict.update`. -/
def update (d u : Config Rx) : Config Rx := u.foldl (fun d p => d.set p.1 p.2) d

/-- stream.py:140-146 the kind of an entry. -/
def kindOf (c : Conf Rx) : Res Str :=
  match c.get? c!"kind" with
  | some (.str s) => .ok s
  | some _ => .raise .valueError
  | none => .raise .keyError

/-- stream.py:136-147 `_set_streams`. -/
def setStreams : List Str → Config Rx → Res (List Str)
  | ks, [] => .ok ks
  | ks, (_, c) :: r => kindOf c >>= fun k =>
    if upper k ∈ allowedKinds ∧ k ∉ ks then setStreams (ks ++ [k]) r else setStreams ks r

/-- stream.py:156 the key of a kind. -/
def keyOf (kind : Str) : Str := lower kind ++ ['s']

/-- The triggers by key. -/
abbrev Table (Rx : Type) := Dict Str (List (Trigger Rx))

/-- `table[key].append(t)`; the key exists. -/
def Table.push (d : Table Rx) (key : Str) (t : Trigger Rx) : Table Rx := d.set key ((d.get? key).getD [] ++ [t])

/-- stream.py:160-171 one turn of the inner loop. (A value of `inverse` that is no `bool` raises `ValueError` on both branches.) -/
def buildOne (E : Engine Rx) (kind : Str) (tt : Table Rx × Table Rx) (p : Str × Conf Rx) : Res (Table Rx × Table Rx) :=
  kindOf p.2 >>= fun k =>
  if k = kind then
    mkTrigger E p.1 p.2 >>= fun t =>
    if t.inverse then .ok (tt.1, Table.push tt.2 (keyOf kind) t) else .ok (Table.push tt.1 (keyOf kind) t, tt.2)
  else .ok tt

/-- stream.py:155-157 the empty tables. -/
def emptyTable (kinds : List Str) : Table Rx := kinds.foldl (fun d k => d.set (keyOf k) []) []

/-- stream.py:149-172 `_build_stream_triggers`. -/
def build (E : Engine Rx) (kinds : List Str) (config : Config Rx) : Res (Table Rx × Table Rx) :=
  Res.foldlM' (fun tt kind => Res.foldlM' (buildOne E kind) tt config) (emptyTable kinds, emptyTable kinds) kinds

/-- stream.py:201-206: the inverse triggers are appended in place, once per kind. -/
def extend (kinds : List Str) (tr inv : Table Rx) : Table Rx :=
  kinds.foldl (fun d k => d.set (keyOf k) ((d.get? (keyOf k)).getD [] ++ (inv.get? (keyOf k)).getD [])) tr

/-- The triggers with their positions, in the order of the loops of stream.py:214-216. -/
def flat (tr : Table Rx) : List ((Str × Nat) × Trigger Rx) :=
  tr.flatMap fun p => p.2.zipIdx.map fun q => ((p.1, q.2), q.1)

/-- stream.py:424-435 `check_line`: found or not (`AttributeError` if the regex has no `search`). -/
def checkLine (E : Engine Rx) (t : Trigger Rx) (line : Str) : Res Bool :=
  match t.regex with
  | some r => .ok (E.search r line)
  | none => .raise .attributeError

/-- What the loops change: `_streams`, `_inverse_streams`, `ignore`. -/
structure State (Rx : Type) where
  streams : List (Trigger Rx) := []
  inverse : List Str := []
  ignore : List (Str × Nat) := []

/-- stream.py:217-229 one trigger on one line. -/
def checkOne (E : Engine Rx) (history : Bool) (line : Str) (st : State Rx) (p : (Str × Nat) × Trigger Rx) : Res (State Rx) :=
  if p.1 ∈ st.ignore then .ok st
  else checkLine E p.2 line >>= fun b =>
    if b then .ok { streams := if p.2.inverse then st.streams else st.streams ++ [p.2],
                    inverse := if p.2.inverse then st.inverse ++ [p.2.shortname] else st.inverse,
                    ignore := if history then st.ignore else st.ignore ++ [p.1] }
    else .ok st

/-- stream.py:212-229 the loops. -/
def scan (E : Engine Rx) (history : Bool) (all : List ((Str × Nat) × Trigger Rx)) (st : State Rx) (lines : List Str) : Res (State Rx) :=
  Res.foldlM' (fun st line => Res.foldlM' (checkOne E history line) st all) st lines

/-- stream.py:231-246 `_add_inverse_triggers`. -/
def undetected (inv : Table Rx) (detected : List Str) : List (Trigger Rx) :=
  (inv.flatMap Prod.snd).filter fun t => decide (t.shortname ∉ detected)

/-- The object after construction: `configured_streams`, `kinds`, `entries`. -/
structure Object (Rx : Type) where
  configured : Table Rx
  kinds : List Str
  entries : List (Trigger Rx)

/-- stream.py:21-76 `Stream(file_path, file_handler, history, config)`; `dflt` is the content of stream.yml. -/
def init (E : Engine Rx) (dflt : Config Rx) (user : Option (Config Rx)) (history : Bool) (path : Option (Option Str)) (handler : Option Str) :
    Res (Object Rx) :=
  if path.isNone ∧ handler.isNone then .exit 10
  else
    let config := match user with
      | some u => update dflt u
      | none => dflt
    setStreams [] config >>= fun kinds =>
    build E kinds config >>= fun tt =>
    (match handler with
      | some t => .ok (readlines t)
      | none => match path with
        | some (some t) => .ok (readlines t)
        | _ => .exit 14) >>= fun lines =>
    let all := extend kinds tt.1 tt.2
    scan E history (flat all) {} lines >>= fun st =>
    .ok ⟨all, kinds, st.streams ++ undetected tt.2 st.inverse⟩

end Verif.Stream
