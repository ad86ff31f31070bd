import Verif.Model.Outcar
/-!
# Model of /repo/parsevasp/potcar.py

Regular expressions are written out as deterministic scanners; the comment at each says why backtracking makes no difference. Floats are
exact rationals (binary64 rounding is not modelled). Letters, digits and letter case are those of ASCII (Python's `\d`, `isalpha`, `upper`
also know others). Not modelled: logging; `_write` (does nothing).
-/
set_option autoImplicit false
namespace Verif.Potcar
open Verif Verif.Utils
open Verif.Kpoints (idx toFloat toInt)
open Verif.Outcar (cut)

/-- A value of the metadata. -/
inductive Value
  | text (s : Str)
  | bool (b : Bool)
  | int (i : Int)
  | float (x : Rat)
  | floats (xs : List Rat)
  deriving DecidableEq, Repr

/-! ### converters -/

/-- An optional character at the front: what it matches and the rest. -/
def optional (p : Char → Bool) : Str → Str × Str
  | c :: cs => if p c then ([c], cs) else ([], c :: cs)
  | [] => ([], [])

/-- potcar.py:110-112 `re.match(r'^\.?([TFtf])[A-Za-z]*\.?', val).group(1).lower() in ['t']`. A point can only be matched by the optional
point, so nothing is tried twice. No match is an `AttributeError`. -/
def toBool (val : Str) : Res Value :=
  match (optional (· == '.') val).2 with
  | c :: _ => if c = 'T' ∨ c = 't' then .ok (.bool true) else if c = 'F' ∨ c = 'f' then .ok (.bool false) else .raise .attributeError
  | [] => .raise .attributeError

/-- potcar.py:113-115 `int(re.match(r'^-?[0-9]+', val).group(0))`. -/
def toInteger (val : Str) : Res Value :=
  let m := optional (· == '-') val
  let ds := (spanP isDigit m.2).1
  if ds = [] then .raise .attributeError else toInt (m.1 ++ ds) >>= fun i => .ok (.int i)

/-- potcar.py:116-130 `re.search(r'^-?\d*\.?\d*[eE]?-?\d*', val).group(0)`: every part is optional, so the greedy match is the match. -/
def floatPart (val : Str) : Str :=
  let a := optional (· == '-') val
  let b := spanP isDigit a.2
  let c := optional (· == '.') b.2
  let d := spanP isDigit c.2
  let e := optional (fun x => x == 'e' || x == 'E') d.2
  let f := optional (· == '-') e.2
  let g := spanP isDigit f.2
  a.1 ++ b.1 ++ c.1 ++ d.1 ++ e.1 ++ f.1 ++ g.1

/-- potcar.py:116-130 `float(...)` of that part. -/
def toReal (val : Str) : Res Value := toFloat (floatPart val) >>= fun x => .ok (.float x)

/-- `str.isalpha` on ASCII. -/
def isAlpha (w : Str) : Bool := !w.isEmpty && w.all fun c => (65 ≤ c.toNat && c.toNat ≤ 90) || (97 ≤ c.toNat && c.toNat ≤ 122)

/-- potcar.py:131 `[float(y) for y in re.split(r'\s+', val.strip()) if not y.isalpha()]`; a blank value gives one empty piece. -/
def toReals (val : Str) : Res Value :=
  if words val = [] then .raise .valueError
  else Res.mapM' toFloat ((words val).filter fun w => !isAlpha w) >>= fun xs => .ok (.floats xs)

/-- potcar.py:106-132 the table of keys; `none` for other keys, which are ignored. -/
def converter (key : Str) : Option (Str → Res Value) :=
  if key ∈ [c!"VRHFIN", c!"LEXCH", c!"TITEL"] then some fun val => .ok (.text (strip val))
  else if key ∈ [c!"LULTRA", c!"LCOR", c!"LPAW"] then some toBool
  else if key ∈ [c!"IUNSCR", c!"NDATA", c!"ICORE"] then some toInteger
  else if key ∈ [c!"EATOM", c!"RPACOR", c!"POMASS", c!"ZVAL", c!"RCORE", c!"RWIGS", c!"ENMAX", c!"ENMIN", c!"RCLOC", c!"EAUG", c!"DEXC",
      c!"RMAX", c!"RAUG", c!"RDEP", c!"RDEPT"] then some toReal
  else if key = c!"STEP" then some toReals
  else none

/-! ### entries -/

/-- What follows a `=` at the front. -/
def afterEq : Str → Option Str
  | c :: r => if c = '=' then some r else none
  | [] => none

/-- The last `=` of a run of non-white-space, not at its front: what stands before and behind it. -/
def lastEq : Str → Option (Str × Str)
  | [] => none
  | c :: cs => match lastEq cs with
    | some (a, b) => some (c :: a, b)
    | none => match afterEq cs with
      | some r => some ([c], r)
      | none => none

/-- potcar.py:140 `(\S+)\s*=` at the front: the key and what follows the `=`. The longest run of non-white-space is tried first (then the
`=` may follow white space); shorter ones need the `=` inside the run, the last one first. -/
def keyAt (s : Str) : Option (Str × Str) :=
  let w := spanP (fun c => !isSpace c) s
  match afterEq (spanP isSpace w.2).2 with
  | some r => if w.1 = [] then none else some (w.1, r)
  | none => match lastEq w.1 with
    | some (k, r) => some (k, r ++ w.2)
    | none => none

/-- The end of a value. -/
def isEnd (c : Char) : Bool := c == ';' || c == '\n'

/-- potcar.py:140 `\s*(.*?)(?=;|$)` at the front: the value and what follows it. -/
def valueAt (s : Str) : Str × Str := spanP (fun x => !isEnd x) (spanP isSpace s).2

/-- potcar.py:140 `re.findall(r'(\S+)\s*=\s*(.*?)(?=;|$)', s, flags=re.MULTILINE)`; `n` bounds the recursion, `s.length` is enough. The value
begins behind all white space and ends before the next `;` or line end, which always exists. -/
def findAll : Nat → Str → List (Str × Str)
  | _, [] => []
  | 0, _ :: _ => []
  | n + 1, c :: cs => (keyAt (c :: cs)).elim (findAll n cs) fun kr => (kr.1, (valueAt kr.2).1) :: findAll n (valueAt kr.2).2

/-- potcar.py:139-142 the loop over the entries. -/
def collect : Dict Str Value → List (Str × Str) → Res (Dict Str Value)
  | d, [] => .ok d
  | d, (k, v) :: r => match converter k with
    | none => collect d r
    | some f => f v >>= fun x => collect (d.set k x) r

/-- The object. -/
structure Data where
  metadata : Dict Str Value
  symbol : Str
  element : Str
  deriving DecidableEq, Repr

/-- potcar.py:133-137 the part between the two marks, `None.group` is an `AttributeError`. -/
def region (s : Str) : Res Str :=
  match cut c!"parameters from PSCTR are:" s with
  | (_, some r) => match cut c!"END of PSCTR-controll parameters" r with
    | (m, some _) => .ok (c!"parameters from PSCTR are:" ++ m ++ c!"END of PSCTR-controll parameters")
    | _ => .raise .attributeError
  | _ => .raise .attributeError

/-- potcar.py:144-147 the symbol. -/
def symbolOf (titel : Str) : Str :=
  match splitOn ' ' titel with
  | _ :: b :: _ => strip b
  | _ => strip titel

/-- potcar.py:93-149 `_generate_metadata`. `TITEL` is always text. -/
def fromText (s : Str) : Res Data :=
  region s >>= fun lines =>
  collect [] (findAll lines.length lines) >>= fun md =>
  match md.get? c!"TITEL" with
  | none => .raise .keyError
  | some (.text t) => .ok ⟨md, symbolOf t, (split1 '_' (symbolOf t)).1⟩
  | some _ => .raise .attributeError

/-- potcar.py:71-91 `Potcar(file_path, file_handler)`; `path` is `some none` if there is no such file. -/
def init (path : Option (Option Str)) (handler : Option Str) : Res Data :=
  match handler with
  | some t => fromText t
  | none => match path with
    | some (some t) => fromText t
    | some none => .exit 14
    | none => .raise .valueError

/-! ### properties of the object -/

/-- potcar.py:24-69 `_functional_tags`: name and class. -/
def functionalTags : Dict Str (Str × Str) := [
  (c!"pe", (c!"PBE", c!"GGA")), (c!"91", (c!"PW91", c!"GGA")), (c!"rp", (c!"revPBE", c!"GGA")), (c!"am", (c!"AM05", c!"GGA")),
  (c!"ps", (c!"PBEsol", c!"GGA")), (c!"pw", (c!"PW86", c!"GGA")), (c!"lm", (c!"Langreth-Mehl-Hu", c!"GGA")),
  (c!"pb", (c!"Perdew-Becke", c!"GGA")), (c!"ca", (c!"Perdew-Zunger81", c!"LDA")), (c!"hl", (c!"Hedin-Lundquist", c!"LDA")),
  (c!"wi", (c!"Wigner Interpoloation", c!"LDA"))]

/-- potcar.py:185, 197 the entry of the table; no `LEXCH` is an `AttributeError`. -/
def tagOf (d : Data) : Res (Option (Str × Str)) :=
  match d.metadata.get? c!"LEXCH" with
  | some (.text t) => .ok (functionalTags.get? (lower t))
  | _ => .raise .attributeError

/-- potcar.py:175-185 `functional`. -/
def functional (d : Data) : Res (Option Str) := tagOf d >>= fun t => .ok (t.map Prod.fst)

/-- potcar.py:187-197 `functional_class`. -/
def functionalClass (d : Data) : Res (Option Str) := tagOf d >>= fun t => .ok (t.map Prod.snd)

/-- potcar.py:199-209 `__getattr__`, for names that are not attributes of the object or its class. -/
def getattr (d : Data) (name : Str) : Res Value :=
  match d.metadata.get? (upper name) with
  | some v => .ok v
  | none => .raise .attributeError

end Verif.Potcar
