import Verif.Py.Str
/-!
# Python numbers and their texts

`int()`, `float()`, `str(int)`, `str(float)`, `'{:6d}'`, `'{:w.pf}'` as CPython defines them.

Simplifications: only ASCII digits; no limit on the number of digits of an integer; a float literal denotes its exact
decimal value (rounding to binary64 is a parameter where it matters, see `FloatEnv`).
-/
set_option autoImplicit false
namespace Verif

/-- ASCII decimal digit. -/
def isDigit (c : Char) : Bool := 48 ≤ c.toNat && c.toNat ≤ 57
/-- Value of a digit. -/
def digitVal (c : Char) : Nat := c.toNat - 48
/-- Character of a digit value. -/
def digitChar (d : Nat) : Char := Char.ofNat (48 + d)

/-- Value of a digit list, most significant first. -/
def ofDigits (ds : List Nat) : Nat := ds.foldl (fun a d => 10 * a + d) 0

/-- Does the string begin with a digit? -/
def headDigit : Str → Bool
  | [] => false
  | d :: _ => isDigit d

/-- Longest prefix of the form `digit ("_"? digit)*`; `prev` tells whether the previous character was a digit. -/
def spanDigits : (prev : Bool) → Str → List Nat × Str
  | _, [] => ([], [])
  | prev, c :: cs =>
    if isDigit c then
      let r := spanDigits true cs
      (digitVal c :: r.1, r.2)
    else if c == '_' && prev && headDigit cs then spanDigits false cs
    else ([], c :: cs)

/-- Optional sign: `(negative, rest)`. -/
def takeSign : Str → Bool × Str
  | '-' :: cs => (true, cs)
  | '+' :: cs => (false, cs)
  | cs => (false, cs)

/-- `int(s)`; `none` is `ValueError`. -/
def pyInt (s : Str) : Option Int :=
  let t := takeSign (strip s)
  match spanDigits false t.2 with
  | (d :: ds, []) => some (if t.1 then - (ofDigits (d :: ds) : Int) else (ofDigits (d :: ds) : Int))
  | _ => none

/-- A finite decimal number `± mant * 10 ^ exp` (sign kept for zero). -/
structure Dec where
  neg : Bool
  mant : Nat
  exp : Int
  deriving DecidableEq, Repr

/-- Result of `float()`: a decimal, an infinity or not-a-number. -/
inductive PyFloat
  | fin (d : Dec)
  | inf (neg : Bool)
  | nan
  deriving DecidableEq, Repr

/-- The exact rational value of a decimal. -/
def Dec.toRat (d : Dec) : Rat :=
  let m : Rat := if 0 ≤ d.exp then (d.mant : Rat) * (10 : Rat) ^ d.exp.toNat
                 else (d.mant : Rat) / (10 : Rat) ^ (-d.exp).toNat
  if d.neg then -m else m

/-- Exponent part of a float literal: nothing, or `e[sign]digits`. -/
def parseExp : Str → Option Int
  | [] => some 0
  | c :: cs =>
    if c == 'e' || c == 'E' then
      let t := takeSign cs
      match spanDigits false t.2 with
      | (d :: ds, []) => some (if t.1 then - (ofDigits (d :: ds) : Int) else (ofDigits (d :: ds) : Int))
      | _ => none
    else none

/-- The unsigned decimal literal grammar of `float()`. -/
def parseDec (neg : Bool) (s : Str) : Option Dec :=
  match spanDigits false s with
  | (ip, '.' :: rest) =>
    match spanDigits false rest with
    | (fp, rest') =>
      if ip.isEmpty && fp.isEmpty then none
      else (parseExp rest').map fun e => ⟨neg, ofDigits (ip ++ fp), e - fp.length⟩
  | (ip, rest) =>
    if ip.isEmpty then none else (parseExp rest).map fun e => ⟨neg, ofDigits ip, e⟩

/-- `float(s)` before rounding to binary64; `none` is `ValueError`. -/
def pyFloat (s : Str) : Option PyFloat :=
  let t := takeSign (strip s)
  let l := lower t.2
  if l = c!"inf" ∨ l = c!"infinity" then some (.inf t.1)
  else if l = c!"nan" then some .nan
  else (parseDec t.1 t.2).map .fin

/-- `float(s)` restricted to finite literals, as an exact rational. `none` also for `inf`/`nan`. -/
def pyFloatRat (s : Str) : Option Rat :=
  match pyFloat s with
  | some (.fin d) => some d.toRat
  | _ => none

/-- Decimal digits of a natural number (fuel-driven). -/
def natStrAux : Nat → Nat → Str
  | 0, _ => []
  | f + 1, n => if n < 10 then [digitChar n] else natStrAux f (n / 10) ++ [digitChar (n % 10)]

/-- `str(n)` for a natural number. -/
def natStr (n : Nat) : Str := natStrAux (n + 1) n

/-- `str(i)` for an integer. -/
def intStr (i : Int) : Str := if i < 0 then '-' :: natStr i.natAbs else natStr i.natAbs

/-- Pad on the left with spaces to width `w` (numbers are right-aligned by `format`). -/
def padLeft (w : Nat) (s : Str) : Str := List.replicate (w - s.length) ' ' ++ s

/-- `'{:wd}'.format(i)`. -/
def fmtInt (w : Nat) (i : Int) : Str := padLeft w (intStr i)

/-- `n / d` rounded to the nearest natural number, ties to even. -/
def roundDiv (n d : Nat) : Nat :=
  let q := n / d
  let r := n % d
  if 2 * r < d then q else if d < 2 * r then q + 1 else if q % 2 = 0 then q else q + 1

/-- Digits of `r` with at least `k` places. -/
def natStrPad (k r : Nat) : Str := List.replicate (k - (natStr r).length) '0' ++ natStr r

/-- Unsigned fixed notation of `r / 10 ^ p`. -/
def fixedStr (p r : Nat) : Str :=
  let s := natStrPad (p + 1) r
  if p = 0 then s else s.take (s.length - p) ++ '.' :: s.drop (s.length - p)

/-- The scaled and rounded magnitude printed by `'{:.pf}'`. -/
def scaledAbs (p : Nat) (x : Rat) : Nat := roundDiv (x.num.natAbs * 10 ^ p) x.den

/-- `'{:.pf}'.format(x)` for a finite float of exact value `x` (simplification: `-0.0` is printed as `0.0`). -/
def fmtFixedRaw (p : Nat) (x : Rat) : Str :=
  if x < 0 then '-' :: fixedStr p (scaledAbs p x) else fixedStr p (scaledAbs p x)

/-- `'{:w.pf}'.format(x)`. -/
def fmtFixed (w p : Nat) (x : Rat) : Str := padLeft w (fmtFixedRaw p x)

/-- Remove trailing zeros of a mantissa (fuel-driven). -/
def stripZerosAux : Nat → Nat → Int → Nat × Int
  | 0, m, e => (m, e)
  | f + 1, m, e => if m % 10 = 0 then stripZerosAux f (m / 10) (e + 1) else (m, e)

/-- Canonical representative of a decimal: no trailing zero, zero has exponent 0. -/
def Dec.norm (d : Dec) : Dec :=
  if d.mant = 0 then ⟨d.neg, 0, 0⟩
  else
    let r := stripZerosAux d.mant d.mant d.exp
    ⟨d.neg, r.1, r.2⟩

/-- Canonical decimals: what the shortest-digits conversion delivers. -/
def Dec.Normal (d : Dec) : Prop := (d.mant = 0 ∧ d.exp = 0) ∨ d.mant % 10 ≠ 0

instance (d : Dec) : Decidable d.Normal := by unfold Dec.Normal; infer_instance

/-- Unsigned `repr` of a float whose shortest digits are `mant` and whose last digit has weight `10 ^ exp`
(CPython `float_repr`, format code `'r'`: exponent notation iff the decimal point position is `≤ -4` or `> 16`). -/
def reprAbs (mant : Nat) (exp : Int) : Str :=
  let ds := natStr mant
  let n := ds.length
  let pt : Int := n + exp
  if -4 < pt ∧ pt ≤ 16 then
    if pt ≤ 0 then c!"0." ++ List.replicate (-pt).toNat '0' ++ ds
    else if (n : Int) ≤ pt then ds ++ List.replicate exp.toNat '0' ++ c!".0"
    else ds.take pt.toNat ++ '.' :: ds.drop pt.toNat
  else
    let e := pt - 1
    let es := if e < 0 then '-' :: natStrPad 2 e.natAbs else '+' :: natStrPad 2 e.natAbs
    (match ds with
     | [] => []
     | [d] => [d]
     | d :: ds' => d :: '.' :: ds') ++ 'e' :: es

/-- `str(x)` of a float. -/
def floatStr : PyFloat → Str
  | .fin d => if d.neg then '-' :: reprAbs d.mant d.exp else reprAbs d.mant d.exp
  | .inf neg => if neg then c!"-inf" else c!"inf"
  | .nan => c!"nan"

/-- What the model assumes about binary64: `round` maps the exact value of a literal to the float read, represented by its
shortest round-trip digits; a finite result is canonical and reads back as itself. -/
structure FloatEnv where
  round : Dec → PyFloat
  normal : ∀ d d', round d = .fin d' → d'.Normal
  fix : ∀ d d' d'', round d = .fin d' → d''.norm = d' → round d'' = .fin d'

/-- `float(s)` with rounding. -/
def pyFloatR (F : FloatEnv) (s : Str) : Option PyFloat :=
  (pyFloat s).map fun
    | .fin d => F.round d
    | x => x

end Verif
