import Verif.Py.Str
/-
IEEE-754 binary64 as used by Python's `float`: correctly rounded parsing of decimal literals,
division, `round`, `str`/`repr` (shortest round-trip) and `'{:e}'.format`.
This models the Python runtime, not code of /repo.
-/

namespace Verif

/-- A Python float; `fin neg m e` is the number (-1)^neg * m * 2^e. -/
inductive F64 where
  | nan
  | inf (neg : Bool)
  | fin (neg : Bool) (m : Nat) (e : Int)
deriving DecidableEq, Repr

/-- Round a quotient to the nearest integer, ties to even. -/
def rneDiv (n d : Nat) : Nat :=
  let q := n / d
  let r := n % d
  if 2 * r < d then q else if d < 2 * r then q + 1 else if q % 2 = 0 then q else q + 1

/-- `2^e` for `e ≥ 0`, else 1. -/
def pow2pos (e : Int) : Nat := 2 ^ e.toNat
/-- `2^(-e)` for `e ≤ 0`, else 1. -/
def pow2neg (e : Int) : Nat := 2 ^ (-e).toNat

/-- Exponent of the last place of the binary64 number nearest to `n/d` (`n, d > 0`):
the mantissa `n/d / 2^e` lies in `[2^52, 2^53)`, or `e = -1074` (subnormal range). -/
def ulpExp (n d : Nat) : Int :=
  let e1 : Int := (Nat.log2 n : Int) - (Nat.log2 d : Int) - 53
  let e2 : Int := if 2 ^ 53 * (d * pow2pos e1) ≤ n * pow2neg e1 then e1 + 1 else e1
  max e2 (-1074)

/-- The binary64 number nearest to `± n/d` (ties to even, overflow to infinity). -/
def F64.ofFrac (neg : Bool) (n d : Nat) : F64 :=
  if n = 0 then .fin neg 0 0
  else
    let e := ulpExp n d
    let m := rneDiv (n * pow2neg e) (d * pow2pos e)
    if 2 ^ 1024 * pow2neg e ≤ m * pow2pos e then .inf neg else .fin neg m e

/-- Numerator and denominator of `|x|` for a finite `x`. -/
def F64.num (m : Nat) (e : Int) : Nat := m * pow2pos e
def F64.den (e : Int) : Nat := pow2neg e

/-! ### Literals -/

/-- Value of the exponent part `[eE][+-]?digits`, or of the empty string. -/
def parseExp (U : Uni) : Str → Option Int
  | [] => some 0
  | c :: cs =>
    if c == 'e' || c == 'E' then
      let (neg, ds) := match cs with
        | '+' :: r => (false, r)
        | '-' :: r => (true, r)
        | r => (false, r)
      if ds.isEmpty || !ds.all (isDigit U) then none
      else
        let n : Int := natOfDigits U ds
        some (if neg then -n else n)
    else none

/-- An unsigned finite decimal literal `digits[.digits][exp]` or `.digits[exp]`, as
(integer coefficient, power of ten). -/
def parseDecimal (U : Uni) (s : Str) : Option (Nat × Int) :=
  let ip := s.takeWhile (isDigit U)
  let r := s.dropWhile (isDigit U)
  let (fp, r') := match r with
    | '.' :: t => (t.takeWhile (isDigit U), t.dropWhile (isDigit U))
    | _ => ([], r)
  if ip.isEmpty && fp.isEmpty then none
  else (parseExp U r').map fun e => (natOfDigits U (ip ++ fp), e - (fp.length : Int))

/-- ± coefficient * 10^k as a float. -/
def F64.ofDecimal (neg : Bool) (coef : Nat) (k : Int) : F64 :=
  F64.ofFrac neg (coef * 10 ^ k.toNat) (10 ^ (-k).toNat)

/-- `inf`, `infinity`, `nan` in any letter case. -/
def parseSpecial (neg : Bool) (s : Str) : Option F64 :=
  let l := s.map asciiToLower
  if l = s%"inf" ∨ l = s%"infinity" then some (.inf neg)
  else if l = s%"nan" then some .nan else none

/-- Every underscore stands between two digits. -/
def underscoresOk (U : Uni) : Bool → Str → Bool
  | _, [] => true
  | prevDigit, '_' :: cs =>
    prevDigit && (match cs with | c :: _ => isDigit U c | [] => false) && underscoresOk U false cs
  | _, c :: cs => underscoresOk U (isDigit U c) cs

/-- `float(s)` for a string `s`; `none` is `ValueError`. -/
def pyFloat (U : Uni) (s : Str) : Option F64 :=
  let t := strip s
  if !underscoresOk U false t then none
  else
    let t := t.filter (· ≠ '_')
    let (neg, r) := match t with
      | '+' :: r => (false, r)
      | '-' :: r => (true, r)
      | r => (false, r)
    match parseSpecial neg r with
    | some x => some x
    | none => (parseDecimal U r).map fun (c, k) => F64.ofDecimal neg c k

/-! ### Rounding and arithmetic -/

/-- `int(round(x))`; `none` is the exception raised for infinities and NaN. -/
def F64.roundInt : F64 → Option Int
  | .fin neg m e =>
    let n : Int := rneDiv (F64.num m e) (F64.den e)
    some (if neg then -n else n)
  | _ => none

/-- `abs(x - int(round(x))) <= 1e-7`; `none` when an exception is raised.  The subtraction is
exact in binary64, and 1e-7 is the binary64 number nearest to 10^-7. -/
def F64.nearInt : F64 → Option Bool
  | .fin _ m e =>
    let n := F64.num m e
    let d := F64.den e
    let k := rneDiv n d * d
    let diff := if n ≤ k then k - n else n - k
    match F64.ofFrac false 1 (10 ^ 7) with
    | .fin _ m' e' => some (decide (diff * F64.den e' ≤ F64.num m' e' * d))
    | _ => none
  | _ => none

/-- `x / 100` -/
def F64.div100 : F64 → F64
  | .fin neg m e => F64.ofFrac neg (F64.num m e) (F64.den e * 100)
  | x => x

/-- `x != 0` -/
def F64.neZero : F64 → Bool
  | .fin _ m _ => m ≠ 0
  | _ => true

/-! ### Printing -/

/-- Smallest `j ≤ fuel` with `d ≤ n * 10^j`. -/
def negExp10 (n d : Nat) : Nat → Nat → Nat
  | 0, j => j
  | f + 1, j => if d ≤ n * 10 ^ j then j else negExp10 n d f (j + 1)

/-- The decimal exponent `k` with `10^k ≤ n/d < 10^(k+1)` (`n, d > 0`). -/
def decExp (n d : Nat) : Int :=
  if d ≤ n then ((natStr (n / d)).length : Int) - 1 else - (negExp10 n d 1200 0 : Int)

/-- `n/d * 10^k` rounded to an integer, ties to even. -/
def scaled (n d : Nat) (k : Int) : Nat := rneDiv (n * 10 ^ k.toNat) (d * 10 ^ (-k).toNat)

/-- `p` significant decimal digits of `n/d`, correctly rounded: coefficient with exactly `p`
digits, and decimal exponent of the first digit. -/
def sigDigits (n d p : Nat) : Nat × Int :=
  let k := decExp n d
  let c := scaled n d ((p : Int) - 1 - k)
  if c = 10 ^ p then (10 ^ (p - 1), k + 1) else (c, k)

/-- The decimal `c * 10^k` reads back as the float `(m, e)`. -/
def readsBack (c : Nat) (k : Int) (m : Nat) (e : Int) : Bool :=
  match F64.ofDecimal false c k with
  | .fin _ m' e' => decide (F64.num m' e' * F64.den e = F64.num m e * F64.den e')
  | _ => false

/-- Shortest decimal that reads back as the float, closest to it among the shortest:
coefficient, number of digits, exponent of the first digit. -/
def shortest (m : Nat) (e : Int) : Nat → Nat → Nat × Nat × Int
  | 0, p => let (c, k) := sigDigits (F64.num m e) (F64.den e) p; (c, p, k)
  | f + 1, p =>
    let n := F64.num m e
    let d := F64.den e
    let (c, k) := sigDigits n d p
    if readsBack c (k - (p : Int) + 1) m e then (c, p, k)
    else if readsBack (c + 1) (k - (p : Int) + 1) m e && decide (c + 1 < 10 ^ p) then (c + 1, p, k)
    else shortest m e f (p + 1)

/-- Exponent suffix `e+XX` with at least two digits. -/
def expSuffix (k : Int) : Str :=
  let ds := natStr k.natAbs
  let ds := if ds.length < 2 then '0' :: ds else ds
  'e' :: (if k < 0 then '-' else '+') :: ds

/-- `str(x)` of a float. -/
def F64.repr : F64 → Str
  | .nan => s%"nan"
  | .inf neg => if neg then s%"-inf" else s%"inf"
  | .fin neg m e =>
    let sign : Str := if neg then s%"-" else []
    if m = 0 then sign ++ s%"0.0"
    else
      let (c, _, k) := shortest m e 16 1
      let ds := natStr c
      sign ++
      (if -4 ≤ k ∧ k < 16 then
        if k < 0 then s%"0." ++ List.replicate (-k - 1).toNat '0' ++ ds
        else
          let ip := k.toNat + 1
          if ds.length ≤ ip then ds ++ List.replicate (ip - ds.length) '0' ++ s%".0"
          else ds.take ip ++ '.' :: ds.drop ip
      else
        (ds.take 1 ++ (if ds.length ≤ 1 then [] else '.' :: ds.drop 1)) ++ expSuffix k)

/-- `'{:e}'.format(x)` for a finite `x`. -/
def F64.fmtE : F64 → Str
  | .nan => s%"nan"
  | .inf neg => if neg then s%"-inf" else s%"inf"
  | .fin neg m e =>
    let sign : Str := if neg then s%"-" else []
    if m = 0 then sign ++ s%"0.000000e+00"
    else
      let (c, k) := sigDigits (F64.num m e) (F64.den e) 7
      let ds := natStr c
      sign ++ ds.take 1 ++ '.' :: ds.drop 1 ++ expSuffix k

end Verif
