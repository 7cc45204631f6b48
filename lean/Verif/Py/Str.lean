/-
Python `str` as a list of code points, with the string methods used by /repo.
This file models the Python standard library (CPython 3), not code of /repo.
Simplification: lone surrogates (which a Python str can hold and `Char` cannot) are excluded.
-/

namespace Verif

/-- A Python `str`. -/
abbrev Str := List Char

/-- `s%"abc"` is the explicit list `['a','b','c']`. -/
syntax:max "s%" str : term
macro_rules
  | `(s% $s:str) => do
    let nil : Lean.TSyntax `term ← `(([] : List Char))
    let mut acc := nil
    for c in s.getString.toList.reverse do
      acc ← `(List.cons $(Lean.Syntax.mkCharLit c) $acc)
    return acc

/-- Unicode data for characters outside ASCII.  All theorems hold for every choice. -/
structure Uni where
  /-- membership of a non-ASCII character in `\d` (category Nd) -/
  digit : Char → Bool
  /-- decimal value of a non-ASCII digit (taken modulo 10) -/
  digitVal : Char → Nat
  /-- membership of a non-ASCII character in `\w` -/
  word : Char → Bool
  /-- `str.lower` of a non-ASCII character, given what precedes (reversed) and follows it -/
  lower : Str → Char → Str → Str

/-- ASCII decimal digit. -/
def asciiDigit (c : Char) : Bool := decide (48 ≤ c.toNat ∧ c.toNat ≤ 57)
/-- `[a-z]` -/
def asciiLower (c : Char) : Bool := decide (97 ≤ c.toNat ∧ c.toNat ≤ 122)
/-- `[A-Z]` -/
def asciiUpper (c : Char) : Bool := decide (65 ≤ c.toNat ∧ c.toNat ≤ 90)
/-- `[a-zA-Z]` -/
def asciiAlpha (c : Char) : Bool := asciiLower c || asciiUpper c

/-- `\d` of Python's `re` on `str`, and the characters accepted as digits by `int`/`float`. -/
def isDigit (U : Uni) (c : Char) : Bool :=
  if c.toNat < 128 then asciiDigit c else U.digit c

/-- Decimal value of a digit character. -/
def digitVal (U : Uni) (c : Char) : Nat :=
  if c.toNat < 128 then c.toNat - 48 else U.digitVal c % 10

/-- `\w` of Python's `re` on `str`. -/
def isWord (U : Uni) (c : Char) : Bool :=
  if c.toNat < 128 then asciiDigit c || asciiAlpha c || c == '_' else U.word c || U.digit c

/-- `str.isspace`, the default set of `str.strip()`, and `\s` of `re`
(the complete table of CPython's `_PyUnicode_IsWhitespace`). -/
def isSpace (c : Char) : Bool :=
  let n := c.toNat
  decide ((9 ≤ n ∧ n ≤ 13) ∨ (28 ≤ n ∧ n ≤ 32) ∨ n = 0x85 ∨ n = 0xA0 ∨ n = 0x1680 ∨
    (0x2000 ≤ n ∧ n ≤ 0x200A) ∨ n = 0x2028 ∨ n = 0x2029 ∨ n = 0x202F ∨ n = 0x205F ∨ n = 0x3000)

/-- `s.lstrip`-like removal of the leading characters satisfying `p`. -/
def lstripBy (p : Char → Bool) (s : Str) : Str := s.dropWhile p
def rstripBy (p : Char → Bool) (s : Str) : Str := (s.reverse.dropWhile p).reverse
def stripBy (p : Char → Bool) (s : Str) : Str := rstripBy p (lstripBy p s)

/-- `s.strip()` -/
def strip (s : Str) : Str := stripBy isSpace s
/-- `s.strip(" ")` -/
def stripBlank (s : Str) : Str := stripBy (· == ' ') s

/-- `s.startswith(p)` -/
def startsWith (p s : Str) : Bool := p.isPrefixOf s
/-- `s.endswith(p)` -/
def endsWith (p s : Str) : Bool := p.reverse.isPrefixOf s.reverse

/-- `sub in s` -/
def contains (sub : Str) : Str → Bool
  | [] => sub.isPrefixOf []
  | c :: cs => sub.isPrefixOf (c :: cs) || contains sub cs

/-- `s.find(sub)`, `none` for -1. -/
def find (sub : Str) : Str → Option Nat
  | [] => if sub.isPrefixOf [] then some 0 else none
  | c :: cs => if sub.isPrefixOf (c :: cs) then some 0 else (find sub cs).map (· + 1)

/-- `s.rfind(sub)`, `none` for -1. -/
def rfind (sub : Str) : Str → Option Nat
  | [] => if sub.isPrefixOf [] then some 0 else none
  | c :: cs => match rfind sub cs with
    | some n => some (n + 1)
    | none => if sub.isPrefixOf (c :: cs) then some 0 else none

/-- `s.count(c)` for a single character. -/
def countChar (c : Char) (s : Str) : Nat := (s.filter (· == c)).length

/-- Left-to-right scanning substitution.  `m pre rest` says whether there is a match at the
current position (`pre` is the text before it, reversed) and, if so, its length and replacement.
`skip` counts the characters of the last match that are still to be consumed.  An empty match
emits its replacement and copies one character (the behaviour of `re.sub` since Python 3.7). -/
def scanSub (m : Str → Str → Option (Nat × Str)) : Nat → Str → Str → Str
  | 0, pre, [] => match m pre [] with
    | some (_, r) => r
    | none => []
  | 0, pre, c :: cs => match m pre (c :: cs) with
    | some (0, r) => r ++ c :: scanSub m 0 (c :: pre) cs
    | some (k + 1, r) => r ++ scanSub m k (c :: pre) cs
    | none => c :: scanSub m 0 (c :: pre) cs
  | _ + 1, _, [] => []
  | k + 1, pre, c :: cs => scanSub m k (c :: pre) cs

/-- `s.replace(old, new)` for a non-empty `old`. -/
def replace (old new : Str) (s : Str) : Str :=
  scanSub (fun _ rest => if old.isPrefixOf rest then some (old.length, new) else none) 0 [] s

/-- Accumulating worker of `split`: `acc` is the current piece, reversed. -/
def splitGo (sep : Str) : Nat → Str → Str → List Str
  | _, acc, [] => [acc.reverse]
  | 0, acc, c :: cs =>
    if sep.isPrefixOf (c :: cs) then acc.reverse :: splitGo sep (sep.length - 1) [] cs
    else splitGo sep 0 (c :: acc) cs
  | k + 1, acc, _ :: cs => splitGo sep k acc cs

/-- `s.split(sep)` for a non-empty `sep`. -/
def split (sep : Str) (s : Str) : List Str := splitGo sep 0 [] s

/-- `sep.join(xs)` -/
def join (sep : Str) : List Str → Str
  | [] => []
  | [x] => x
  | x :: y :: ys => x ++ sep ++ join sep (y :: ys)

/-- ASCII lower-casing of one character. -/
def asciiToLower (c : Char) : Char := if asciiUpper c then Char.ofNat (c.toNat + 32) else c

/-- `s.lower()`, worker with left context. -/
def lowerGo (U : Uni) : Str → Str → Str
  | _, [] => []
  | pre, c :: cs =>
    (if c.toNat < 128 then [asciiToLower c] else U.lower pre c cs) ++ lowerGo U (c :: pre) cs

/-- `s.lower()` -/
def lower (U : Uni) (s : Str) : Str := lowerGo U [] s

/-- Python slice `s[i:j]` with non-negative indices. -/
def slice (s : Str) (i j : Nat) : Str := (s.take j).drop i

/-! ### Decimal numerals -/

/-- Digit character of a number below ten. -/
def digitChar (d : Nat) : Char := Char.ofNat (48 + d)

/-- Decimal digits with fuel. -/
def natStrGo : Nat → Nat → Str → Str
  | 0, _, acc => acc
  | f + 1, n, acc =>
    if n < 10 then digitChar n :: acc else natStrGo f (n / 10) (digitChar (n % 10) :: acc)

/-- `str(n)` for a natural number. -/
def natStr (n : Nat) : Str := natStrGo (n + 1) n []

/-- `str(n)` for an integer. -/
def intStr : Int → Str
  | .ofNat n => natStr n
  | .negSucc n => '-' :: natStr (n + 1)

/-- `int(s)` for a string of digits. -/
def natOfDigits (U : Uni) (s : Str) : Nat := s.foldl (fun acc c => acc * 10 + digitVal U c) 0

/-- First occurrences only: the distinct elements of a list, in order. -/
def dedup : List Str → List Str
  | [] => []
  | x :: xs => x :: (dedup xs).filter (· ≠ x)

end Verif
