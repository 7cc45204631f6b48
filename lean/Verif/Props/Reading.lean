import Verif.Props.L2SArith
/-
Specification of ordinary mathematical notation in LaTeX: which texts are written with which signs
(`Written`), and the value of a sequence of signs (`Denotes`), with the usual precedence of
operators.  Nothing here mentions the lexer or the parser.
-/

namespace Verif.Reading
open Verif Verif.L2S

/-- A sign of the notation. -/
inductive Sign where
  | digit (d : Fin 10)
  | letter (c : Char)
  /-- a punctuation mark or an operator of one character -/
  | mark (c : Char)
  /-- a command such as `\frac` -/
  | cmd (n : Str)
  /-- a Greek letter, with the blank after it if there is one -/
  | greek (n : Str) (blank : Bool)
  /-- a differential such as `dx` -/
  | diff (c : Char)
deriving DecidableEq

/-- how a sign is written -/
def Sign.text : Sign → Str
  | .digit d => [digitChar d.val]
  | .letter c => [c]
  | .mark c => [c]
  | .cmd n => '\\' :: n
  | .greek n b => '\\' :: (n ++ if b then [' '] else [])
  | .diff c => ['d', c]

/-- a letter of the Latin alphabet -/
def latin (c : Char) : Bool :=
  (decide ('a' ≤ c) && decide (c ≤ 'z')) || (decide ('A' ≤ c) && decide (c ≤ 'Z'))

/-- letters that stand for a variable: not `e` and `E` (numbers), `d` (differentials) or `I` (the
imaginary unit) -/
def isVariable (c : Char) : Bool := latin c && !([ 'e', 'E', 'd', 'I'].contains c)

/-- names of Greek letters (`\pi` is a number) -/
def greekNames : List Str :=
  [s%"alpha", s%"beta", s%"gamma", s%"delta", s%"epsilon", s%"varepsilon", s%"zeta", s%"eta",
   s%"theta", s%"vartheta", s%"iota", s%"kappa", s%"lambda", s%"mu", s%"nu", s%"xi", s%"omicron",
   s%"varpi", s%"rho", s%"varrho", s%"sigma", s%"varsigma", s%"tau", s%"upsilon", s%"phi",
   s%"varphi", s%"chi", s%"psi", s%"omega", s%"Gamma", s%"Delta", s%"Theta", s%"Lambda", s%"Xi",
   s%"Pi", s%"Sigma", s%"Upsilon", s%"Phi", s%"Psi", s%"Omega"]

/-- The sign is the variable of this name. -/
inductive Variable : Sign → Str → Prop
  | latin {c} : isVariable c = true → Variable (.letter c) [c]
  | greek {n b} : n ∈ greekNames → Variable (.greek n b) n

/-- blanks -/
def blanks (s : Str) : Prop := ∀ c ∈ s, c = ' ' ∨ c = '\t' ∨ c = '\r' ∨ c = '\n'

/-- words that the notation reserves for operators: letters are not read one by one in them -/
def reserved : List Str :=
  [s%"arsinh", s%"arcsinh", s%"arcosh", s%"arccosh", s%"artanh", s%"arctanh", s%"gcd", s%"lcm",
   s%"floor", s%"ceil", s%"eye", s%"zeros", s%"ones", s%"cols", s%"rows", s%"diag", s%"norm",
   s%"rank", s%"trace", s%"tr", s%"rref", s%"hstack", s%"vstack", s%"orth", s%"ortho",
   s%"orthogonal", s%"orthogonalize", s%"nullspace", s%"eig", s%"eigen", s%"diagonalize",
   s%"eigenvals", s%"eigenvalues", s%"eigenvects", s%"eigenvectors", s%"svd", s%"SVD", s%"matrix",
   s%"pmatrix", s%"bmatrix", s%"vmatrix"]

/-- begin and end of matrices and determinants -/
def environments : List Str :=
  [s%"begin{pmatrix}", s%"end{pmatrix}", s%"begin{bmatrix}", s%"end{bmatrix}", s%"begin{vmatrix}",
   s%"end{vmatrix}"]

/-- words that do not follow the end `\\` of a row without a blank: they would form a command with the
backslash before them -/
def commandWords : List Str :=
  [s%"dfrac", s%"tfrac", s%"mathrm", s%"rm", s%"begin", s%"end", s%"displaystyle", s%"quad", s%"qquad",
   s%","]

/-- The sign ends where the following text begins: a command other than `\%`, `\{`, `\}`, `\\`, or the
begin or end of a matrix, is not followed by a letter, a letter does not begin a reserved word, `^` does not begin the mark of a
transpose, `!` and `=` are not followed by `=`, `<` does not begin the arrow `<->` or `<=>`; `d` does
not begin a differential, which has no index; `\infty` is not followed by `\%`. -/
def Ends : Sign → Str → Prop
  | .digit _, _ => True
  | .letter c, s => (∀ w ∈ reserved, ¬ w <+: c :: s) ∧
      (c = 'd' → ∀ a, s.head? = some a →
        latin a = false ∧ a ≠ '\\' ∧ a ≠ ' ' ∧ a ≠ '\t' ∧ a ≠ '\r' ∧ a ≠ '\n')
  | .mark c, s =>
    if c = '^' then ∀ w ∈ [s%"T", s%"{T}", s%"\\top", s%"{\\top}"], ¬ w <+: s
    else if c = '!' ∨ c = '=' then ¬ s%"=" <+: s
    else if c = '<' then ∀ w ∈ [s%"->", s%"=>"], ¬ w <+: s
    else True
  | .cmd n, s => if n ∈ [s%"%", s%"{", s%"}"] ++ environments then True else
      if n = s%"\\" then ∀ w ∈ commandWords, ¬ w <+: s else
      (∀ c, s.head? = some c → latin c = false) ∧ (n = s%"infty" → ¬ s%"\\%" <+: s)
  | .greek _ b, s => b = false → ∀ c, s.head? = some c → latin c = false ∧ c ≠ ' '
  | .diff c, s => (∀ w ∈ reserved, ¬ w <+: 'd' :: c :: s) ∧ s.head? ≠ some '_'

/-- The text is written with these signs, with any blanks between them. -/
inductive Written : List Sign → Str → Prop
  | nil {b} : blanks b → Written [] b
  | cons {b w ws s} : blanks b → Ends w s → Written ws s → Written (w :: ws) (b ++ w.text ++ s)

/-- What a phrase ends with: the digits of a number; a name, which a following bracket would turn
into a function. -/
structure End where
  digits : Bool
  name : Bool

/-- the end of a phrase that anything may follow -/
def closed : End := ⟨false, false⟩

/-- The sign can follow the phrase in a product without operator. -/
def Follows (e : End) (w : Sign) : Prop :=
  (e.digits = true → (∀ d, w ≠ .digit d) ∧ w ≠ .mark '.') ∧
  (e.name = true → w ≠ .mark '(' ∧ w ≠ .mark '[' ∧ w ≠ .mark '{' ∧ w ≠ .cmd s%"left")

/-- Kinds of phrases, from the loosest to the tightest.  The flag of some of them says that the phrase
ends with a function without parentheses around its argument, which would go on in a product. -/
inductive Level where
  | expr | term (o : Bool) | signed (o : Bool) | product (o : Bool)
  | factor (e : End) | power (e : End) | base (e : End) | exponent (e : End)
  /-- a digit or an expression in braces: the argument of a command -/
  | part
  /-- an expression in parentheses: the argument of a function -/
  | arg
  /-- a function with an argument that is not in parentheses -/
  | app
  /-- a sum, product or limit, whose body goes on through operators of multiplication -/
  | long
  /-- the point of a limit from one side -/
  | point
  /-- an argument without parentheses: one or several terms, a term with a sign, a product, and the
  product without its first factor -/
  | bareTerm (o : Bool) | bareSigned (o : Bool) | bare (o : Bool) | rest

/-- What the notation comprises: arguments without parentheses that go on through operators (`wide`),
and integrals. -/
structure Style where
  wide : Bool
  integrals : Bool

/-- notation without integrals -/
instance : Coe Bool Style := ⟨fun b => ⟨b, false⟩⟩

/-- Nesting of braces after the signs, when it is `n` before them; none if one closes too many. -/
def level : Nat → List Sign → Option Nat
  | n, [] => some n
  | n, w :: ws =>
    if w = .mark '{' then level (n + 1) ws
    else if w = .mark '}' then
      match n with
      | 0 => none
      | m + 1 => level m ws
    else level n ws

/-- No two differentials in the same group of braces (or both outside of braces). -/
def Apart (ws : List Sign) : Prop := ∀ a b c x y, ws = a ++ .diff x :: (b ++ .diff y :: c) →
  level 0 b ≠ some 0

/-- functions that are written without parentheses as well -/
def named : Sign → Bool
  | .cmd n => (functionNames.map (·.1) ++ [s%"log", s%"ln"]).contains n
  | _ => false

/-- signs that begin a function, a root or a power of `e` -/
def opens : Sign → Bool
  | .cmd n => (functionNames.map (·.1) ++ [s%"log", s%"ln", s%"sqrt"]).contains n
  | .letter c => c == 'e'
  | _ => false

/-- The phrase begins with a parenthesis. -/
def inParens : List Sign → Bool
  | .mark c :: _ => c == '('
  | .cmd n :: ws => n == s%"left" && match ws with
    | .mark c :: _ => c == '('
    | .cmd _ :: _ => false
    | _ => true
  | _ => false

/-- operators of multiplication -/
def timesSigns : List Sign := [.mark '*', .cmd s%"times", .cmd s%"cdot"]

/-- operators of division -/
def overSigns : List Sign := [.mark '/', .cmd s%"div", .mark ':']

/-- Brackets, and the function they stand for, if any. -/
def brackets : List (List Sign × List Sign × Option Str) :=
  [([.mark '('], [.mark ')'], none),
   ([.mark '['], [.mark ']'], none),
   ([.mark '{'], [.mark '}'], none),
   ([.cmd s%"left", .mark '('], [.cmd s%"right", .mark ')'], none),
   ([.cmd s%"left", .mark '['], [.cmd s%"right", .mark ']'], none),
   ([.cmd s%"lvert"], [.cmd s%"rvert"], some s%"Abs"),
   ([.cmd s%"left", .mark '|'], [.cmd s%"right", .mark '|'], some s%"Abs"),
   ([.cmd s%"lfloor"], [.cmd s%"rfloor"], some s%"floor"),
   ([.cmd s%"left", .cmd s%"lfloor"], [.cmd s%"right", .cmd s%"rfloor"], some s%"floor"),
   ([.cmd s%"lceil"], [.cmd s%"rceil"], some s%"ceiling"),
   ([.cmd s%"left", .cmd s%"lceil"], [.cmd s%"right", .cmd s%"rceil"], some s%"ceiling")]

/-- A number in decimal notation. -/
inductive Numeral : List Sign → Rat → Prop
  | whole {ip} : ip ≠ [] → Numeral (ip.map .digit) (intPart ip)
  | point {ip fp} : fp ≠ [] →
      Numeral (ip.map .digit ++ .mark '.' :: fp.map .digit) (intPart ip + fracPart fp)

/-- Sums and products: command, and operator of the interpretation. -/
def bigOperators : List (Str × Str) := [(s%"sum", s%"Sum"), (s%"prod", s%"Product")]

/-- arrows of limits -/
def arrows : List Sign :=
  [.cmd s%"to", .cmd s%"rightarrow", .cmd s%"Rightarrow", .cmd s%"longrightarrow", .cmd s%"Longrightarrow"]

section
variable {K : Type} [Field K]

/-- Infinite bounds. -/
inductive Endless : List Sign → Bound K → Prop
  | inf : Endless [.cmd s%"infty"] .posInf
  | pos : Endless [.mark '+', .cmd s%"infty"] .posInf
  | neg : Endless [.mark '-', .cmd s%"infty"] .negInf

/-- Infinite upper bounds, after `^`. -/
inductive EndlessAbove : List Sign → Bound K → Prop
  | inf : EndlessAbove [.cmd s%"infty"] .posInf
  | braces {us b} : Endless us b → EndlessAbove (.mark '{' :: us ++ [.mark '}']) b

/-- Value of a phrase.  The letters in `free` are variables with the values given by `I`.

Precedence: sums of terms; terms are quotients and products with an operator, from left to right;
signs; products without operator; factorials; powers; and signs, brackets and functions.

A function whose argument is not in parentheses is applied to the product without operator that
follows it, up to the next function: `\sin 2x\cos y` is `sin(2x)·cos(y)`.  It is ambiguous in ordinary
notation how `\sin x \cdot y` is meant; this is no phrase, unless the flag `wide` is set: then it is
`sin(x·y)`.

The body of a sum, product or limit is the term that follows it.  The value is that of the operator
applied to the function of the bound variable, which has to be known only on a set `S` on which the
value depends.  A derivative applies to the product without operator that follows it. -/
inductive Denotes : Interp K → (Str → Prop) → Style → Level → List Sign → K → Prop
  | term {I free wide} {o us x} : Denotes I free wide (.term o) us x → Denotes I free wide .expr us x
  | add {I free wide} {o us vs x y} : Denotes I free wide .expr us x → Denotes I free wide (.term o) vs y →
      Denotes I free wide .expr (us ++ .mark '+' :: vs) (x + y)
  | sub {I free wide} {o us vs x y} : Denotes I free wide .expr us x → Denotes I free wide (.term o) vs y →
      Denotes I free wide .expr (us ++ .mark '-' :: vs) (x - y)
  | signed {I free wide} {o us x} : Denotes I free wide (.signed o) us x → Denotes I free wide (.term o) us x
  | mul {I free wide} {b us o vs x y} : o ∈ timesSigns → Denotes I free wide (.term false) us x → Denotes I free wide (.signed b) vs y →
      Denotes I free wide (.term b) (us ++ o :: vs) (x * y)
  | div {I free wide} {b us o vs x y} : o ∈ overSigns → Denotes I free wide (.term false) us x → Denotes I free wide (.signed b) vs y →
      Denotes I free wide (.term b) (us ++ o :: vs) (x / y)
  | mod {I free wide} {b us vs x y} : Denotes I free wide (.term false) us x → Denotes I free wide (.signed b) vs y →
      Denotes I free wide (.term b) (us ++ .cmd s%"mod" :: vs) (I.fn s%"Mod" [x, y])
  | product {I free wide} {o us x} : Denotes I free wide (.product o) us x → Denotes I free wide (.signed o) us x
  | pos {I free wide} {o us x} : Denotes I free wide (.signed o) us x → Denotes I free wide (.signed o) (.mark '+' :: us) x
  | neg {I free wide} {o us x} : Denotes I free wide (.signed o) us x → Denotes I free wide (.signed o) (.mark '-' :: us) (-x)
  | factor {I free wide} {e us x} : Denotes I free wide (.factor e) us x → Denotes I free wide (.product false) us x
  | juxt {I free wide} {o e us w vs x y} : Denotes I free wide (.factor e) us x → Denotes I free wide (.product o) (w :: vs) y →
      Follows e w → Denotes I free wide (.product o) (us ++ w :: vs) (x * y)
  | app {I free wide} {us x} : Denotes I free wide .app us x → Denotes I free wide (.product true) us x
  | appJuxt {I free wide} {o us w vs x y} : Denotes I free wide .app us x → Denotes I free wide (.product o) (w :: vs) y →
      named w = true → Denotes I free wide (.product o) (us ++ w :: vs) (x * y)
  | long {I free wide} {us x} : Denotes I free wide .long us x → Denotes I free wide (.product true) us x
  | derivative {I free wide} {o c w vs x} {S : K → Prop} {f : K → K} {k₀ : K} : isVariable c = true → free [c] → S k₀ →
      (∀ k, S k → Denotes (I.upd [c] I.real k) free wide (.product o) (w :: vs) (f k)) →
      (∀ g, (∀ k, S k → g k = f k) → I.binder s%"Derivative" g [.fin (I.var [c])] = x) →
      Denotes I free wide (.product o) (.cmd s%"frac" :: .mark '{' :: .letter 'd' :: .mark '}' ::
        .mark '{' :: .diff c :: .mark '}' :: w :: vs) x
  | integral {I free wide} {d e as bs c w vs x} {lo hi : Bound K} {S : K → Prop} {f : K → K} {k₀ : K} :
      wide.integrals = true → isVariable c = true → free [c] →
      (∀ y, lo = .fin y → Denotes I free wide (.exponent d) as y) →
      ((∀ y, lo ≠ .fin y) → EndlessAbove as lo) →
      (∀ y, hi = .fin y → Denotes I free wide (.exponent e) bs y) →
      ((∀ y, hi ≠ .fin y) → e = closed ∧ EndlessAbove bs hi) → Follows e w →
      S k₀ → (∀ k, S k → Denotes (I.upd [c] I.real k) free wide .expr (w :: vs) (f k)) →
      (∀ g, (∀ k, S k → g k = f k) → I.binder s%"Integral" g [lo, hi] = x) →
      Denotes I free wide (.product false) (.cmd s%"int" :: .mark '_' ::
        (as ++ .mark '^' :: (bs ++ (w :: vs ++ [.diff c])))) x
  | integralOne {I free wide} {d e as bs c} {lo hi : Bound K} :
      wide.integrals = true → isVariable c = true → free [c] →
      (∀ y, lo = .fin y → Denotes I free wide (.exponent d) as y) →
      ((∀ y, lo ≠ .fin y) → EndlessAbove as lo) →
      (∀ y, hi = .fin y → Denotes I free wide (.exponent e) bs y) →
      ((∀ y, hi ≠ .fin y) → e = closed ∧ EndlessAbove bs hi) →
      Denotes I free wide (.product false) (.cmd s%"int" :: .mark '_' ::
        (as ++ .mark '^' :: (bs ++ [.diff c]))) (I.binder s%"Integral" (fun _ => 1) [lo, hi])
  | antiderivative {I free wide} {c w vs x} {S : K → Prop} {f : K → K} {k₀ : K} :
      wide.integrals = true → isVariable c = true → free [c] → S k₀ →
      (∀ k, S k → Denotes (I.upd [c] I.real k) free wide .expr (w :: vs) (f k)) →
      (∀ g, (∀ k, S k → g k = f k) → I.binder s%"Antiderivative" g [.fin (I.var [c])] = x) →
      Denotes I free wide (.product false) (.cmd s%"int" :: (w :: vs ++ [.diff c])) x
  | power {I free wide} {e us x} : Denotes I free wide (.power e) us x → Denotes I free wide (.factor e) us x
  | fact {I free wide} {e us x} : Denotes I free wide (.factor e) us x →
      Denotes I free wide (.factor closed) (us ++ [.mark '!']) (I.fn s%"factorial" [x])
  | base {I free wide} {e us x} : Denotes I free wide (.base e) us x → Denotes I free wide (.power e) us x
  | pow {I free wide} {d e us vs x y} : Denotes I free wide (.base ⟨d, false⟩) us x → Denotes I free wide (.exponent e) vs y →
      Denotes I free wide (.power e) (us ++ .mark '^' :: vs) (I.pw x y)
  | expBraces {I free wide} {us x} : Denotes I free wide .expr us x →
      Denotes I free wide (.exponent closed) (.mark '{' :: us ++ [.mark '}']) x
  | expDigit {I free wide} {d : Fin 10} : Denotes I free wide (.exponent ⟨true, false⟩) [.digit d] (d.val : K)
  | expLetter {I free wide} {w n} : Variable w n → free n →
      Denotes I free wide (.exponent closed) [w] (I.var n)
  | number {I free wide} {us q} : Numeral us q → Denotes I free wide (.base ⟨true, false⟩) us (q : K)
  | percent {I free wide} {us q} : Numeral us q → Denotes I free wide (.base closed) (us ++ [.cmd s%"%"]) ((q : K) / 100)
  | pi {I free wide} : Denotes I free wide (.base closed) [.cmd s%"pi"] (I.const s%"pi")
  | letter {I free wide} {w n} : Variable w n → free n →
      Denotes I free wide (.base ⟨false, true⟩) [w] (I.var n)
  | letterPow {I free wide} {w n e vs y} : Variable w n → free n → Denotes I free wide (.exponent e) vs y →
      Denotes I free wide (.base ⟨e.digits, true⟩) (w :: .mark '^' :: vs) (I.pw (I.var n) y)
  | euler {I free wide} : Denotes I free wide (.base ⟨false, true⟩) [.letter 'e'] (I.fn s%"exp" [1])
  | eulerPow {I free wide} {e vs y} : Denotes I free wide (.exponent e) vs y →
      Denotes I free wide (.base ⟨e.digits, true⟩) (.letter 'e' :: .mark '^' :: vs) (I.fn s%"exp" [y])
  | bracket {I free wide} {l r us x} : (l, r, none) ∈ brackets → Denotes I free wide .expr us x →
      Denotes I free wide (.base closed) (l ++ us ++ r) x
  | bracketFn {I free wide} {l r f us x} : (l, r, some f) ∈ brackets → Denotes I free wide .expr us x →
      Denotes I free wide (.base closed) (l ++ us ++ r) (I.fn f [x])
  | partDigit {I free wide} {d : Fin 10} : Denotes I free wide .part [.digit d] (d.val : K)
  | partBraces {I free wide} {us x} : Denotes I free wide .expr us x → Denotes I free wide .part (.mark '{' :: us ++ [.mark '}']) x
  | frac {I free wide} {us vs x y} : Denotes I free wide .part us x → Denotes I free wide .part vs y →
      Denotes I free wide (.base closed) (.cmd s%"frac" :: us ++ vs) (x / y)
  | sqrt {I free wide} {us x} : Denotes I free wide .part us x →
      Denotes I free wide (.base closed) (.cmd s%"sqrt" :: us) (I.pw x (1 / 2))
  | root {I free wide} {us vs x y} : Denotes I free wide .expr us y → Denotes I free wide .part vs x → y ≠ 0 →
      Denotes I free wide (.base closed) (.cmd s%"sqrt" :: .mark '[' :: us ++ .mark ']' :: vs) (I.pw x (1 / y))
  | binom {I free wide} {us vs x y} : Denotes I free wide .expr us x → Denotes I free wide .expr vs y →
      Denotes I free wide (.base closed)
        (.cmd s%"binom" :: .mark '{' :: us ++ .mark '}' :: .mark '{' :: vs ++ [.mark '}'])
        (I.fn s%"binomial" [x, y])
  | argParens {I free wide} {us x} : Denotes I free wide .expr us x → Denotes I free wide .arg (.mark '(' :: us ++ [.mark ')']) x
  | argLeft {I free wide} {us x} : Denotes I free wide .expr us x →
      Denotes I free wide .arg (.cmd s%"left" :: .mark '(' :: us ++ [.cmd s%"right", .mark ')']) x
  | func {I free wide} {nm f us x} : (nm, f) ∈ functionNames → Denotes I free wide .arg us x →
      Denotes I free wide (.base closed) (.cmd nm :: us) (I.fn f [x])
  | funcPow {I free wide} {nm f e us vs x y} : (nm, f) ∈ functionNames → Denotes I free wide (.exponent e) us y →
      Denotes I free wide .arg vs x → y ≠ 0 → y ≠ -1 →
      Denotes I free wide (.base closed) (.cmd nm :: .mark '^' :: us ++ vs) (I.pw (I.fn f [x]) y)
  | funcInv {I free wide} {nm f us x} : (nm, f) ∈ inverseNames → Denotes I free wide .arg us x →
      Denotes I free wide (.base closed)
        (.cmd nm :: .mark '^' :: .mark '{' :: .mark '-' :: .digit 1 :: .mark '}' :: us) (I.fn f [x])
  | log {I free wide} {us x} : Denotes I free wide .arg us x →
      Denotes I free wide (.base closed) (.cmd s%"log" :: us) (I.fn s%"log" [x, 10])
  | ln {I free wide} {us x} : Denotes I free wide .arg us x →
      Denotes I free wide (.base closed) (.cmd s%"ln" :: us) (I.fn s%"log" [x, I.const s%"E"])
  | logBase {I free wide} {e us vs x y} : Denotes I free wide (.exponent e) us y → Denotes I free wide .arg vs x →
      Denotes I free wide (.base closed) (.cmd s%"log" :: .mark '_' :: us ++ vs) (I.fn s%"log" [x, y])
  | appFunc {I free wide} {nm f o us x} : (nm, f) ∈ functionNames → Denotes I free wide (.bareTerm o) us x →
      inParens us = false → Denotes I free wide .app (.cmd nm :: us) (I.fn f [x])
  | appFuncPow {I free wide} {nm f o e us w vs x y} : (nm, f) ∈ functionNames → Denotes I free wide (.exponent e) us y →
      Denotes I free wide (.bareTerm o) (w :: vs) x → inParens (w :: vs) = false → Follows e w → y ≠ 0 → y ≠ -1 →
      Denotes I free wide .app (.cmd nm :: .mark '^' :: us ++ w :: vs) (I.pw (I.fn f [x]) y)
  | appFuncInv {I free wide} {nm f o us x} : (nm, f) ∈ inverseNames → Denotes I free wide (.bareTerm o) us x →
      inParens us = false → Denotes I free wide .app
        (.cmd nm :: .mark '^' :: .mark '{' :: .mark '-' :: .digit 1 :: .mark '}' :: us) (I.fn f [x])
  | appLog {I free wide} {o us x} : Denotes I free wide (.bareTerm o) us x → inParens us = false →
      Denotes I free wide .app (.cmd s%"log" :: us) (I.fn s%"log" [x, 10])
  | appLn {I free wide} {o us x} : Denotes I free wide (.bareTerm o) us x → inParens us = false →
      Denotes I free wide .app (.cmd s%"ln" :: us) (I.fn s%"log" [x, I.const s%"E"])
  | appLogBase {I free wide} {o e us w vs x y} : Denotes I free wide (.exponent e) us y → Denotes I free wide (.bareTerm o) (w :: vs) x →
      inParens (w :: vs) = false → Follows e w →
      Denotes I free wide .app (.cmd s%"log" :: .mark '_' :: us ++ w :: vs) (I.fn s%"log" [x, y])
  | bareSigned {I free wide} {o us x} : Denotes I free wide (.bareSigned o) us x → Denotes I free wide (.bareTerm o) us x
  | bareMul {I free wide} {b us o vs x y} : wide.wide = true → o ∈ timesSigns → Denotes I free wide (.bareTerm false) us x →
      Denotes I free wide (.bareSigned b) vs y → Denotes I free wide (.bareTerm b) (us ++ o :: vs) (x * y)
  | bareDiv {I free wide} {b us o vs x y} : wide.wide = true → o ∈ overSigns → Denotes I free wide (.bareTerm false) us x →
      Denotes I free wide (.bareSigned b) vs y → Denotes I free wide (.bareTerm b) (us ++ o :: vs) (x / y)
  | bare {I free wide} {o us x} : Denotes I free wide (.bare o) us x → Denotes I free wide (.bareSigned o) us x
  | barePos {I free wide} {o us x} : Denotes I free wide (.bareSigned o) us x → Denotes I free wide (.bareSigned o) (.mark '+' :: us) x
  | bareNeg {I free wide} {o us x} : Denotes I free wide (.bareSigned o) us x → Denotes I free wide (.bareSigned o) (.mark '-' :: us) (-x)
  | bareFactor {I free wide} {e us x} : Denotes I free wide (.factor e) us x → Denotes I free wide (.bare false) us x
  | bareApp {I free wide} {us x} : Denotes I free wide .app us x → Denotes I free wide (.bare true) us x
  | bareJuxt {I free wide} {e us w vs x y} : Denotes I free wide (.factor e) us x → Denotes I free wide .rest (w :: vs) y → Follows e w →
      Denotes I free wide (.bare false) (us ++ w :: vs) (x * y)
  | restFactor {I free wide} {e w us x} : Denotes I free wide (.factor e) (w :: us) x → opens w = false →
      Denotes I free wide .rest (w :: us) x
  | restJuxt {I free wide} {e v us w vs x y} : Denotes I free wide (.factor e) (v :: us) x → opens v = false →
      Denotes I free wide .rest (w :: vs) y → Follows e w → Denotes I free wide .rest (v :: us ++ w :: vs) (x * y)
  | sum {I free wide} {nm op v i as e bs o w vs x} {lo hi : Bound K} {S : K → Prop} {f : K → K} {k₀ : K} :
      (nm, op) ∈ bigOperators → Variable v i → free i →
      (∀ y, lo = .fin y → Denotes I free wide .expr as y) → ((∀ y, lo ≠ .fin y) → Endless as lo) →
      (∀ y, hi = .fin y → Denotes I free wide (.exponent e) bs y) →
      ((∀ y, hi ≠ .fin y) → e = closed ∧ EndlessAbove bs hi) → Follows e w →
      S k₀ → (∀ k, S k → Denotes (I.upd i I.real k) free wide (.term o) (w :: vs) (f k)) →
      (∀ g, (∀ k, S k → g k = f k) → I.binder op g [lo, hi] = x) →
      Denotes I free wide .long (.cmd nm :: .mark '_' :: .mark '{' :: v :: .mark '=' ::
        (as ++ .mark '}' :: .mark '^' :: (bs ++ w :: vs))) x
  | limInfinity {I free wide} {a v i as o w vs x} {p : Bound K} {S : K → Prop} {f : K → K} {k₀ : K} :
      a ∈ arrows → Variable v i → free i → Endless as p → S k₀ →
      (∀ k, S k → Denotes (I.upd i I.real k) free wide (.term o) (w :: vs) (f k)) →
      (∀ g, (∀ k, S k → g k = f k) → I.binder s%"Limit+" g [p] = x) →
      Denotes I free wide .long (.cmd s%"lim" :: .mark '_' :: .mark '{' :: v :: a ::
        (as ++ .mark '}' :: w :: vs)) x
  | limRight {I free wide} {a v i as o w vs x p} {S : K → Prop} {f : K → K} {k₀ : K} :
      a ∈ arrows → Variable v i → free i → Denotes I free wide .point as p → S k₀ →
      (∀ k, S k → Denotes (I.upd i I.real k) free wide (.term o) (w :: vs) (f k)) →
      (∀ g, (∀ k, S k → g k = f k) → I.binder s%"Limit+" g [.fin p] = x) →
      Denotes I free wide .long (.cmd s%"lim" :: .mark '_' :: .mark '{' :: v :: a ::
        (as ++ .mark '^' :: .mark '{' :: .mark '+' :: .mark '}' :: .mark '}' :: w :: vs)) x
  | limLeft {I free wide} {a v i as o w vs x p} {S : K → Prop} {f : K → K} {k₀ : K} :
      a ∈ arrows → Variable v i → free i → Denotes I free wide .point as p → S k₀ →
      (∀ k, S k → Denotes (I.upd i I.real k) free wide (.term o) (w :: vs) (f k)) →
      (∀ g, (∀ k, S k → g k = f k) → I.binder s%"Limit-" g [.fin p] = x) →
      Denotes I free wide .long (.cmd s%"lim" :: .mark '_' :: .mark '{' :: v :: a ::
        (as ++ .mark '^' :: .mark '{' :: .mark '-' :: .mark '}' :: .mark '}' :: w :: vs)) x
  | limBoth {I free wide} {a v i as o w vs x p} {S : K → Prop} {f : K → K} {k₀ : K} :
      a ∈ arrows → Variable v i → free i → Denotes I free wide .expr as p → S k₀ →
      (∀ k, S k → Denotes (I.upd i I.real k) free wide (.term o) (w :: vs) (f k)) →
      (∀ g, (∀ k, S k → g k = f k) →
        I.binder s%"Limit+" g [.fin p] = x ∧ I.binder s%"Limit-" g [.fin p] = x) →
      Denotes I free wide .long (.cmd s%"lim" :: .mark '_' :: .mark '{' :: v :: a ::
        (as ++ .mark '}' :: w :: vs)) x
  | pointBase {I free wide} {d us x} : Denotes I free wide (.base ⟨d, false⟩) us x → Denotes I free wide .point us x
  | pointName {I free wide} {w n} : Variable w n → free n → Denotes I free wide .point [w] (I.var n)
  | pointNeg {I free wide} {us x} : Denotes I free wide .point us x →
      Denotes I free wide .point (.mark '-' :: us) (-x)

end
end Verif.Reading
