import Verif.Py.Eff
import Verif.Py.Str
/-
Model of /repo/latex2sympy/asciimath_printer.py.

Simplification: the methods inherited from SymPy's `StrPrinter` are an arbitrary function of the object and of the printed texts of
its arguments, all of which they print; printing has no side effects, so that a text that is not used need not be computed.
-/

namespace Verif.Ascii

/-- asciimath_printer.py:6-50: the classes for which the printer has a method of its own, and all others -/
inductive Cls where
  | limit | integral | sum | product | factorial | derivative | abs | equality | pow
  | other (name : Str)
deriving DecidableEq, Repr

/-- A SymPy object: its class and its `args`.  The objects `S.Half` and `-S.One` (asciimath_printer.py:43-47) are unique; a tuple is a
SymPy `Tuple`, which has a length and can be indexed. -/
inductive Ob where
  | half
  | negOne
  | tuple (xs : List Ob)
  | node (c : Cls) (args : List Ob)

/-- the inherited part of the printer (asciimath_printer.py:4) -/
structure Base where
  /-- asciimath_printer.py:45, `-expr.exp is S.Half` -/
  negHalf : Ob → Bool
  /-- the text the inherited method makes of the texts of the arguments -/
  text : Ob → List Str → Except PyErr Str

/-- An object as it is seen by a method: the result of printing it, and those of printing its elements if it is a tuple. -/
structure Seen where
  text : Except PyErr Str
  items : Option (List (Except PyErr Str))

/-- `self._print(xs[i])` -/
def item (xs : List (Except PyErr Str)) (i : Nat) : Except PyErr Str := xs.getD i (.error .indexError)

/-- `lims` as a sequence; anything else than a tuple has no length -/
def lims (s : Seen) : Except PyErr (List (Except PyErr Str)) := match s.items with
  | some xs => .ok xs
  | none => .error .typeError

/-- asciimath_printer.py:43, `expr.exp is S.Half` -/
def isHalf : Ob → Bool
  | .half => true
  | _ => false

/-- asciimath_printer.py:47, `expr.exp is -S.One` -/
def isNegOne : Ob → Bool
  | .negOne => true
  | _ => false

/-- asciimath_printer.py:6-9 `_print_Limit` -/
def printLimit : List Seen → Except PyErr Str
  | [e, z] => do
    let z1 ← z.text
    let z2 ← z.text
    let e ← e.text
    pure (s%"lim_(" ++ z1 ++ s%" -> " ++ z2 ++ s%") " ++ e)
  | _ => .error .valueError

/-- asciimath_printer.py:11-16 `_print_Integral` -/
def printIntegral : List Seen → Except PyErr Str
  | [e, l] => do
    let ls ← lims l
    if ls.length > 1 then do
      let a ← item ls 1
      let b ← item ls 2
      let e ← e.text
      let x ← item ls 0
      pure (s%"int_(" ++ a ++ s%")^(" ++ b ++ s%") " ++ e ++ s%" d" ++ x)
    else do
      let e ← e.text
      let l ← l.text
      pure (s%"int " ++ e ++ s%" d" ++ l)
  | _ => .error .valueError

/-- asciimath_printer.py:18-24 `_print_Sum` and `_print_Product`, which differ in the name -/
def printBig (name : Str) : List Seen → Except PyErr Str
  | [e, l] => do
    let ls ← lims l
    let x ← item ls 0
    let a ← item ls 1
    let b ← item ls 2
    let e ← e.text
    pure (name ++ s%"_(" ++ x ++ s%" = " ++ a ++ s%")^(" ++ b ++ s%") " ++ e)
  | _ => .error .valueError

/-- asciimath_printer.py:40-50 `_print_Pow`; a `Pow` has a base and an exponent -/
def printPow (B : Base) : List Ob → List Seen → Except PyErr Str
  | [_, e], [b, s] => do
    let b ← b.text
    if isHalf e then pure (s%"sqrt(" ++ b ++ s%")")
    else if B.negHalf e then pure (s%"1/sqrt(" ++ b ++ s%")")
    else if isNegOne e then pure (s%"1/" ++ b)
    else do
      let s ← s.text
      pure (b ++ s%"^(" ++ s ++ s%")")
  | _, _ => .error .attributeError

/-- asciimath_printer.py:6-50: the method for an object of the class; `ss` are the arguments as they are seen -/
def printNode (B : Base) (c : Cls) (args : List Ob) (ss : List Seen) : Except PyErr Str :=
  let ts := ss.map (·.text)
  match c with
  | .limit => printLimit ss
  | .integral => printIntegral ss
  | .sum => printBig s%"sum" ss
  | .product => printBig s%"prod" ss
  -- asciimath_printer.py:26-27
  | .factorial => do
    let a ← item ts 0
    pure (a ++ s%"!")
  -- asciimath_printer.py:29-32
  | .derivative =>
    if args.length < 2 then .error .indexError
    else do
      let wrt ← item ts 1
      let e ← item ts 0
      pure (s%"d/d" ++ wrt ++ s%" " ++ e)
  -- asciimath_printer.py:34-35
  | .abs => do
    let a ← item ts 0
    pure (s%"|" ++ a ++ s%"|")
  -- asciimath_printer.py:37-38
  | .equality => do
    let a ← item ts 0
    let b ← item ts 1
    pure (a ++ s%" = " ++ b)
  | .pow => printPow B args ss
  | .other _ => do
    let ts ← ts.mapM id
    B.text (.node c args) ts

mutual
/-- asciimath_printer.py:4: printing an object -/
def see (B : Base) : Ob → Seen
  | .half => ⟨B.text .half [], none⟩
  | .negOne => ⟨B.text .negOne [], none⟩
  | .tuple xs =>
    let ts := (seeAll B xs).map (·.text)
    ⟨do let ts ← ts.mapM id
        B.text (.tuple xs) ts, some ts⟩
  | .node c args => ⟨printNode B c args (seeAll B args), none⟩
/-- asciimath_printer.py:4: printing the arguments -/
def seeAll (B : Base) : List Ob → List Seen
  | [] => []
  | x :: xs => see B x :: seeAll B xs
end

/-- asciimath_printer.py:4: `AsciiMathPrinter().doprint(expr)` -/
def asciiMath (B : Base) (o : Ob) : Except PyErr Str := (see B o).text

end Verif.Ascii
