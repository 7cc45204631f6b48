import Verif.Py.Eff
import Verif.Py.Str
/-
Model of `MathErrorListener` in /repo/latex2sympy/latex2sympy2.py:117-141.

Simplification: of the exception object handed over by ANTLR only the types of the expected tokens, in the order in which they are
enumerated, are modelled; there is none for some messages.
-/

namespace Verif

/-- What `syntaxError` raises: the `Exception` with its text, or another exception. -/
inductive Raised where
  | report (text : Str)
  | error (e : PyErr)
deriving DecidableEq

/-- `names[i]`, where a negative index counts from the end -/
def pyIndex (names : List Str) (i : Int) : Except PyErr Str :=
  match (if 0 ≤ i then names[i.toNat]? else if names.length < i.natAbs then none else names[names.length - i.natAbs]?) with
  | some s => .ok s
  | none => .error .indexError

/-- latex2sympy2.py:132, the names of the expected tokens -/
def expectedNames (names : List Str) : List Int → Except PyErr (List Str)
  | [] => .ok []
  | i :: is =>
    if i < names.length then do
      let s ← pyIndex names i
      let r ← expectedNames names is
      .ok (s :: r)
    else expectedNames names is

/-- latex2sympy2.py:123-124 and `fmt % (head, self.src, marker)`; `"~" * col` is empty for a negative column -/
def reportText (head src : Str) (col : Int) : Str :=
  head ++ s%"\n" ++ src ++ s%"\n" ++ (List.replicate col.toNat '~' ++ s%"^")

/-- latex2sympy2.py:122-141 `syntaxError`; `names` is `PSParser.literalNames`, `src` is `self.src` -/
def syntaxError (names : List Str) (src : Str) (_line col : Int) (msg : Str) (e : Option (List Int)) : Raised :=
  if startsWith s%"missing" msg then .report (reportText msg src col)
  else if startsWith s%"no viable" msg then .report (reportText s%"I expected something else here" src col)
  else if startsWith s%"mismatched" msg then
    match e with
    | none => .error .attributeError
    | some is =>
      match expectedNames names is with
      | .error e => .error e
      | .ok expected =>
        if expected.length < 10 then
          .report (reportText (s%"I expected one of these: " ++ join s%" " expected) src col)
        else .report (reportText s%"I expected something else here" src col)
  else .report (reportText s%"I don't understand this" src col)

end Verif
