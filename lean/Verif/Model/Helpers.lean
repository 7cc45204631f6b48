import Verif.Model.Normalize
import Mathlib.Data.Finset.Card
/-
The helper functions that the package defines without calling them: `_is_frac`, `_str_to_mat` (latex_normalize.py),
`count_unknown_letters_in_expr` and `should_allow_eval` (latex_parser.py).
-/

namespace Verif
open Re

variable {X V S : Type}

/-- `[0-9]` -/
def Re.num : Re := .chr asciiDigit

/-- latex_normalize.py:81, the first pattern: `^-?[0-9]+.?/0*[1-9][0-9]*.?$` -/
def fracRe : Re := .cat [.bos, .opt (.c '-'), .plus .num, .opt .dot, .c '/', .many (.c '0'),
  .chr (fun x => asciiDigit x && x != '0'), .many .num, .opt .dot, .eos]

/-- latex_normalize.py:81, the second pattern `[frac]`: a character class -/
def fracCharRe : Re := .oneOf s%"frac"

/-- latex_normalize.py:80-81 `_is_frac` -/
def isFrac (s : Str) : Bool :=
  !contains s%"matrix" s && ((reSearch fracRe s).isSome || (reSearch fracCharRe s).isSome)

/-- latex_normalize.py:112-113 `_str_to_mat` -/
def strToMat (E : Env X V S) (s : Str) : M X V := M.ext (E.l2s s)

/-- latex_parser.py:77-81 `count_unknown_letters_in_expr`; `alpha` is `str.isalpha` of one character -/
def countUnknownLetters (alpha : Char → Bool) (s : Str) : Nat :=
  ((replace s%"frac" [] (replace s%"sqrt" [] s)).filter alpha).toFinset.card

/-- constants.py:21 `BAD_SUBSTRINGS` -/
def badSubstrings : List Str := [s%"^{", s%"^("]

/-- constants.py:22 `BAD_REGEXES`: `\^[0-9]+\^` and `\^[0-9][0-9]+` -/
def badRegexes : List Re := [.cat [.c '^', .plus .num, .c '^'], .cat [.c '^', .num, .plus .num]]

/-- latex_parser.py:84-97 `should_allow_eval` -/
def shouldAllowEval (alpha : Char → Bool) (s : Str) : Bool :=
  if countUnknownLetters alpha s > 2 then false
  else if badSubstrings.any (contains · s) then false
  else !badRegexes.any fun r => (reSearch r s).isSome

end Verif
