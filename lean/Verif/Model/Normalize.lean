import Verif.Py.Regex
import Verif.Py.Float
import Verif.Model.Constants
import Verif.Model.Env
/-
Model of /repo/math_evaluation/core/latex_normalize.py (except `_is_frac`, `_str_to_mat`, which
nothing calls, and the unused `add_parentheses_after_keyword`).

Simplifications: Python's limit on the number of digits of `int`/`str` conversions (3.11+) and
running out of memory are not modelled; the text printed for a caught exception is abstracted to
the exception class.
-/

namespace Verif
open Re

/-- Result of `string_normalize`: one string or a set of strings (listed in iteration order). -/
inductive Norm where
  | str (s : Str)
  | set (xs : List Str)
deriving DecidableEq, Repr

/-- What is printed for a caught exception (latex_normalize.py:244 and the `print`s of
latex_parser.py:192, 205, 219, 235); the message text is abstracted. -/
def errLine (e : PyErr) : Str := (toString (repr e)).toList

/-! ### Helpers -/

/-- latex_normalize.py:12-34 `_parse_latex` -/
def parseLatexStr (s : Str) : Str :=
  let s := replace s%"\\tfrac" s%"\\frac" s
  let s := replace s%"\\cfrac" s%"\\frac" s
  let s := replace s%"\\dfrac" s%"\\frac" s
  let s := replace s%"√" s%"sqrt" s
  let s := replace s%"π" s%"pi" s
  let s := replace s%"∞" s%"inf" s
  let s := replace s%"∪" s%"U" s
  let s := replace s%"·" s%"*" s
  let s := replace s%"×" s%"*" s
  strip s

/-- latex_normalize.py:58, the regular expression of `_str_to_complex` -/
def complexRe (U : Uni) : Re :=
  let w := isWord U
  let nw := fun c => !isWord U c
  let i := Re.c 'i'
  alts [
    cat [.behind true w, i, .ahead true w],
    cat [.behind false isSpace, i, .ahead false isSpace],
    cat [.behind false isSpace, i, .ahead false nw],
    cat [.behind false nw, i, .ahead false isSpace],
    cat [.behind false nw, i, .ahead false nw],
    cat [.behind false (isDigit U), i]]

/-- latex_normalize.py:37-62 `_str_to_complex` -/
def strToComplex (U : Uni) (s : Str) : Str :=
  if contains s%"I" s then replace s%"I" s%"\\sqrt{-1}" s
  else if contains s%"i" s then reSubConst (complexRe U) s%"\\sqrt{-1}" s
  else s

/-- latex_normalize.py:65-70 `_is_float` -/
def isFloat (U : Uni) (s : Str) : Bool := (pyFloat U s).isSome

/-- latex_normalize.py:73-77 `_is_int` on a Python float: `False` if an exception is raised -/
def isIntFloat (x : F64) : Bool := x.nearInt == some true

/-- `\d{1,3}` (greedy) -/
def d13 (U : Uni) : Re := .seq (d U) (.alt (.seq (d U) (.alt (d U) .eps)) .eps)

/-- latex_normalize.py:188, `\d{1,3}(?:, ?\d{3})+` -/
def commasRe (U : Uni) : Re :=
  .seq (d13 U) (plus (cat [c ',', opt (c ' '), d U, d U, d U]))

/-- latex_normalize.py:187-189 `_strip_properly_formatted_commas` -/
def stripCommas (U : Uni) (s : Str) : Str :=
  reSub (commasRe U) (fun m _ => replace s%"," [] m) s

/-- latex_normalize.py:88-94 `_str_is_int` -/
def strIsInt (U : Uni) (s : Str) : Bool :=
  match pyFloat U (stripCommas U s) with
  | some x => isIntFloat x
  | none => false

/-- latex_normalize.py:97-101 `_str_is_mat` -/
def strIsMat (s : Str) : Bool := contains s%"matrix" s

/-- latex_normalize.py:116-123 `_str_matrix_normalize`; the `if` tests of lines 117 and 119 only
avoid a no-op -/
def matrixNormalize (s : Str) : Str :=
  let s := if contains s%"{cases}" s then replace s%"{cases}" s%"{matrix}" s else s
  let s := if contains s%"{array}" s then replace s%"{array}" s%"{matrix}" s else s
  if !(!contains s%"\\\\begin" s && contains s%"\\begin" s && contains s%"matrix" s) then
    replace s%"\\\\" s%"\\" s
  else s

/-- latex_normalize.py:170, `(\d+) +(\d+/\d+)` -/
def mixedRe1 (U : Uni) : Re :=
  cat [grp 1 (plus (d U)), plus (c ' '), grp 2 (cat [plus (d U), c '/', plus (d U)])]

/-- `(\d|{\d+})` -/
def digitOrBraced (U : Uni) (n : Nat) : Re :=
  grp n (alt (d U) (cat [c '{', plus (d U), c '}']))

/-- latex_normalize.py:171, `(\d+) *(\\frac(\d|{\d+})(\d|{\d+}))` -/
def mixedRe2 (U : Uni) : Re :=
  cat [grp 1 (plus (d U)), many (c ' '),
    grp 2 (cat [lit s%"\\frac", digitOrBraced U 3, digitOrBraced U 4])]

/-- latex_normalize.py:161-176 `_inject_implicit_mixed_number` -/
def injectMixed (U : Uni) (s : Str) : Str :=
  let f := fun (_ : Str) (t : RSt) => t.groupD 1 ++ s%"+" ++ t.groupD 2
  reSub (mixedRe2 U) f (reSub (mixedRe1 U) f s)

/-- latex_normalize.py:179-184 `_str_to_decimal`: loop over the digits in reverse order with
running exponent `i` and total -/
def strToDecimalGo (U : Uni) (base : Nat) : Nat → Nat → Str → Nat
  | _, tot, [] => tot
  | i, tot, x :: xs => strToDecimalGo U base (i + 1) (tot + base ^ i * digitVal U x) xs

/-- latex_normalize.py:179-184 `_str_to_decimal` -/
def strToDecimal (U : Uni) (digits base : Str) : Nat :=
  strToDecimalGo U (natOfDigits U base) 0 0 digits.reverse

/-! ### Clock times -/

/-- one letter under `re.IGNORECASE` -/
def ci (x : Char) : Re := .chr (fun y => asciiToLower y == x)

/-- `[ap]\.?m\.?` under IGNORECASE -/
def meridiemRe : Re :=
  cat [.chr (fun y => asciiToLower y == 'a' || asciiToLower y == 'p'), opt (c '.'), ci 'm', opt (c '.')]

/-- `(?:\\text\{\s*[ap]\.?m\.?\s*\})|(?:[ap]\.?m\.?)` under IGNORECASE -/
def meridiemAlt : Re :=
  alt (cat [c '\\', ci 't', ci 'e', ci 'x', ci 't', c '{', many ws, meridiemRe, many ws, c '}'])
    meridiemRe

/-- `\d{1,2}` (greedy) -/
def d12 (U : Uni) : Re := .seq (d U) (.alt (d U) .eps)

/-- latex_normalize.py:194 -/
def timeRe1 (U : Uni) : Re :=
  cat [bos, grp 1 (d12 U), many ws, grp 2 meridiemAlt, eos]

/-- latex_normalize.py:206 -/
def timeRe2 (U : Uni) : Re :=
  cat [bos, grp 1 (d12 U), c ':', grp 2 (.seq (d U) (d U)),
    opt (.seq (c ':') (grp 3 (.seq (d U) (d U)))), many ws, opt (grp 4 meridiemAlt), eos]

/-- `"p.m." in meridiem.lower() or "pm" in meridiem.lower()` (latex_normalize.py:198, 211) -/
def isPm (U : Uni) (m : Str) : Bool :=
  contains s%"p.m." (lower U m) || contains s%"pm" (lower U m)

/-- `[str(int(hour) % 12), str(int(hour) % 12 + 12)]` (latex_normalize.py:199-202, 212-215) -/
def hours12 (U : Uni) (hour : Str) : List Str :=
  [natStr (natOfDigits U hour % 12), natStr (natOfDigits U hour % 12 + 12)]

/-- `f"[{a}, {b}, ...]"` -/
def fmtList (xs : List Str) : Str := s%"[" ++ join s%", " xs ++ s%"]"

/-- Result of `_str_to_time_list`: a set (given by the inserted elements) or a string. -/
inductive TimeRes where
  | str (s : Str)
  | set (xs : List Str)

/-- latex_normalize.py:192-237 `_str_to_time_list` -/
def strToTimeList (U : Uni) (s : Str) : TimeRes :=
  match reSearch (timeRe1 U) s with
  | some t =>
    let hour := t.groupD 1
    if isPm U (t.groupD 2) then .set (hours12 U hour) else .str hour
  | none =>
    match reSearch (timeRe2 U) s with
    | some t =>
      let hour := t.groupD 1
      let minute := natOfDigits U (t.groupD 2)
      -- `meridiem and (...)`; group 4 may be None
      let pm := match t.group 4 with | some m => !m.isEmpty && isPm U m | none => false
      let hours : Option (List Str) := if pm then some (hours12 U hour) else none
      -- `second and int(second) != 0`
      let sec : Option Nat := match t.group 3 with
        | some x => if x.isEmpty then none else if natOfDigits U x ≠ 0 then some (natOfDigits U x) else none
        | none => none
      match sec with
      | some sc =>
        match hours with
        | some hs => .set (hs.map fun h => fmtList [h, natStr minute, natStr sc])
        | none => .str (fmtList [natStr (natOfDigits U hour), natStr minute, natStr sc])
      | none =>
        if minute = 0 then
          match hours with
          | some hs => .set hs
          | none => .str (natStr (natOfDigits U hour))
        else
          match hours with
          | some hs => .set (hs.map fun h => fmtList [h, natStr minute])
          | none => .str (fmtList [natStr (natOfDigits U hour), natStr minute])
    | none => .str s

/-! ### The stages of `_string_normalize` -/

/-- latex_normalize.py:259, `^\\\s*(text|mbox){\s*(?P<text>.+?)}$` with DOTALL -/
def textRe : Re :=
  cat [bos, c '\\', many ws, grp 1 (alt (lit s%"text") (lit s%"mbox")), c '{', many ws,
    grp 2 (plusLazy any), c '}', eos]

/-- latex_normalize.py:265, `^\\{(.*)\|(.*)\\}$` with DOTALL -/
def setBuilderRe : Re :=
  cat [bos, lit s%"\\{", grp 1 (many any), c '|', grp 2 (many any), lit s%"\\}", eos]

/-- latex_normalize.py:271-277: spacing commands and "{,}" -/
def removeSpacing (s : Str) : Str :=
  let s := reSubConst (lit s%"\\:") [] s
  let s := reSubConst (lit s%"\\,") [] s
  let s := reSubConst (lit s%"\\;") [] s
  let s := reSubConst (lit s%"\\!") [] s
  reSubConst (lit s%"{,}") s%"," s

/-- latex_normalize.py:280, `^(\d+)_(?:(\d)|\{(\d+)\})$` -/
def baseRe (U : Uni) : Re :=
  cat [bos, grp 1 (plus (d U)), c '_',
    alt (grp 2 (d U)) (cat [c '{', grp 3 (plus (d U)), c '}']), eos]

/-- latex_normalize.py:280-290: the two readings of `digits_base` -/
def baseReadings (U : Uni) (s : Str) : Option (List Str) :=
  match reSearch (baseRe U) s with
  | some t =>
    let digits := t.groupD 1
    -- `m.group(2) if m.group(2) else m.group(3)`
    let base := match t.group 2 with
      | some b => if b.isEmpty then t.groupD 3 else b
      | none => t.groupD 3
    some [digits, natStr (strToDecimal U digits base)]
  | none => none

/-- latex_normalize.py:294-301: percent signs are removed; a number gets two readings -/
def percentStep (U : Uni) (s : Str) : List Str ⊕ Str :=
  if contains s%"%" s then
    let s := replace s%"\\%" s%"%" s
    let s := replace s%"%" [] s
    match pyFloat U s with
    | some x => .inl [x.div100.repr, x.repr]
    | none => .inr s
  else .inr s

/-- latex_normalize.py:304-305 -/
def removeDollar (s : Str) : Str :=
  replace s%"$" [] (replace s%"\\$" s%"$" s)

/-- latex_normalize.py:308, `,? *((\\text\{ *(and|or) *\})| (and|or) )` -/
def andOrRe : Re :=
  cat [opt (c ','), many (c ' '),
    grp 1 (alt
      (grp 2 (cat [lit s%"\\text{", many (c ' '), grp 3 (alt (lit s%"and") (lit s%"or")),
        many (c ' '), c '}']))
      (cat [c ' ', grp 4 (alt (lit s%"and") (lit s%"or")), c ' ']))]

/-- latex_normalize.py:308-309 -/
def andOrStep (s : Str) : Str := reSubConst andOrRe s%" , " s

/-- latex_normalize.py:311-319: number words and control characters.  `\f \b \a \t \r` are the
characters 12, 8, 7, 9, 13. -/
def wordsAndControls (s : Str) : Str :=
  let s := replace s%"million" s%"*10^6" s
  let s := replace s%"billion" s%"*10^9" s
  let s := replace s%"trillion" s%"*10^12" s
  let s := replace [Char.ofNat 12] s%"\\f" s
  let s := replace [Char.ofNat 8] s%"\\b" s
  let s := replace [Char.ofNat 7] s%"\\a" s
  let s := replace [Char.ofNat 9] s%"\\t" s
  replace [Char.ofNat 13] s%"\\r" s

/-- latex_normalize.py:322-325 -/
def leftRight (s : Str) : Str :=
  let s := reSubConst (lit s%"\\left(") s%"(" s
  let s := reSubConst (lit s%"\\left[") s%"[" s
  let s := reSubConst (lit s%"\\right)") s%")" s
  reSubConst (lit s%"\\right]") s%"]" s

/-- latex_normalize.py:328, `[a-zA-Z]+\s*\\in` -/
def memberRe : Re := cat [plus (.chr asciiAlpha), many ws, lit s%"\\in"]

/-- latex_normalize.py:328 -/
def memberStep (s : Str) : Str := reSubConst memberRe [] s

/-- A unit name spliced into a regular expression: a dot matches any character but newline. -/
def unitRe (u : Str) : Re := cat (u.map fun x => if x == '.' then dot else c x)

/-- `(es|s)?` -/
def pluralRe : Re := opt (alt (lit s%"es") (lit s%"s"))

/-- `(\^\d|\^{\d+})?` -/
def powerRe (U : Uni) : Re :=
  opt (alt (.seq (c '^') (d U)) (cat [lit s%"^{", plus (d U), c '}']))

/-- `(\^\d|\^{\d+}+)?`: the last `+` repeats the closing brace (latex_normalize.py:356, 363) -/
def powerRe' (U : Uni) : Re :=
  opt (alt (.seq (c '^') (d U)) (cat [lit s%"^{", plus (d U), plus (c '}')]))

/-- latex_normalize.py:342, 344 with `kw` = "text" or "mbox":
`(\\)+text{\s*UNIT(es|s)? *(\^\d|\^{\d+})?} *(\^\d|\^{\d+})?` -/
def textUnitRe (U : Uni) (kw u : Str) : Re :=
  cat [plus (c '\\'), lit kw, c '{', many ws, unitRe u, pluralRe, many (c ' '), powerRe U, c '}',
    many (c ' '), powerRe U]

/-- latex_normalize.py:341-345 -/
def textUnits (U : Uni) (s : Str) : Str :=
  unitAll.foldl (fun s u =>
    reSubConst (textUnitRe U s%"mbox" u) [] (reSubConst (textUnitRe U s%"text" u) [] s)) s

/-- latex_normalize.py:348, `(\\)+text\{[a-zA-Z ]+(\^\d|\^\{\d+\})? *\} *(\^\d|\^\{\d+\})?` -/
def anyTextRe (U : Uni) : Re :=
  cat [plus (c '\\'), lit s%"text{", plus (.chr fun x => asciiAlpha x || x == ' '), powerRe U,
    many (c ' '), c '}', many (c ' '), powerRe U]

/-- latex_normalize.py:348-349 -/
def anyText (U : Uni) (s : Str) : Str := reSubConst (anyTextRe U) [] s

/-- latex_normalize.py:356, ` *UNIT(es|s)? *(\^\d|\^{\d+}+)?` -/
def longUnitRe (U : Uni) (u : Str) : Re :=
  cat [many (c ' '), unitRe u, pluralRe, many (c ' '), powerRe' U]

/-- latex_normalize.py:363, ` +UNIT(es|s)? *(\^\d|\^{\d+}+)?` -/
def shortUnitRe (U : Uni) (u : Str) : Re :=
  cat [plus (c ' '), unitRe u, pluralRe, many (c ' '), powerRe' U]

/-- latex_normalize.py:355-364 -/
def bareUnits (U : Uni) (s : Str) : Str :=
  unitShort.foldl (fun s u => reSubConst (shortUnitRe U u) [] s)
    (unitLong.foldl (fun s u => reSubConst (longUnitRe U u) [] s) s)

/-- latex_normalize.py:368, `\^ *(?:\{ *\\circ *\}|\\circ)` -/
def circRe : Re :=
  cat [c '^', many (c ' '),
    alt (cat [c '{', many (c ' '), lit s%"\\circ", many (c ' '), c '}']) (lit s%"\\circ")]

/-- latex_normalize.py:373, `(\d*)(\.\d+)? *\^ *(?:\{ *\\circ *\}|\\circ)` -/
def circNumRe (U : Uni) : Re :=
  cat [grp 1 (many (d U)), opt (grp 2 (.seq (c '.') (plus (d U)))), many (c ' '), circRe]

/-- latex_normalize.py:375, the replacement `\1\2/180*\\pi` -/
def circSub (U : Uni) (s : Str) : Str :=
  reSub (circNumRe U) (fun _ t => t.groupD 1 ++ t.groupD 2 ++ s%"/180*\\pi") s

/-! ### The final stage -/

/-- latex_normalize.py:422-432 `float_to_latex_scientific` -/
def floatToLatexScientific (U : Uni) (s : Str) : Str :=
  match pyFloat U s with
  | some x => if x.neZero then replace s%"e" s%"*10^{" x.fmtE ++ s%"}" else s
  | none => s

/-- latex_normalize.py:386-387: one pair of enclosing braces is removed -/
def stripBraces (s : Str) : Str :=
  if !s.isEmpty && s.head? == some '{' && s.getLast? == some '}' then (s.drop 1).dropLast else s

/-- latex_normalize.py:389-393: integers are printed canonically -/
def canonFloat (U : Uni) (s : Str) : Str :=
  match pyFloat U s with
  | some x =>
    if isIntFloat x then
      if contains s%"e" s then floatToLatexScientific U s
      else match x.roundInt with
        | some n => intStr n
        | none => s
    else s
  | none => s

/-- latex_normalize.py:386-414, everything before the call of the CAS -/
def furtherPure (U : Uni) (s : Str) : Str :=
  let s := stripBraces s
  let s := canonFloat U s
  let s := if contains s%"\\" s then parseLatexStr s else s
  -- `re.sub("- *", "-", expr)`
  let s := reSubConst (.seq (c '-') (many (c ' '))) s%"-" s
  let s := injectMixed U s
  let s := replace s%" " [] s
  lower U s

variable {X V S : Type}

/-- latex_normalize.py:416-419 with 104-109 `_str_to_int`: `str(latex2sympy(expr))`, or `expr`
itself if the parser fails -/
def canonInt (E : Env X V S) (s : Str) : M X Str :=
  if strIsInt E.U s then
    M.tryExcept (do let v ← M.ext (E.l2s s); pure (some v)) (fun _ => pure none) >>= fun
      | some v => M.ext (E.str v)
      | none => pure s
  else pure s

/-- latex_normalize.py:384-419 `further_string_normalize` -/
def further (E : Env X V S) (s : Str) : M X Str := canonInt E (furtherPure E.U s)

/-! ### `string_normalize` -/

/-- latex_normalize.py:341-364: removal of units -/
def unitsStep (U : Uni) (s : Str) : Str := bareUnits U (anyText U (textUnits U s))

/-- latex_normalize.py:304-328 -/
def middle (s : Str) : Str :=
  memberStep (leftRight (wordsAndControls (andOrStep (removeDollar s))))

/-- latex_normalize.py:367-381: degrees, then the final stage -/
def degrees (E : Env X V S) (s : Str) : M X Norm :=
  if (reSearch circRe s).isSome then do
    let a ← further E (reSubConst circRe [] s)
    let b ← further E (circSub E.U s)
    pure (.set (E.setOrder [a, b]))
  else do
    let a ← further E s
    pure (.str a)

/-- latex_normalize.py:270-381: `_string_normalize` after the wrappers have been tested -/
def normTail (E : Env X V S) (s : Str) : M X Norm :=
  let s := removeSpacing s
  match baseReadings E.U s with
  | some rs => pure (.set (E.setOrder rs))
  | none =>
    match percentStep E.U s with
    | .inl rs => pure (.set (E.setOrder rs))
    | .inr s =>
      match strToTimeList E.U (middle s) with
      | .set xs => pure (.set (E.setOrder xs))
      | .str s => degrees E (unitsStep E.U s)

/-- latex_normalize.py:252-381 `_string_normalize` on a string; `rec` is `string_normalize` -/
def normBody (E : Env X V S) (rec : Str → M X Norm) (s : Str) : M X Norm :=
  let s := matrixNormalize (stripBlank s)
  match reSearch textRe s with
  | some t => rec (t.groupD 2)
  | none =>
    match reSearch setBuilderRe s with
    | some t =>
      -- `m.group(2) if m.group(2) else m.group(3)`: there is no group 3
      if (t.groupD 2).isEmpty then M.raise .indexError else rec (t.groupD 2)
    | none => normTail E s

/-- latex_normalize.py:240-245 `string_normalize` on a string.  The first argument is the
recursion budget; calling with none left is `RecursionError`. -/
def stringNormalize (E : Env X V S) : Nat → Str → M X Norm
  | 0, _ => M.raise .recursionError
  | n + 1, s => M.tryExcept (normBody E (stringNormalize E n) s) fun e => do
      M.print (errLine e)
      pure (.str s)

/-- latex_normalize.py:240-250 `string_normalize` including `None` -/
def stringNormalizeOpt (E : Env X V S) (n : Nat) : Option Str → M X (Option Norm)
  | none => pure none
  | some s => do return some (← stringNormalize E n s)

/-! ### `split_tuple` and `split_matrix` -/

/-- Result of `split_tuple` / Python container kinds. -/
inductive Elems where
  | str (s : Str)
  | list (xs : List Str)
  | tuple (xs : List Str)
  | set (xs : List Str)
deriving DecidableEq, Repr

/-- `return_type` of `split_tuple` -/
inductive RetType where
  | list | tuple | set
deriving DecidableEq, Repr

/-- latex_normalize.py:453-454: contribution of a character to the bracket counter -/
def bracketDelta (ch : Char) : Int :=
  (if ch == '[' || ch == '(' || ch == '{' then 1 else 0)
    - (if ch == ']' || ch == ')' || ch == '}' then 1 else 0)

/-- latex_normalize.py:449-456: counting loop; returns the counter and `remove_parenthesis` -/
def scanBrackets : Int → Bool → Str → Int × Bool
  | cnt, rp, [] => (cnt, rp)
  | cnt, rp, ch :: rest =>
    let cnt := cnt + bracketDelta ch
    scanBrackets cnt (if cnt == 0 && !rest.isEmpty then false else rp) rest

/-- latex_normalize.py:475-488: splitting loop (`stack` is kept reversed) -/
def splitLoop : Int → Str → Str → List Str
  | _, stack, [] => if stack.isEmpty then [] else [strip stack.reverse]
  | cnt, stack, ch :: rest =>
    if ch == ',' && cnt == 0 then strip stack.reverse :: splitLoop cnt [] rest
    else splitLoop (cnt + bracketDelta ch) (ch :: stack) rest

/-- latex_normalize.py:460-470: removal of the enclosing brackets and their kind -/
def peelBrackets (rp : Bool) (s : Str) : Str × RetType :=
  if rp && decide (2 < s.length) then
    match s.head?, s.getLast? with
    | some '[', some ']' => ((s.drop 1).dropLast, .list)
    | some '(', some ')' => ((s.drop 1).dropLast, .tuple)
    | some '{', some '}' => ((s.drop 1).dropLast, .set)
    | _, _ => (s, .set)
  else (s, .set)

/-- latex_normalize.py:435-493 `split_tuple`; `expected` is `expected_type` -/
def splitTuple (U : Uni) (setOrder : List Str → List Str) (s : Str) (expected : Option RetType) :
    Except PyErr Elems :=
  let s := stripCommas U s
  let (cnt, rp) := scanBrackets 0 true s
  if cnt ≠ 0 then .error .assertionError
  else
    let (s, rt) := peelBrackets rp s
    let rt := expected.getD rt
    let result := splitLoop 0 [] s
    if 1 < result.length then
      match rt with
      | .list => .ok (.list result)
      | .tuple => .ok (.tuple result)
      | .set => .ok (.set (setOrder result))
    else .ok (.str s)

/-- A row of a split matrix: a single entry or several. -/
inductive Row where
  | str (s : Str)
  | list (xs : List Str)
deriving DecidableEq, Repr

/-- Result of `split_matrix`. -/
inductive Mat where
  | str (s : Str)
  | rows (rs : List Row)
deriving DecidableEq, Repr

/-- latex_normalize.py:524 -/
def Row.nCol : Row → Nat
  | .str _ => 1
  | .list xs => xs.length

/-- latex_normalize.py:521-532 `check_dim` (`n_col` is `None` or falsy at first) -/
def checkDim : Option Nat → List Row → Bool
  | _, [] => true
  | n, r :: rs =>
    match n with
    | some k => if k ≠ 0 ∧ r.nCol ≠ k then false else checkDim (some r.nCol) rs
    | none => checkDim (some r.nCol) rs

/-- latex_normalize.py:534 with DOTALL -/
def matrixRe : Re :=
  let env := fun (kw : Str) => cat [lit kw, opt (.chr asciiAlpha), lit s%"matrix}"]
  cat [bos, env s%"\\begin{", grp 1 (manyLazy any), env s%"\\end{", eos]

/-- latex_normalize.py:539-544 -/
def envRow (row : Str) : Row :=
  match split s%"&" row with
  | [x] => .str x
  | col => .list col

/-- `split_tuple(row, list)` as a row -/
def rowOfElems : Elems → Row
  | .str s => .str s
  | .list xs => .list xs
  | .tuple xs => .list xs
  | .set xs => .list xs

/-- latex_normalize.py:535-554: the rows, or an exception of `split_tuple` -/
def matrixElements (U : Uni) (setOrder : List Str → List Str) (s : Str) :
    Except PyErr (List Row) :=
  match reSearch matrixRe s with
  | some t => .ok ((split s%"\\\\" (t.groupD 1)).map envRow)
  | none => do
    let rows := match ← splitTuple U setOrder s (some .list) with
      | .str x => [x]
      | .list xs => xs
      | .tuple xs => xs
      | .set xs => xs
    rows.mapM fun row => do
      let e ← splitTuple U setOrder row (some .list)
      pure (rowOfElems e)

/-- latex_normalize.py:496-562 `split_matrix`.  A single row is taken as the list of its entries
(line 557-558); `check_dim` applied to a string looks at its characters and always succeeds. -/
def splitMatrix (E : Env X V S) (s : Str) : M X Mat := do
  let elements ← M.lift (matrixElements E.U E.setOrder s)
  match elements with
  | [] => pure (.str s)
  | [.str x] => pure (.str x)
  | [.list xs] => pure (.rows (xs.map .str))
  | rs =>
    if checkDim none rs then pure (.rows rs)
    else do
      M.print s%"WARNING: mismatched dimensions. Won't parse."
      pure (.str s)

/-! ### Intervals -/

/-- latex_normalize.py:133-149: one interval -/
def oneInterval (E : Env X V S) (s : Str) : M X S := do
  let a := strip s
  match split s%"," a with
  | [l, r] =>
    let lv ← M.ext (E.l2s (replace s%"[" [] (replace s%"(" [] l)))
    let rv ← M.ext (E.l2s (replace s%"]" [] (replace s%")" [] r)))
    let lv ← numEnd E lv
    let rv ← numEnd E rv
    let bad ← (do
      if ← M.ext (E.isNumber lv) then
        if ← M.ext (E.isNumber rv) then M.ext (E.gtV lv rv) else pure false
      else pure false)
    if bad then M.raise .other
    else M.ext (E.interval lv rv (contains s%"(" a) (contains s%")" a))
  | _ => M.raise .valueError
where
  /-- latex_normalize.py:138-145 for one end point -/
  numEnd (E : Env X V S) (v : V) : M X V := do
    if ← M.ext (E.isNumber v) then
      let v ← M.ext (E.evalf v)
      if ← M.ext (E.isIntNum v) then M.ext (E.toInteger v) else pure v
    else pure v

/-- latex_normalize.py:132-153: the intersections of one union member -/
def interLoop (E : Env X V S) : S → List Str → M X S
  | acc, [] => pure acc
  | acc, a :: as => do
    let t ← oneInterval E a
    let acc ← (do if ← M.ext (E.isEmptySet acc) then pure t else M.ext (E.intersect acc t))
    interLoop E acc as

/-- latex_normalize.py:132: pieces separated by the intersection sign -/
def capSplit (s : Str) : List Str :=
  if contains s%"∩" s then split s%"∩" s else split s%"\\cap" s

/-- latex_normalize.py:128: pieces separated by the union sign -/
def cupSplit (s : Str) : List Str :=
  if contains s%"⋃" s then split s%"⋃" s else split s%"\\cup" s

/-- latex_normalize.py:130-154: the union -/
def unionLoop (E : Env X V S) : S → List Str → M X S
  | acc, [] => pure acc
  | acc, o :: os => do
    let t ← interLoop E E.emptySet (capSplit o)
    let acc ← M.ext (E.union acc t)
    unionLoop E acc os

/-- latex_normalize.py:126-158 `_str_to_interval`; `none` is `None` -/
def strToInterval (E : Env X V S) (s : Str) : M X (Option S) :=
  M.tryExcept (do let r ← unionLoop E E.emptySet (cupSplit s); pure (some r)) (fun _ => pure none)

end Verif
