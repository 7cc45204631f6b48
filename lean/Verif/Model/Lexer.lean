import Verif.Py.Str
/-
Model of the lexer generated from /repo/latex2sympy/PS.g4 (gen/PSLexer.py): the token rules in their
order, and ANTLR's rule for choosing a token: the longest match, and among rules matching the same
text the one that comes first (the literals used in parser rules, `T__0`, ... come before all others,
gen/PSLexer.tokens).  `WS` and `DOLLAR_SIGN` are skipped.

The rules are regular expressions, matched by taking derivatives.  The non-greedy loop of
`DIFFERENTIAL` (PS.g4:160) is an ordinary loop here: what follows it cannot begin with a blank, so
that the loop has no choice, and the parts after it are greedy.
-/

namespace Verif.Grammar
open Verif

/-- Token types, in the order of gen/PSLexer.tokens:1-194 (PS.g4:7-349). -/
inductive Kind where
  | T0 | T1 | T2 | T3 | T4 | T5 | T6 | T7 | T8 | T9 | T10 | T11 | T12 | T13 | T14 | T15 | T16
  | T17 | T18 | T19 | T20 | T21 | T22 | T23 | T24 | T25 | T26 | T27 | T28 | T29 | T30 | T31 | T32
  | T33 | T34 | T35 | T36 | T37 | T38 | T39 | T40 | T41 | T42 | T43 | T44 | WS | DOLLAR_SIGN
  | ADD | SUB | MUL | DIV | L_PAREN | R_PAREN | L_GROUP | R_GROUP | L_BRACE | R_BRACE
  | L_BRACE_VISUAL | R_BRACE_VISUAL | L_BRACE_CMD | R_BRACE_CMD | L_BRACKET | R_BRACKET | L_BRACK
  | R_BRACK | BAR | L_VERT | R_VERT | VERT | NORM | L_FLOOR | R_FLOOR | LL_CORNER | LR_CORNER
  | L_CEIL | R_CEIL | UL_CORNER | UR_CORNER | L_LEFT | R_RIGHT | ML_LEFT | MR_RIGHT | FUNC_LIM
  | LIM_APPROACH_SYM | FUNC_INT | FUNC_SUM | FUNC_PROD | FUNC_LOG | FUNC_LN | FUNC_EXP | FUNC_SIN
  | FUNC_COS | FUNC_TAN | FUNC_CSC | FUNC_SEC | FUNC_COT | FUNC_ARCSIN | FUNC_ARCCOS
  | FUNC_ARCTAN | FUNC_ARCCSC | FUNC_ARCSEC | FUNC_ARCCOT | FUNC_SINH | FUNC_COSH | FUNC_TANH
  | FUNC_ARSINH | FUNC_ARCOSH | FUNC_ARTANH | FUNC_ARCSINH | FUNC_ARCCOSH | FUNC_ARCTANH
  | FUNC_ARSINH_NAME | FUNC_ARCSINH_NAME | FUNC_ARCOSH_NAME | FUNC_ARCCOSH_NAME
  | FUNC_ARTANH_NAME | FUNC_ARCTANH_NAME | FUNC_GCD_NAME | FUNC_LCM_NAME | FUNC_FLOOR_NAME
  | FUNC_CEIL_NAME | FUNC_SQRT | FUNC_GCD | FUNC_LCM | FUNC_FLOOR | FUNC_CEIL | FUNC_MAX
  | FUNC_MIN | FUNC_DET | FUNC_EYE_NAME | FUNC_ZEROS_NAME | FUNC_ONES_NAME | FUNC_COLS_NAME
  | FUNC_ROWS_NAME | FUNC_DIAG_NAME | FUNC_NORM_NAME | FUNC_RANK_NAME | FUNC_TRACE_NAME
  | FUNC_RREF_NAME | FUNC_HSTACK_NAME | FUNC_VSTACK_NAME | FUNC_ORTHOGONALIZE_NAME
  | FUNC_NULLSPACE_NAME | FUNC_DIAGONALIZE_NAME | FUNC_EIGENVALS_NAME | FUNC_EIGENVECTORS_NAME
  | FUNC_SVD_NAME | CMD_TIMES | CMD_CDOT | CMD_DIV | CMD_FRAC | CMD_BINOM | CMD_CHOOSE | CMD_MOD
  | CMD_MATHIT | CMD_OPERATORNAME | MATRIX_TYPE_MATRIX | MATRIX_TYPE_PMATRIX
  | MATRIX_TYPE_BMATRIX | MATRIX_TYPE_DET | MATRIX_TYPES | CMD_MATRIX_START | CMD_MATRIX_END
  | CMD_DET_START | CMD_DET_END | MATRIX_DEL_COL | MATRIX_DEL_ROW | UNDERSCORE | CARET | COLON
  | SEMICOLON | COMMA | PERIOD | DIFFERENTIAL | EXP_E | E_NOTATION_E | LETTER_NO_E | DIGIT
  | MATRIX_XRIGHTARROW | TRANSFORM_EXCHANGE | IN | ASSIGNMENT | EQUAL | LT | LTE | GT | GTE
  | UNEQUAL | BANG | PERCENT_SIGN | GREEK_CMD | OTHER_SYMBOL_CMD | SYMBOL | VARIABLE
deriving DecidableEq, Repr

/-- Regular expressions of lexer rules (PS.g4:7-305). -/
inductive Rx where
  /-- matches nothing -/
  | none
  /-- a literal -/
  | lit (s : Str)
  /-- a character class -/
  | chr (p : Char → Bool)
  | seq (a b : Rx)
  | alt (a b : Rx)
  | star (r : Rx)

namespace Rx

/-- the expression matches the empty text (ANTLR lexer simulation, gen/PSLexer.py:1417) -/
def nullable : Rx → Bool
  | .none => false
  | .lit s => s.isEmpty
  | .chr _ => false
  | .seq a b => a.nullable && b.nullable
  | .alt a b => a.nullable || b.nullable
  | .star _ => true

/-- the expression was found to match nothing (gen/PSLexer.py:1417) -/
def dead : Rx → Bool
  | .none => true
  | _ => false

/-- concatenation, simplified (gen/PSLexer.py:1417) -/
def seq' : Rx → Rx → Rx
  | .none, _ => .none
  | .lit [], b => b
  | a, b => .seq a b

/-- alternative, simplified (gen/PSLexer.py:1417) -/
def alt' : Rx → Rx → Rx
  | .none, b => b
  | a, .none => a
  | a, b => .alt a b

/-- what is left to match after a character (gen/PSLexer.py:1417) -/
def deriv (c : Char) : Rx → Rx
  | .none => .none
  | .lit [] => .none
  | .lit (x :: xs) => if c = x then .lit xs else .none
  | .chr p => if p c then .lit [] else .none
  | .seq a b => alt' (seq' (a.deriv c) b) (if a.nullable then b.deriv c else .none)
  | .alt a b => alt' (a.deriv c) (b.deriv c)
  | .star r => seq' (r.deriv c) (.star r)

/-- alternatives (PS.g4:7-305) -/
def alts : List Rx → Rx
  | [] => .none
  | [r] => r
  | r :: rs => .alt r (alts rs)

/-- alternative literals (PS.g4:7-305) -/
def lits (l : List Str) : Rx := alts (l.map .lit)

/-- concatenation (PS.g4:7-305) -/
def cat : List Rx → Rx
  | [] => .lit []
  | [r] => r
  | r :: rs => .seq r (cat rs)

/-- `r+` (PS.g4:7-305) -/
def plus (r : Rx) : Rx := .seq r (.star r)

/-- `r?` (PS.g4:7-305) -/
def opt (r : Rx) : Rx := .alt r (.lit [])

end Rx

/-- `[a-zA-Z]` (PS.g4:165) -/
def letter (c : Char) : Bool :=
  (decide ('a' ≤ c) && decide (c ≤ 'z')) || (decide ('A' ≤ c) && decide (c ≤ 'Z'))

/-- `[0-9]` (PS.g4:167) -/
def digit (c : Char) : Bool := decide ('0' ≤ c) && decide (c ≤ '9')

/-- `[ \t\r\n]` (PS.g4:7, 159) -/
def wsChar (c : Char) : Bool := c == ' ' || c == '\t' || c == '\r' || c == '\n'

/-- `[a-df-zA-DF-Z]` (PS.g4:164) -/
def letterNoE (c : Char) : Bool := letter c && c != 'e' && c != 'E'

/-- `GREEK_LETTER` (PS.g4:194-246) -/
def greekLetters : List Str := [
  s%"\\char\"000391", s%"\\alpha", s%"\\char\"000392", s%"\\beta", s%"\\Gamma", s%"\\gamma",
  s%"\\Delta", s%"\\delta", s%"\\char\"000190", s%"\\epsilon", s%"\\varepsilon",
  s%"\\char\"000396", s%"\\zeta", s%"\\char\"000397", s%"\\eta", s%"\\Theta", s%"\\theta",
  s%"\\vartheta", s%"\\char\"000399", s%"\\iota", s%"\\char\"00039A", s%"\\kappa", s%"\\Lambda",
  s%"\\lambda", s%"\\char\"00039C", s%"\\mu", s%"\\char\"00039D", s%"\\nu", s%"\\Xi", s%"\\xi",
  s%"\\char\"00039F", s%"\\omicron", s%"\\Pi", s%"\\varpi", s%"\\char\"0003A1", s%"\\rho",
  s%"\\varrho", s%"\\Sigma", s%"\\sigma", s%"\\varsigma", s%"\\char\"0003A4", s%"\\tau",
  s%"\\Upsilon", s%"\\upsilon", s%"\\Phi", s%"\\phi", s%"\\varphi", s%"\\char\"0003A7",
  s%"\\chi", s%"\\Psi", s%"\\psi", s%"\\Omega", s%"\\omega"]

/-- `OTHER_SYMBOL` (PS.g4:250-293) -/
def otherSymbols : List Str := [
  s%"\\Bbbk", s%"\\wp", s%"\\nabla", s%"\\bigstar", s%"\\angle", s%"\\nexists", s%"\\diagdown",
  s%"\\measuredangle", s%"\\eth", s%"\\diagup", s%"\\sphericalangle", s%"\\clubsuit",
  s%"\\varnothing", s%"\\Diamond", s%"\\complement", s%"\\diamondsuit", s%"\\imath", s%"\\Finv",
  s%"\\triangledown", s%"\\heartsuit", s%"\\jmath", s%"\\Game", s%"\\triangle", s%"\\spadesuit",
  s%"\\ell", s%"\\hbar", s%"\\vartriangle", s%"\\hslash", s%"\\blacklozenge", s%"\\lozenge",
  s%"\\blacksquare", s%"\\mho", s%"\\blacktriangle", s%"\\sharp", s%"\\prime", s%"\\Im",
  s%"\\flat", s%"\\square", s%"\\backprime", s%"\\Re", s%"\\natural", s%"\\surd", s%"\\circledS"]

/-- `GREEK_CMD` (PS.g4:248) -/
def greekCmd : Rx := .seq (.lits greekLetters) (.opt (.lit s%" "))

/-- `OTHER_SYMBOL_CMD` (PS.g4:294) -/
def otherSymbolCmd : Rx := .seq (.lits otherSymbols) (.opt (.lit s%" "))

/-- `GREEK_CMD | OTHER_SYMBOL_CMD | LETTER | DIGIT` (PS.g4:304) -/
def variablePart : Rx := .alts [greekCmd, otherSymbolCmd, .chr letter, .chr digit]

/-- `VARIABLE_SYMBOL` (PS.g4:304) -/
def variableSymbol : Rx :=
  .seq (.plus variablePart)
    (.opt (.seq (.lit s%"_")
      (.alt (.cat [.lit s%"{", .plus (.alt variablePart (.lit s%",")), .lit s%"}"]) variablePart)))

/-- `MATRIX_TYPES` (PS.g4:144) -/
def matrixTypes : Rx := .lits [s%"matrix", s%"pmatrix", s%"bmatrix"]

/-- `DIFFERENTIAL` (PS.g4:160) -/
def differentialRx : Rx :=
  .cat [.lit s%"d", .star (.chr wsChar),
    .alt (.chr letter) (.seq (.lit s%"\\") (.plus (.chr letter))),
    .opt (.seq (.lit s%"_")
      (.alt (.chr digit) (.cat [.lit s%"{", .plus (.chr digit), .lit s%"}"])))]

/-- `SYMBOL` (PS.g4:296-301) -/
def symbolRx : Rx :=
  .lits [s%"\\pi", s%"\\partial", s%"\\infty", s%"\\$\\infty", s%"\\infty\\%", s%"\\emptyset"]

/-- The lexer rules in order (PS.g4:7-349; the order is that of gen/PSLexer.py:1367-1410). -/
def rules : List (Kind × Rx) := [
  (.T0, .lit s%"\\acute"),
  (.T1, .lit s%"\\bar"),
  (.T2, .lit s%"\\overline"),
  (.T3, .lit s%"\\breve"),
  (.T4, .lit s%"\\check"),
  (.T5, .lit s%"\\widecheck"),
  (.T6, .lit s%"\\dot"),
  (.T7, .lit s%"\\ddot"),
  (.T8, .lit s%"\\grave"),
  (.T9, .lit s%"\\hat"),
  (.T10, .lit s%"\\tilde"),
  (.T11, .lit s%"\\widetilde"),
  (.T12, .lit s%"\\vec"),
  (.T13, .lit s%"\\overrightarrow"),
  (.T14, .lit s%"\\bm"),
  (.T15, .lit s%"\\boldsymbol"),
  (.T16, .lit s%"\\text"),
  (.T17, .lit s%"\\textit"),
  (.T18, .lit s%"\\mathbb"),
  (.T19, .lit s%"\\mathbin"),
  (.T20, .lit s%"\\mathbf"),
  (.T21, .lit s%"\\mathcal"),
  (.T22, .lit s%"\\mathclap"),
  (.T23, .lit s%"\\mathclose"),
  (.T24, .lit s%"\\mathellipsis"),
  (.T25, .lit s%"\\mathfrak"),
  (.T26, .lit s%"\\mathinner"),
  (.T27, .lit s%"\\mathnormal"),
  (.T28, .lit s%"\\mathop"),
  (.T29, .lit s%"\\mathopen"),
  (.T30, .lit s%"\\mathord"),
  (.T31, .lit s%"\\mathpunct"),
  (.T32, .lit s%"\\mathrel"),
  (.T33, .lit s%"\\mathring"),
  (.T34, .lit s%"\\mathrlap"),
  (.T35, .lit s%"\\mathrm"),
  (.T36, .lit s%"\\mathscr"),
  (.T37, .lit s%"\\mathsf"),
  (.T38, .lit s%"\\mathsterling"),
  (.T39, .lit s%"\\mathtt"),
  (.T40, .lit s%"^T"),
  (.T41, .lit s%"^{T}"),
  (.T42, .lit s%"^\\top"),
  (.T43, .lit s%"^{\\top}"),
  (.T44, .lit s%"'"),
  (.WS, .plus (.chr wsChar)),
  (.DOLLAR_SIGN, .lit s%"\\$"),
  (.ADD, .lit s%"+"),
  (.SUB, .lit s%"-"),
  (.MUL, .lit s%"*"),
  (.DIV, .lits [s%"/", s%"\\over"]),
  (.L_PAREN, .lit s%"("),
  (.R_PAREN, .lit s%")"),
  (.L_GROUP, .lit s%"\\lgroup"),
  (.R_GROUP, .lit s%"\\rgroup"),
  (.L_BRACE, .lit s%"{"),
  (.R_BRACE, .lit s%"}"),
  (.L_BRACE_VISUAL, .lit s%"\\{"),
  (.R_BRACE_VISUAL, .lit s%"\\}"),
  (.L_BRACE_CMD, .lit s%"\\lbrace"),
  (.R_BRACE_CMD, .lit s%"\\rbrace"),
  (.L_BRACKET, .lit s%"["),
  (.R_BRACKET, .lit s%"]"),
  (.L_BRACK, .lit s%"\\lbrack"),
  (.R_BRACK, .lit s%"\\rbrack"),
  (.BAR, .lit s%"|"),
  (.L_VERT, .lit s%"\\lvert"),
  (.R_VERT, .lit s%"\\rvert"),
  (.VERT, .lit s%"\\vert"),
  (.NORM, .lit s%"\\|"),
  (.L_FLOOR, .lit s%"\\lfloor"),
  (.R_FLOOR, .lit s%"\\rfloor"),
  (.LL_CORNER, .lit s%"\\llcorner"),
  (.LR_CORNER, .lit s%"\\lrcorner"),
  (.L_CEIL, .lit s%"\\lceil"),
  (.R_CEIL, .lit s%"\\rceil"),
  (.UL_CORNER, .lit s%"\\ulcorner"),
  (.UR_CORNER, .lit s%"\\urcorner"),
  (.L_LEFT, .lit s%"\\left"),
  (.R_RIGHT, .lit s%"\\right"),
  (.ML_LEFT, .lit s%"\\mleft"),
  (.MR_RIGHT, .lit s%"\\mright"),
  (.FUNC_LIM, .lit s%"\\lim"),
  (.LIM_APPROACH_SYM, .lits [s%"\\to", s%"\\rightarrow", s%"\\Rightarrow", s%"\\longrightarrow",
    s%"\\Longrightarrow"]),
  (.FUNC_INT, .lit s%"\\int"),
  (.FUNC_SUM, .lit s%"\\sum"),
  (.FUNC_PROD, .lit s%"\\prod"),
  (.FUNC_LOG, .lit s%"\\log"),
  (.FUNC_LN, .lit s%"\\ln"),
  (.FUNC_EXP, .lit s%"\\exp"),
  (.FUNC_SIN, .lit s%"\\sin"),
  (.FUNC_COS, .lit s%"\\cos"),
  (.FUNC_TAN, .lit s%"\\tan"),
  (.FUNC_CSC, .lit s%"\\csc"),
  (.FUNC_SEC, .lit s%"\\sec"),
  (.FUNC_COT, .lit s%"\\cot"),
  (.FUNC_ARCSIN, .lit s%"\\arcsin"),
  (.FUNC_ARCCOS, .lit s%"\\arccos"),
  (.FUNC_ARCTAN, .lit s%"\\arctan"),
  (.FUNC_ARCCSC, .lit s%"\\arccsc"),
  (.FUNC_ARCSEC, .lit s%"\\arcsec"),
  (.FUNC_ARCCOT, .lit s%"\\arccot"),
  (.FUNC_SINH, .lit s%"\\sinh"),
  (.FUNC_COSH, .lit s%"\\cosh"),
  (.FUNC_TANH, .lit s%"\\tanh"),
  (.FUNC_ARSINH, .lit s%"\\arsinh"),
  (.FUNC_ARCOSH, .lit s%"\\arcosh"),
  (.FUNC_ARTANH, .lit s%"\\artanh"),
  (.FUNC_ARCSINH, .lit s%"\\arcsinh"),
  (.FUNC_ARCCOSH, .lit s%"\\arccosh"),
  (.FUNC_ARCTANH, .lit s%"\\arctanh"),
  (.FUNC_ARSINH_NAME, .lit s%"arsinh"),
  (.FUNC_ARCSINH_NAME, .lit s%"arcsinh"),
  (.FUNC_ARCOSH_NAME, .lit s%"arcosh"),
  (.FUNC_ARCCOSH_NAME, .lit s%"arccosh"),
  (.FUNC_ARTANH_NAME, .lit s%"artanh"),
  (.FUNC_ARCTANH_NAME, .lit s%"arctanh"),
  (.FUNC_GCD_NAME, .lit s%"gcd"),
  (.FUNC_LCM_NAME, .lit s%"lcm"),
  (.FUNC_FLOOR_NAME, .lit s%"floor"),
  (.FUNC_CEIL_NAME, .lit s%"ceil"),
  (.FUNC_SQRT, .lit s%"\\sqrt"),
  (.FUNC_GCD, .lit s%"\\gcd"),
  (.FUNC_LCM, .lit s%"\\lcm"),
  (.FUNC_FLOOR, .lit s%"\\floor"),
  (.FUNC_CEIL, .lit s%"\\ceil"),
  (.FUNC_MAX, .lit s%"\\max"),
  (.FUNC_MIN, .lit s%"\\min"),
  (.FUNC_DET, .lit s%"\\det"),
  (.FUNC_EYE_NAME, .lit s%"eye"),
  (.FUNC_ZEROS_NAME, .lit s%"zeros"),
  (.FUNC_ONES_NAME, .lit s%"ones"),
  (.FUNC_COLS_NAME, .lit s%"cols"),
  (.FUNC_ROWS_NAME, .lit s%"rows"),
  (.FUNC_DIAG_NAME, .lit s%"diag"),
  (.FUNC_NORM_NAME, .lit s%"norm"),
  (.FUNC_RANK_NAME, .lit s%"rank"),
  (.FUNC_TRACE_NAME, .lits [s%"trace", s%"tr"]),
  (.FUNC_RREF_NAME, .lit s%"rref"),
  (.FUNC_HSTACK_NAME, .lit s%"hstack"),
  (.FUNC_VSTACK_NAME, .lit s%"vstack"),
  (.FUNC_ORTHOGONALIZE_NAME, .lits [s%"orth", s%"ortho", s%"orthogonal", s%"orthogonalize"]),
  (.FUNC_NULLSPACE_NAME, .lit s%"nullspace"),
  (.FUNC_DIAGONALIZE_NAME, .lits [s%"eig", s%"eigen", s%"diagonalize"]),
  (.FUNC_EIGENVALS_NAME, .lits [s%"eigenvals", s%"eigenvalues"]),
  (.FUNC_EIGENVECTORS_NAME, .lits [s%"eigenvects", s%"eigenvectors"]),
  (.FUNC_SVD_NAME, .lits [s%"svd", s%"SVD"]),
  (.CMD_TIMES, .lit s%"\\times"),
  (.CMD_CDOT, .lit s%"\\cdot"),
  (.CMD_DIV, .lit s%"\\div"),
  (.CMD_FRAC, .lit s%"\\frac"),
  (.CMD_BINOM, .lits [s%"\\binom", s%"\\tbinom", s%"\\dbinom"]),
  (.CMD_CHOOSE, .lit s%"\\choose"),
  (.CMD_MOD, .lit s%"\\mod"),
  (.CMD_MATHIT, .lit s%"\\mathit"),
  (.CMD_OPERATORNAME, .lit s%"\\operatorname"),
  (.MATRIX_TYPE_MATRIX, .lit s%"matrix"),
  (.MATRIX_TYPE_PMATRIX, .lit s%"pmatrix"),
  (.MATRIX_TYPE_BMATRIX, .lit s%"bmatrix"),
  (.MATRIX_TYPE_DET, .lit s%"vmatrix"),
  (.MATRIX_TYPES, matrixTypes),
  (.CMD_MATRIX_START, .cat [.lit s%"\\begin{", matrixTypes, .lit s%"}"]),
  (.CMD_MATRIX_END, .cat [.lit s%"\\end{", matrixTypes, .lit s%"}"]),
  (.CMD_DET_START, .lit s%"\\begin{vmatrix}"),
  (.CMD_DET_END, .lit s%"\\end{vmatrix}"),
  (.MATRIX_DEL_COL, .lit s%"&"),
  (.MATRIX_DEL_ROW, .lit s%"\\\\"),
  (.UNDERSCORE, .lit s%"_"),
  (.CARET, .lit s%"^"),
  (.COLON, .lit s%":"),
  (.SEMICOLON, .lit s%";"),
  (.COMMA, .lit s%","),
  (.PERIOD, .lit s%"."),
  (.DIFFERENTIAL, differentialRx),
  (.EXP_E, .lits [s%"e", s%"\\exponentialE"]),
  (.E_NOTATION_E, .lit s%"E"),
  (.LETTER_NO_E, .chr letterNoE),
  (.DIGIT, .chr digit),
  (.MATRIX_XRIGHTARROW, .lits [s%"\\xrightarrow", s%"\\xRightarrow"]),
  (.TRANSFORM_EXCHANGE, .lits [s%"<->", s%"<=>", s%"\\leftrightarrow", s%"\\Leftrightarrow"]),
  (.IN, .lit s%"\\in"),
  (.ASSIGNMENT, .lit s%"="),
  (.EQUAL, .lits [s%"==", s%"\\equiv"]),
  (.LT, .lit s%"<"),
  (.LTE, .lits [s%"\\leq", s%"\\le", s%"\\leqslant"]),
  (.GT, .lit s%">"),
  (.GTE, .lits [s%"\\geq", s%"\\ge", s%"\\geqslant"]),
  (.UNEQUAL, .lits [s%"!=", s%"!==", s%"\\ne", s%"\\neq", s%"\\not\\equiv"]),
  (.BANG, .lit s%"!"),
  (.PERCENT_SIGN, .lit s%"\\%"),
  (.GREEK_CMD, greekCmd),
  (.OTHER_SYMBOL_CMD, otherSymbolCmd),
  (.SYMBOL, symbolRx),
  (.VARIABLE, .cat [.lit s%"\\variable{", variableSymbol, .lit s%"}", .opt (.lit s%"\\%")])]

/-- the rules that may still match after one more character (gen/PSLexer.py:1417) -/
def step (live : List (Kind × Rx)) (c : Char) : List (Kind × Rx) :=
  (live.map fun x => (x.1, x.2.deriv c)).filter fun x => !x.2.dead

/-- The longest match: rules still alive, length read, best match so far, text
(gen/PSLexer.py:1417). -/
def munch : List (Kind × Rx) → Nat → Option (Kind × Nat) → Str → Option (Kind × Nat)
  | _, _, best, [] => best
  | live, n, best, c :: cs =>
    match step live c with
    | [] => best
    | x :: xs =>
      munch (x :: xs) (n + 1)
        (match (x :: xs).find? (fun y => y.2.nullable) with
          | some y => some (y.1, n + 1)
          | none => best) cs

/-- A token: type, text, and the skipped text before it (ANTLR tokens of gen/PSLexer.py). -/
structure Tok where
  kind : Kind
  text : Str
  gap : Str
deriving DecidableEq, Repr

/-- The tokens of a text, `none` if some character begins no token (latex2sympy2.py:86-91; the error
listener raises an exception).  The first argument bounds the number of tokens, the second is the
skipped text. -/
def lexGo : Nat → Str → Str → Option (List Tok)
  | _, _, [] => some []
  | 0, _, _ => none
  | n + 1, gap, c :: cs =>
    match munch rules 0 none (c :: cs) with
    | none => none
    | some (k, m) =>
      let text := (c :: cs).take m
      let rest := (c :: cs).drop m
      if k = .WS ∨ k = .DOLLAR_SIGN then lexGo n (gap ++ text) rest
      else (lexGo n [] rest).map (⟨k, text, gap⟩ :: ·)

/-- The tokens of a text (latex2sympy2.py:86-91). -/
def lex (s : Str) : Option (List Tok) := lexGo s.length [] s

end Verif.Grammar
