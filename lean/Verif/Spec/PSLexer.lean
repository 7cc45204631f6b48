import Verif.Model.Lexer
/-
The lexer rules of /repo/latex2sympy/PS.g4, as data: every rule is written as in the file, with `⬝`
between consecutive parts, `∥` for `|`, `.opt`, `.star`, `.plus` for `?`, `*`, `+`, `.set` for `[...]`,
`.rule` and `.frag` for references to other rules and to fragments.  `T0`, ..., `T44` are the texts
between quotes in parser rules that no lexer rule defines.  The loop `*?` of DIFFERENTIAL is written
`.star`: it stands for the same texts.  `Forms` is the usual meaning of such rules.  Nothing here refers to
the lexer.
-/

namespace Verif.PS
open Verif
open Verif.Grammar (Kind)

/-- the names of the fragments (PS.g4:159-304) -/
inductive Fragment where
  | WS_CHAR | LETTER | GREEK_LETTER | OTHER_SYMBOL | PI | INFTY_CMD | PARTIAL_CMD | INFTY | EMPTYSET
  | VARIABLE_CMD | VARIABLE_SYMBOL

/-- right-hand sides of lexer rules (PS.g4:7-305) -/
inductive L where
  | lit (s : Str)
  | set (ranges : List (Char × Char))
  | rule (k : Kind)
  | frag (f : Fragment)
  | seq (a b : L)
  | alt (a b : L)
  | opt (a : L)
  | star (a : L)
  | plus (a : L)

namespace Lexical
/-- consecutive parts -/
scoped infixr:65 " ⬝ " => L.seq
/-- alternatives -/
scoped infixr:60 " ∥ " => L.alt
end Lexical

open Lexical

/-- the fragments (PS.g4:159-304) -/
def fragment : Fragment → L
  -- PS.g4:159
  | .WS_CHAR => L.set [(' ', ' '), ('\t', '\t'), ('\r', '\r'), ('\n', '\n')]
  -- PS.g4:165
  | .LETTER => L.set [('a', 'z'), ('A', 'Z')]
  -- PS.g4:193-246
  | .GREEK_LETTER =>
    L.lit s%"\\char\"000391" ∥ L.lit s%"\\alpha" ∥ L.lit s%"\\char\"000392" ∥ L.lit s%"\\beta" ∥
    L.lit s%"\\Gamma" ∥ L.lit s%"\\gamma" ∥ L.lit s%"\\Delta" ∥ L.lit s%"\\delta" ∥
    L.lit s%"\\char\"000190" ∥ L.lit s%"\\epsilon" ∥ L.lit s%"\\varepsilon" ∥
    L.lit s%"\\char\"000396" ∥ L.lit s%"\\zeta" ∥ L.lit s%"\\char\"000397" ∥ L.lit s%"\\eta" ∥
    L.lit s%"\\Theta" ∥ L.lit s%"\\theta" ∥ L.lit s%"\\vartheta" ∥ L.lit s%"\\char\"000399" ∥
    L.lit s%"\\iota" ∥ L.lit s%"\\char\"00039A" ∥ L.lit s%"\\kappa" ∥ L.lit s%"\\Lambda" ∥
    L.lit s%"\\lambda" ∥ L.lit s%"\\char\"00039C" ∥ L.lit s%"\\mu" ∥ L.lit s%"\\char\"00039D" ∥
    L.lit s%"\\nu" ∥ L.lit s%"\\Xi" ∥ L.lit s%"\\xi" ∥ L.lit s%"\\char\"00039F" ∥ L.lit s%"\\omicron" ∥
    L.lit s%"\\Pi" ∥ L.lit s%"\\varpi" ∥ L.lit s%"\\char\"0003A1" ∥ L.lit s%"\\rho" ∥
    L.lit s%"\\varrho" ∥ L.lit s%"\\Sigma" ∥ L.lit s%"\\sigma" ∥ L.lit s%"\\varsigma" ∥
    L.lit s%"\\char\"0003A4" ∥ L.lit s%"\\tau" ∥ L.lit s%"\\Upsilon" ∥ L.lit s%"\\upsilon" ∥
    L.lit s%"\\Phi" ∥ L.lit s%"\\phi" ∥ L.lit s%"\\varphi" ∥ L.lit s%"\\char\"0003A7" ∥
    L.lit s%"\\chi" ∥ L.lit s%"\\Psi" ∥ L.lit s%"\\psi" ∥ L.lit s%"\\Omega" ∥ L.lit s%"\\omega"
  -- PS.g4:250-293
  | .OTHER_SYMBOL =>
    L.lit s%"\\Bbbk" ∥ L.lit s%"\\wp" ∥ L.lit s%"\\nabla" ∥ L.lit s%"\\bigstar" ∥ L.lit s%"\\angle" ∥
    L.lit s%"\\nexists" ∥ L.lit s%"\\diagdown" ∥ L.lit s%"\\measuredangle" ∥ L.lit s%"\\eth" ∥
    L.lit s%"\\diagup" ∥ L.lit s%"\\sphericalangle" ∥ L.lit s%"\\clubsuit" ∥ L.lit s%"\\varnothing" ∥
    L.lit s%"\\Diamond" ∥ L.lit s%"\\complement" ∥ L.lit s%"\\diamondsuit" ∥ L.lit s%"\\imath" ∥
    L.lit s%"\\Finv" ∥ L.lit s%"\\triangledown" ∥ L.lit s%"\\heartsuit" ∥ L.lit s%"\\jmath" ∥
    L.lit s%"\\Game" ∥ L.lit s%"\\triangle" ∥ L.lit s%"\\spadesuit" ∥ L.lit s%"\\ell" ∥
    L.lit s%"\\hbar" ∥ L.lit s%"\\vartriangle" ∥ L.lit s%"\\hslash" ∥ L.lit s%"\\blacklozenge" ∥
    L.lit s%"\\lozenge" ∥ L.lit s%"\\blacksquare" ∥ L.lit s%"\\mho" ∥ L.lit s%"\\blacktriangle" ∥
    L.lit s%"\\sharp" ∥ L.lit s%"\\prime" ∥ L.lit s%"\\Im" ∥ L.lit s%"\\flat" ∥ L.lit s%"\\square" ∥
    L.lit s%"\\backprime" ∥ L.lit s%"\\Re" ∥ L.lit s%"\\natural" ∥ L.lit s%"\\surd" ∥
    L.lit s%"\\circledS"
  -- PS.g4:296
  | .PI => L.lit s%"\\pi"
  -- PS.g4:297
  | .INFTY_CMD => L.lit s%"\\infty"
  -- PS.g4:298
  | .PARTIAL_CMD => L.lit s%"\\partial"
  -- PS.g4:299
  | .INFTY =>
    L.frag .INFTY_CMD ∥ L.rule .DOLLAR_SIGN ⬝ L.frag .INFTY_CMD ∥ L.frag .INFTY_CMD ⬝
    L.rule .PERCENT_SIGN
  -- PS.g4:300
  | .EMPTYSET => L.lit s%"\\emptyset"
  -- PS.g4:303
  | .VARIABLE_CMD => L.lit s%"\\variable"
  -- PS.g4:304
  | .VARIABLE_SYMBOL =>
    (L.rule .GREEK_CMD ∥ L.rule .OTHER_SYMBOL_CMD ∥ L.frag .LETTER ∥ L.rule .DIGIT).plus ⬝
    (L.rule .UNDERSCORE ⬝ (L.rule .L_BRACE ⬝ (L.rule .GREEK_CMD ∥ L.rule .OTHER_SYMBOL_CMD ∥
    L.frag .LETTER ∥ L.rule .DIGIT ∥ L.rule .COMMA).plus ⬝ L.rule .R_BRACE ∥ (L.rule .GREEK_CMD ∥
    L.rule .OTHER_SYMBOL_CMD ∥ L.frag .LETTER ∥ L.rule .DIGIT))).opt

/-- the lexer rules (PS.g4:7-353) -/
def lexical : Kind → L
  -- PS.g4:309
  | .T0 => L.lit s%"\\acute"
  -- PS.g4:310
  | .T1 => L.lit s%"\\bar"
  -- PS.g4:311
  | .T2 => L.lit s%"\\overline"
  -- PS.g4:312
  | .T3 => L.lit s%"\\breve"
  -- PS.g4:313
  | .T4 => L.lit s%"\\check"
  -- PS.g4:314
  | .T5 => L.lit s%"\\widecheck"
  -- PS.g4:315
  | .T6 => L.lit s%"\\dot"
  -- PS.g4:316
  | .T7 => L.lit s%"\\ddot"
  -- PS.g4:317
  | .T8 => L.lit s%"\\grave"
  -- PS.g4:318
  | .T9 => L.lit s%"\\hat"
  -- PS.g4:319
  | .T10 => L.lit s%"\\tilde"
  -- PS.g4:320
  | .T11 => L.lit s%"\\widetilde"
  -- PS.g4:321
  | .T12 => L.lit s%"\\vec"
  -- PS.g4:322
  | .T13 => L.lit s%"\\overrightarrow"
  -- PS.g4:323
  | .T14 => L.lit s%"\\bm"
  -- PS.g4:324
  | .T15 => L.lit s%"\\boldsymbol"
  -- PS.g4:325
  | .T16 => L.lit s%"\\text"
  -- PS.g4:326
  | .T17 => L.lit s%"\\textit"
  -- PS.g4:327
  | .T18 => L.lit s%"\\mathbb"
  -- PS.g4:328
  | .T19 => L.lit s%"\\mathbin"
  -- PS.g4:329
  | .T20 => L.lit s%"\\mathbf"
  -- PS.g4:330
  | .T21 => L.lit s%"\\mathcal"
  -- PS.g4:331
  | .T22 => L.lit s%"\\mathclap"
  -- PS.g4:332
  | .T23 => L.lit s%"\\mathclose"
  -- PS.g4:333
  | .T24 => L.lit s%"\\mathellipsis"
  -- PS.g4:334
  | .T25 => L.lit s%"\\mathfrak"
  -- PS.g4:335
  | .T26 => L.lit s%"\\mathinner"
  -- PS.g4:337
  | .T27 => L.lit s%"\\mathnormal"
  -- PS.g4:338
  | .T28 => L.lit s%"\\mathop"
  -- PS.g4:339
  | .T29 => L.lit s%"\\mathopen"
  -- PS.g4:340
  | .T30 => L.lit s%"\\mathord"
  -- PS.g4:341
  | .T31 => L.lit s%"\\mathpunct"
  -- PS.g4:342
  | .T32 => L.lit s%"\\mathrel"
  -- PS.g4:343
  | .T33 => L.lit s%"\\mathring"
  -- PS.g4:344
  | .T34 => L.lit s%"\\mathrlap"
  -- PS.g4:345
  | .T35 => L.lit s%"\\mathrm"
  -- PS.g4:346
  | .T36 => L.lit s%"\\mathscr"
  -- PS.g4:347
  | .T37 => L.lit s%"\\mathsf"
  -- PS.g4:348
  | .T38 => L.lit s%"\\mathsterling"
  -- PS.g4:349
  | .T39 => L.lit s%"\\mathtt"
  -- PS.g4:353
  | .T40 => L.lit s%"^T"
  -- PS.g4:353
  | .T41 => L.lit s%"^{T}"
  -- PS.g4:353
  | .T42 => L.lit s%"^\\top"
  -- PS.g4:353
  | .T43 => L.lit s%"^{\\top}"
  -- PS.g4:353
  | .T44 => L.lit s%"'"
  -- PS.g4:7
  | .WS => (L.set [(' ', ' '), ('\t', '\t'), ('\r', '\r'), ('\n', '\n')]).plus
  -- PS.g4:8
  | .DOLLAR_SIGN => L.lit s%"\\$"
  -- PS.g4:10
  | .ADD => L.lit s%"+"
  -- PS.g4:11
  | .SUB => L.lit s%"-"
  -- PS.g4:12
  | .MUL => L.lit s%"*"
  -- PS.g4:13
  | .DIV => L.lit s%"/" ∥ L.lit s%"\\over"
  -- PS.g4:15
  | .L_PAREN => L.lit s%"("
  -- PS.g4:16
  | .R_PAREN => L.lit s%")"
  -- PS.g4:17
  | .L_GROUP => L.lit s%"\\lgroup"
  -- PS.g4:18
  | .R_GROUP => L.lit s%"\\rgroup"
  -- PS.g4:19
  | .L_BRACE => L.lit s%"{"
  -- PS.g4:20
  | .R_BRACE => L.lit s%"}"
  -- PS.g4:21
  | .L_BRACE_VISUAL => L.lit s%"\\{"
  -- PS.g4:22
  | .R_BRACE_VISUAL => L.lit s%"\\}"
  -- PS.g4:23
  | .L_BRACE_CMD => L.lit s%"\\lbrace"
  -- PS.g4:24
  | .R_BRACE_CMD => L.lit s%"\\rbrace"
  -- PS.g4:25
  | .L_BRACKET => L.lit s%"["
  -- PS.g4:26
  | .R_BRACKET => L.lit s%"]"
  -- PS.g4:27
  | .L_BRACK => L.lit s%"\\lbrack"
  -- PS.g4:28
  | .R_BRACK => L.lit s%"\\rbrack"
  -- PS.g4:30
  | .BAR => L.lit s%"|"
  -- PS.g4:31
  | .L_VERT => L.lit s%"\\lvert"
  -- PS.g4:32
  | .R_VERT => L.lit s%"\\rvert"
  -- PS.g4:33
  | .VERT => L.lit s%"\\vert"
  -- PS.g4:35
  | .NORM => L.lit s%"\\|"
  -- PS.g4:37
  | .L_FLOOR => L.lit s%"\\lfloor"
  -- PS.g4:38
  | .R_FLOOR => L.lit s%"\\rfloor"
  -- PS.g4:39
  | .LL_CORNER => L.lit s%"\\llcorner"
  -- PS.g4:40
  | .LR_CORNER => L.lit s%"\\lrcorner"
  -- PS.g4:42
  | .L_CEIL => L.lit s%"\\lceil"
  -- PS.g4:43
  | .R_CEIL => L.lit s%"\\rceil"
  -- PS.g4:44
  | .UL_CORNER => L.lit s%"\\ulcorner"
  -- PS.g4:45
  | .UR_CORNER => L.lit s%"\\urcorner"
  -- PS.g4:47
  | .L_LEFT => L.lit s%"\\left"
  -- PS.g4:48
  | .R_RIGHT => L.lit s%"\\right"
  -- PS.g4:49
  | .ML_LEFT => L.lit s%"\\mleft"
  -- PS.g4:50
  | .MR_RIGHT => L.lit s%"\\mright"
  -- PS.g4:53
  | .FUNC_LIM => L.lit s%"\\lim"
  -- PS.g4:54
  | .LIM_APPROACH_SYM =>
    L.lit s%"\\to" ∥ L.lit s%"\\rightarrow" ∥ L.lit s%"\\Rightarrow" ∥ L.lit s%"\\longrightarrow" ∥
    L.lit s%"\\Longrightarrow"
  -- PS.g4:55
  | .FUNC_INT => L.lit s%"\\int"
  -- PS.g4:56
  | .FUNC_SUM => L.lit s%"\\sum"
  -- PS.g4:57
  | .FUNC_PROD => L.lit s%"\\prod"
  -- PS.g4:59
  | .FUNC_LOG => L.lit s%"\\log"
  -- PS.g4:60
  | .FUNC_LN => L.lit s%"\\ln"
  -- PS.g4:61
  | .FUNC_EXP => L.lit s%"\\exp"
  -- PS.g4:62
  | .FUNC_SIN => L.lit s%"\\sin"
  -- PS.g4:63
  | .FUNC_COS => L.lit s%"\\cos"
  -- PS.g4:64
  | .FUNC_TAN => L.lit s%"\\tan"
  -- PS.g4:65
  | .FUNC_CSC => L.lit s%"\\csc"
  -- PS.g4:66
  | .FUNC_SEC => L.lit s%"\\sec"
  -- PS.g4:67
  | .FUNC_COT => L.lit s%"\\cot"
  -- PS.g4:69
  | .FUNC_ARCSIN => L.lit s%"\\arcsin"
  -- PS.g4:70
  | .FUNC_ARCCOS => L.lit s%"\\arccos"
  -- PS.g4:71
  | .FUNC_ARCTAN => L.lit s%"\\arctan"
  -- PS.g4:72
  | .FUNC_ARCCSC => L.lit s%"\\arccsc"
  -- PS.g4:73
  | .FUNC_ARCSEC => L.lit s%"\\arcsec"
  -- PS.g4:74
  | .FUNC_ARCCOT => L.lit s%"\\arccot"
  -- PS.g4:76
  | .FUNC_SINH => L.lit s%"\\sinh"
  -- PS.g4:77
  | .FUNC_COSH => L.lit s%"\\cosh"
  -- PS.g4:78
  | .FUNC_TANH => L.lit s%"\\tanh"
  -- PS.g4:79
  | .FUNC_ARSINH => L.lit s%"\\arsinh"
  -- PS.g4:80
  | .FUNC_ARCOSH => L.lit s%"\\arcosh"
  -- PS.g4:81
  | .FUNC_ARTANH => L.lit s%"\\artanh"
  -- PS.g4:82
  | .FUNC_ARCSINH => L.lit s%"\\arcsinh"
  -- PS.g4:83
  | .FUNC_ARCCOSH => L.lit s%"\\arccosh"
  -- PS.g4:84
  | .FUNC_ARCTANH => L.lit s%"\\arctanh"
  -- PS.g4:86
  | .FUNC_ARSINH_NAME => L.lit s%"arsinh"
  -- PS.g4:87
  | .FUNC_ARCSINH_NAME => L.lit s%"arcsinh"
  -- PS.g4:88
  | .FUNC_ARCOSH_NAME => L.lit s%"arcosh"
  -- PS.g4:89
  | .FUNC_ARCCOSH_NAME => L.lit s%"arccosh"
  -- PS.g4:90
  | .FUNC_ARTANH_NAME => L.lit s%"artanh"
  -- PS.g4:91
  | .FUNC_ARCTANH_NAME => L.lit s%"arctanh"
  -- PS.g4:92
  | .FUNC_GCD_NAME => L.lit s%"gcd"
  -- PS.g4:93
  | .FUNC_LCM_NAME => L.lit s%"lcm"
  -- PS.g4:94
  | .FUNC_FLOOR_NAME => L.lit s%"floor"
  -- PS.g4:95
  | .FUNC_CEIL_NAME => L.lit s%"ceil"
  -- PS.g4:97
  | .FUNC_SQRT => L.lit s%"\\sqrt"
  -- PS.g4:98
  | .FUNC_GCD => L.lit s%"\\gcd"
  -- PS.g4:99
  | .FUNC_LCM => L.lit s%"\\lcm"
  -- PS.g4:100
  | .FUNC_FLOOR => L.lit s%"\\floor"
  -- PS.g4:101
  | .FUNC_CEIL => L.lit s%"\\ceil"
  -- PS.g4:102
  | .FUNC_MAX => L.lit s%"\\max"
  -- PS.g4:103
  | .FUNC_MIN => L.lit s%"\\min"
  -- PS.g4:105
  | .FUNC_DET => L.lit s%"\\det"
  -- PS.g4:107
  | .FUNC_EYE_NAME => L.lit s%"eye"
  -- PS.g4:108
  | .FUNC_ZEROS_NAME => L.lit s%"zeros"
  -- PS.g4:109
  | .FUNC_ONES_NAME => L.lit s%"ones"
  -- PS.g4:110
  | .FUNC_COLS_NAME => L.lit s%"cols"
  -- PS.g4:111
  | .FUNC_ROWS_NAME => L.lit s%"rows"
  -- PS.g4:112
  | .FUNC_DIAG_NAME => L.lit s%"diag"
  -- PS.g4:113
  | .FUNC_NORM_NAME => L.lit s%"norm"
  -- PS.g4:114
  | .FUNC_RANK_NAME => L.lit s%"rank"
  -- PS.g4:115
  | .FUNC_TRACE_NAME => L.lit s%"trace" ∥ L.lit s%"tr"
  -- PS.g4:116
  | .FUNC_RREF_NAME => L.lit s%"rref"
  -- PS.g4:117
  | .FUNC_HSTACK_NAME => L.lit s%"hstack"
  -- PS.g4:118
  | .FUNC_VSTACK_NAME => L.lit s%"vstack"
  -- PS.g4:119
  | .FUNC_ORTHOGONALIZE_NAME =>
    L.lit s%"orth" ∥ L.lit s%"ortho" ∥ L.lit s%"orthogonal" ∥ L.lit s%"orthogonalize"
  -- PS.g4:120
  | .FUNC_NULLSPACE_NAME => L.lit s%"nullspace"
  -- PS.g4:121
  | .FUNC_DIAGONALIZE_NAME => L.lit s%"eig" ∥ L.lit s%"eigen" ∥ L.lit s%"diagonalize"
  -- PS.g4:122
  | .FUNC_EIGENVALS_NAME => L.lit s%"eigenvals" ∥ L.lit s%"eigenvalues"
  -- PS.g4:123
  | .FUNC_EIGENVECTORS_NAME => L.lit s%"eigenvects" ∥ L.lit s%"eigenvectors"
  -- PS.g4:124
  | .FUNC_SVD_NAME => L.lit s%"svd" ∥ L.lit s%"SVD"
  -- PS.g4:127
  | .CMD_TIMES => L.lit s%"\\times"
  -- PS.g4:128
  | .CMD_CDOT => L.lit s%"\\cdot"
  -- PS.g4:129
  | .CMD_DIV => L.lit s%"\\div"
  -- PS.g4:130
  | .CMD_FRAC => L.lit s%"\\frac"
  -- PS.g4:131
  | .CMD_BINOM => L.lit s%"\\binom" ∥ L.lit s%"\\tbinom" ∥ L.lit s%"\\dbinom"
  -- PS.g4:132
  | .CMD_CHOOSE => L.lit s%"\\choose"
  -- PS.g4:133
  | .CMD_MOD => L.lit s%"\\mod"
  -- PS.g4:135
  | .CMD_MATHIT => L.lit s%"\\mathit"
  -- PS.g4:137
  | .CMD_OPERATORNAME => L.lit s%"\\operatorname"
  -- PS.g4:140
  | .MATRIX_TYPE_MATRIX => L.lit s%"matrix"
  -- PS.g4:141
  | .MATRIX_TYPE_PMATRIX => L.lit s%"pmatrix"
  -- PS.g4:142
  | .MATRIX_TYPE_BMATRIX => L.lit s%"bmatrix"
  -- PS.g4:143
  | .MATRIX_TYPE_DET => L.lit s%"vmatrix"
  -- PS.g4:144
  | .MATRIX_TYPES =>
    L.rule .MATRIX_TYPE_MATRIX ∥ L.rule .MATRIX_TYPE_PMATRIX ∥ L.rule .MATRIX_TYPE_BMATRIX
  -- PS.g4:145
  | .CMD_MATRIX_START => L.lit s%"\\begin" ⬝ L.rule .L_BRACE ⬝ L.rule .MATRIX_TYPES ⬝ L.rule .R_BRACE
  -- PS.g4:146
  | .CMD_MATRIX_END => L.lit s%"\\end" ⬝ L.rule .L_BRACE ⬝ L.rule .MATRIX_TYPES ⬝ L.rule .R_BRACE
  -- PS.g4:147
  | .CMD_DET_START => L.lit s%"\\begin" ⬝ L.rule .L_BRACE ⬝ L.rule .MATRIX_TYPE_DET ⬝ L.rule .R_BRACE
  -- PS.g4:148
  | .CMD_DET_END => L.lit s%"\\end" ⬝ L.rule .L_BRACE ⬝ L.rule .MATRIX_TYPE_DET ⬝ L.rule .R_BRACE
  -- PS.g4:149
  | .MATRIX_DEL_COL => L.lit s%"&"
  -- PS.g4:150
  | .MATRIX_DEL_ROW => L.lit s%"\\\\"
  -- PS.g4:152
  | .UNDERSCORE => L.lit s%"_"
  -- PS.g4:153
  | .CARET => L.lit s%"^"
  -- PS.g4:154
  | .COLON => L.lit s%":"
  -- PS.g4:155
  | .SEMICOLON => L.lit s%";"
  -- PS.g4:156
  | .COMMA => L.lit s%","
  -- PS.g4:157
  | .PERIOD => L.lit s%"."
  -- PS.g4:160
  | .DIFFERENTIAL =>
    L.lit s%"d" ⬝ (L.frag .WS_CHAR).star ⬝ (L.set [('a', 'z'), ('A', 'Z')] ∥ L.lit s%"\\" ⬝
    (L.set [('a', 'z'), ('A', 'Z')]).plus) ⬝ (L.rule .UNDERSCORE ⬝ (L.rule .DIGIT ∥ L.rule .L_BRACE ⬝
    (L.rule .DIGIT).plus ⬝ L.rule .R_BRACE)).opt
  -- PS.g4:162
  | .EXP_E => L.lit s%"e" ∥ L.lit s%"\\exponentialE"
  -- PS.g4:163
  | .E_NOTATION_E => L.lit s%"E"
  -- PS.g4:164
  | .LETTER_NO_E => L.set [('a', 'd'), ('f', 'z'), ('A', 'D'), ('F', 'Z')]
  -- PS.g4:167
  | .DIGIT => L.set [('0', '9')]
  -- PS.g4:169
  | .MATRIX_XRIGHTARROW => L.lit s%"\\xrightarrow" ∥ L.lit s%"\\xRightarrow"
  -- PS.g4:170
  | .TRANSFORM_EXCHANGE =>
    L.lit s%"<->" ∥ L.lit s%"<=>" ∥ L.lit s%"\\leftrightarrow" ∥ L.lit s%"\\Leftrightarrow"
  -- PS.g4:178
  | .IN => L.lit s%"\\in"
  -- PS.g4:179
  | .ASSIGNMENT => L.lit s%"="
  -- PS.g4:180
  | .EQUAL => L.lit s%"==" ∥ L.lit s%"\\equiv"
  -- PS.g4:181
  | .LT => L.lit s%"<"
  -- PS.g4:182
  | .LTE => L.lit s%"\\leq" ∥ L.lit s%"\\le" ∥ L.lit s%"\\leqslant"
  -- PS.g4:183
  | .GT => L.lit s%">"
  -- PS.g4:184
  | .GTE => L.lit s%"\\geq" ∥ L.lit s%"\\ge" ∥ L.lit s%"\\geqslant"
  -- PS.g4:185
  | .UNEQUAL => L.lit s%"!=" ∥ L.lit s%"!==" ∥ L.lit s%"\\ne" ∥ L.lit s%"\\neq" ∥ L.lit s%"\\not\\equiv"
  -- PS.g4:187
  | .BANG => L.lit s%"!"
  -- PS.g4:189
  | .PERCENT_SIGN => L.lit s%"\\%"
  -- PS.g4:248
  | .GREEK_CMD => L.frag .GREEK_LETTER ⬝ (L.set [(' ', ' ')]).opt
  -- PS.g4:294
  | .OTHER_SYMBOL_CMD => L.frag .OTHER_SYMBOL ⬝ (L.set [(' ', ' ')]).opt
  -- PS.g4:301
  | .SYMBOL => L.frag .PI ∥ L.frag .PARTIAL_CMD ∥ L.frag .INFTY ∥ L.frag .EMPTYSET
  -- PS.g4:305
  | .VARIABLE =>
    L.frag .VARIABLE_CMD ⬝ L.rule .L_BRACE ⬝ L.frag .VARIABLE_SYMBOL ⬝ L.rule .R_BRACE ⬝
    (L.rule .PERCENT_SIGN).opt

/-- the order of the rules: first the texts between quotes in parser rules, then the lexer rules as they
follow each other in the file (PS.g4:7-353, gen/PSLexer.tokens:1-194) -/
def order : List Kind := [
  .T0, .T1, .T2, .T3, .T4, .T5, .T6, .T7, .T8, .T9, .T10, .T11, .T12, .T13, .T14, .T15, .T16, .T17,
  .T18, .T19, .T20, .T21, .T22, .T23, .T24, .T25, .T26, .T27, .T28, .T29, .T30, .T31, .T32, .T33,
  .T34, .T35, .T36, .T37, .T38, .T39, .T40, .T41, .T42, .T43, .T44, .WS, .DOLLAR_SIGN, .ADD, .SUB,
  .MUL, .DIV, .L_PAREN, .R_PAREN, .L_GROUP, .R_GROUP, .L_BRACE, .R_BRACE, .L_BRACE_VISUAL,
  .R_BRACE_VISUAL, .L_BRACE_CMD, .R_BRACE_CMD, .L_BRACKET, .R_BRACKET, .L_BRACK, .R_BRACK, .BAR,
  .L_VERT, .R_VERT, .VERT, .NORM, .L_FLOOR, .R_FLOOR, .LL_CORNER, .LR_CORNER, .L_CEIL, .R_CEIL,
  .UL_CORNER, .UR_CORNER, .L_LEFT, .R_RIGHT, .ML_LEFT, .MR_RIGHT, .FUNC_LIM, .LIM_APPROACH_SYM,
  .FUNC_INT, .FUNC_SUM, .FUNC_PROD, .FUNC_LOG, .FUNC_LN, .FUNC_EXP, .FUNC_SIN, .FUNC_COS, .FUNC_TAN,
  .FUNC_CSC, .FUNC_SEC, .FUNC_COT, .FUNC_ARCSIN, .FUNC_ARCCOS, .FUNC_ARCTAN, .FUNC_ARCCSC,
  .FUNC_ARCSEC, .FUNC_ARCCOT, .FUNC_SINH, .FUNC_COSH, .FUNC_TANH, .FUNC_ARSINH, .FUNC_ARCOSH,
  .FUNC_ARTANH, .FUNC_ARCSINH, .FUNC_ARCCOSH, .FUNC_ARCTANH, .FUNC_ARSINH_NAME, .FUNC_ARCSINH_NAME,
  .FUNC_ARCOSH_NAME, .FUNC_ARCCOSH_NAME, .FUNC_ARTANH_NAME, .FUNC_ARCTANH_NAME, .FUNC_GCD_NAME,
  .FUNC_LCM_NAME, .FUNC_FLOOR_NAME, .FUNC_CEIL_NAME, .FUNC_SQRT, .FUNC_GCD, .FUNC_LCM, .FUNC_FLOOR,
  .FUNC_CEIL, .FUNC_MAX, .FUNC_MIN, .FUNC_DET, .FUNC_EYE_NAME, .FUNC_ZEROS_NAME, .FUNC_ONES_NAME,
  .FUNC_COLS_NAME, .FUNC_ROWS_NAME, .FUNC_DIAG_NAME, .FUNC_NORM_NAME, .FUNC_RANK_NAME,
  .FUNC_TRACE_NAME, .FUNC_RREF_NAME, .FUNC_HSTACK_NAME, .FUNC_VSTACK_NAME, .FUNC_ORTHOGONALIZE_NAME,
  .FUNC_NULLSPACE_NAME, .FUNC_DIAGONALIZE_NAME, .FUNC_EIGENVALS_NAME, .FUNC_EIGENVECTORS_NAME,
  .FUNC_SVD_NAME, .CMD_TIMES, .CMD_CDOT, .CMD_DIV, .CMD_FRAC, .CMD_BINOM, .CMD_CHOOSE, .CMD_MOD,
  .CMD_MATHIT, .CMD_OPERATORNAME, .MATRIX_TYPE_MATRIX, .MATRIX_TYPE_PMATRIX, .MATRIX_TYPE_BMATRIX,
  .MATRIX_TYPE_DET, .MATRIX_TYPES, .CMD_MATRIX_START, .CMD_MATRIX_END, .CMD_DET_START, .CMD_DET_END,
  .MATRIX_DEL_COL, .MATRIX_DEL_ROW, .UNDERSCORE, .CARET, .COLON, .SEMICOLON, .COMMA, .PERIOD,
  .DIFFERENTIAL, .EXP_E, .E_NOTATION_E, .LETTER_NO_E, .DIGIT, .MATRIX_XRIGHTARROW,
  .TRANSFORM_EXCHANGE, .IN, .ASSIGNMENT, .EQUAL, .LT, .LTE, .GT, .GTE, .UNEQUAL, .BANG,
  .PERCENT_SIGN, .GREEK_CMD, .OTHER_SYMBOL_CMD, .SYMBOL, .VARIABLE]

/-- the rules with the action `skip` (PS.g4:7-8) -/
def skipped : List Kind := [.WS, .DOLLAR_SIGN]

/-- The texts that the right-hand side of a rule stands for. -/
inductive Forms : L → Str → Prop
  | lit {s} : Forms (.lit s) s
  | set {rs a b c} : (a, b) ∈ rs → a ≤ c → c ≤ b → Forms (.set rs) [c]
  | rule {k s} : Forms (lexical k) s → Forms (.rule k) s
  | frag {f s} : Forms (fragment f) s → Forms (.frag f) s
  | seq {a b s u} : Forms a s → Forms b u → Forms (.seq a b) (s ++ u)
  | altL {a b s} : Forms a s → Forms (.alt a b) s
  | altR {a b s} : Forms b s → Forms (.alt a b) s
  | optNone {a} : Forms (.opt a) []
  | optSome {a s} : Forms a s → Forms (.opt a) s
  | starNil {a} : Forms (.star a) []
  | starCons {a s u} : Forms a s → Forms (.star a) u → Forms (.star a) (s ++ u)
  | plus {a s u} : Forms a s → Forms (.star a) u → Forms (.plus a) (s ++ u)

/-- At the beginning of the text `s` the longest text of a rule is `w`, and `k` is the first rule that
stands for `w`. -/
def FirstLongest (s : Str) (k : Kind) (w : Str) : Prop :=
  w ≠ [] ∧ w <+: s ∧ Forms (lexical k) w ∧
  (∃ pre post, order = pre ++ k :: post ∧ ∀ k' ∈ pre, ¬ Forms (lexical k') w) ∧
  ∀ w', w' <+: s → w.length < w'.length → ∀ k', ¬ Forms (lexical k') w'

end Verif.PS
