import Verif.Model.Lexer
/-
The parser rules of /repo/latex2sympy/PS.g4, as data: every rule is written as in the file, with `⬝`
between consecutive parts, `∥` for `|`, `.opt`, `.star`, `.plus` for `?`, `*`, `+`, `t` before token
types and `r` before names of rules.  Texts between quotes are the token types they define
(`','` is COMMA; the accents are T0, ..., T39, the transposition signs T40, ..., T44).  `Derives` is the
usual meaning of such a grammar.  Nothing here refers to the parser.
-/

namespace Verif.PS
open Verif.Grammar (Kind)

/-- the names of the parser rules (PS.g4:172-642) -/
inductive R where
  | number | e_notation | percent_number | accent_symbol | math | transpose | transform_atom
  | transform_scale | transform_swap | transform_assignment | elementary_transform
  | elementary_transforms | matrix | det | matrix_row | relation | relation_list
  | relation_list_content | equality | expr | additive | mp | mp_nofunc | unary | unary_nofunc
  | postfix | postfix_nofunc | postfix_op | eval_at | eval_at_sub | eval_at_sup | exp | exp_nofunc
  | comp | comp_nofunc | group | norm_group | abs_group | floor_group | ceil_group | accent
  | atom_expr_no_supexpr | atom_expr | atom | mathit | mathit_text | frac | binom
  | func_normal_functions_single_arg | func_normal_functions_multi_arg
  | func_operator_names_single_arg | func_operator_names_multi_arg | func_normal_single_arg
  | func_normal_multi_arg | func | args | func_common_args | limit_sub | func_single_arg
  | func_single_arg_noparens | func_multi_arg | func_multi_arg_noparens | subexpr | supexpr | subeq
  | supeq
deriving DecidableEq

/-- right-hand sides of rules (PS.g4:172-642) -/
inductive E where
  | tok (k : Kind)
  | rule (r : R)
  | seq (a b : E)
  | alt (a b : E)
  | opt (a : E)
  | star (a : E)
  | plus (a : E)

/-- a token (PS.g4:172-642) -/
abbrev t (k : Kind) : E := .tok k

/-- a rule (PS.g4:172-642) -/
abbrev r (x : R) : E := .rule x

/-- consecutive parts -/
scoped infixr:65 " ⬝ " => E.seq
/-- alternatives -/
scoped infixr:60 " ∥ " => E.alt

/-- the parser rules (PS.g4:172-642) -/
def grammar : R → E
  -- PS.g4:172
  | .number =>
    (t .DIGIT).plus ⬝ (t .COMMA ⬝ t .DIGIT ⬝ t .DIGIT ⬝ t .DIGIT).star ⬝ (t .PERIOD ⬝
    (t .DIGIT).plus).opt ∥ t .PERIOD ⬝ (t .DIGIT).plus
  -- PS.g4:176
  | .e_notation =>
    r .number ⬝ t .E_NOTATION_E ⬝ (t .SUB ∥ t .ADD).opt ⬝ (t .DIGIT).plus
  -- PS.g4:190
  | .percent_number =>
    r .number ⬝ t .PERCENT_SIGN
  -- PS.g4:308-349
  | .accent_symbol =>
    t .T0 ∥ t .T1 ∥ t .T2 ∥ t .T3 ∥ t .T4 ∥ t .T5 ∥ t .T6 ∥ t .T7 ∥ t .T8 ∥ t .T9 ∥ t .T10 ∥ t .T11 ∥
    t .T12 ∥ t .T13 ∥ t .T14 ∥ t .T15 ∥ t .T16 ∥ t .T17 ∥ t .T18 ∥ t .T19 ∥ t .T20 ∥ t .T21 ∥ t .T22 ∥
    t .T23 ∥ t .T24 ∥ t .T25 ∥ t .T26 ∥ t .CMD_MATHIT ∥ t .T27 ∥ t .T28 ∥ t .T29 ∥ t .T30 ∥ t .T31 ∥
    t .T32 ∥ t .T33 ∥ t .T34 ∥ t .T35 ∥ t .T36 ∥ t .T37 ∥ t .T38 ∥ t .T39
  -- PS.g4:351
  | .math =>
    r .relation ∥ r .relation_list
  -- PS.g4:353
  | .transpose =>
    t .T40 ∥ t .T41 ∥ t .T42 ∥ t .T43 ∥ t .T44
  -- PS.g4:355
  | .transform_atom =>
    t .LETTER_NO_E ⬝ t .UNDERSCORE ⬝ (r .number ∥ t .L_BRACE ⬝ r .number ⬝ t .R_BRACE)
  -- PS.g4:356
  | .transform_scale =>
    (r .expr ∥ r .group ∥ t .ADD ∥ t .SUB) ⬝ r .transform_atom
  -- PS.g4:357
  | .transform_swap =>
    r .transform_atom ⬝ t .TRANSFORM_EXCHANGE ⬝ r .transform_atom
  -- PS.g4:358
  | .transform_assignment =>
    r .transform_atom ⬝ r .transform_scale
  -- PS.g4:359
  | .elementary_transform =>
    r .transform_assignment ∥ r .transform_scale ∥ r .transform_swap
  -- PS.g4:360
  | .elementary_transforms =>
    r .elementary_transform ⬝ (t .COMMA ⬝ r .elementary_transform).star
  -- PS.g4:362-366
  | .matrix =>
    t .CMD_MATRIX_START ⬝ r .matrix_row ⬝ (t .MATRIX_DEL_ROW ⬝ r .matrix_row).star ⬝
    (t .MATRIX_DEL_ROW).opt ⬝ t .CMD_MATRIX_END ⬝ (t .MATRIX_XRIGHTARROW ⬝ (t .L_BRACKET ⬝
    r .elementary_transforms ⬝ t .R_BRACKET).opt ⬝ t .L_BRACE ⬝ r .elementary_transforms ⬝ t .R_BRACE).opt
  -- PS.g4:368-371
  | .det =>
    t .CMD_DET_START ⬝ r .matrix_row ⬝ (t .MATRIX_DEL_ROW ⬝ r .matrix_row).star ⬝ (t .MATRIX_DEL_ROW).opt ⬝
    t .CMD_DET_END
  -- PS.g4:373-374
  | .matrix_row =>
    r .expr ⬝ (t .MATRIX_DEL_COL ⬝ r .expr).star
  -- PS.g4:376-378
  | .relation =>
    r .relation ⬝ (t .IN ∥ t .ASSIGNMENT ∥ t .EQUAL ∥ t .LT ∥ t .LTE ∥ t .GT ∥ t .GTE ∥ t .UNEQUAL) ⬝
    r .relation ∥ r .expr
  -- PS.g4:380-388
  | .relation_list =>
    r .relation_list_content ∥ t .L_BRACKET ⬝ r .relation_list_content ⬝ t .R_BRACKET ∥ t .L_BRACE ⬝
    r .relation_list_content ⬝ t .R_BRACE ∥ t .L_BRACE_VISUAL ⬝ r .relation_list_content ⬝
    t .R_BRACE_VISUAL ∥ t .L_LEFT ⬝ t .L_BRACKET ⬝ r .relation_list_content ⬝ t .R_RIGHT ⬝ t .R_BRACKET ∥
    t .L_LEFT ⬝ t .L_BRACE_VISUAL ⬝ r .relation_list_content ⬝ t .R_RIGHT ⬝ t .R_BRACE_VISUAL ∥
    t .ML_LEFT ⬝ t .L_BRACKET ⬝ r .relation_list_content ⬝ t .MR_RIGHT ⬝ t .R_BRACKET ∥ t .ML_LEFT ⬝
    t .L_BRACE_VISUAL ⬝ r .relation_list_content ⬝ t .MR_RIGHT ⬝ t .R_BRACE_VISUAL
  -- PS.g4:390-392
  | .relation_list_content =>
    r .relation ⬝ t .COMMA ⬝ r .relation ⬝ (t .COMMA ⬝ r .relation).star ∥ r .relation ⬝ t .SEMICOLON ⬝
    r .relation ⬝ (t .SEMICOLON ⬝ r .relation).star
  -- PS.g4:394-395
  | .equality =>
    r .expr ⬝ (t .EQUAL ∥ t .ASSIGNMENT) ⬝ r .expr
  -- PS.g4:397
  | .expr =>
    r .additive
  -- PS.g4:399-401
  | .additive =>
    r .additive ⬝ (t .ADD ∥ t .SUB) ⬝ r .additive ∥ r .mp
  -- PS.g4:404-406
  | .mp =>
    r .mp ⬝ (t .MUL ∥ t .CMD_TIMES ∥ t .CMD_CDOT ∥ t .DIV ∥ t .CMD_DIV ∥ t .COLON ∥ t .CMD_MOD) ⬝ r .mp ∥
    r .unary
  -- PS.g4:408-410
  | .mp_nofunc =>
    r .mp_nofunc ⬝ (t .MUL ∥ t .CMD_TIMES ∥ t .CMD_CDOT ∥ t .DIV ∥ t .CMD_DIV ∥ t .COLON ∥ t .CMD_MOD) ⬝
    r .mp_nofunc ∥ r .unary_nofunc
  -- PS.g4:412-414
  | .unary =>
    (t .ADD ∥ t .SUB) ⬝ r .unary ∥ (r .postfix).plus
  -- PS.g4:416-418
  | .unary_nofunc =>
    (t .ADD ∥ t .SUB) ⬝ r .unary_nofunc ∥ r .postfix ⬝ (r .postfix_nofunc).star
  -- PS.g4:420
  | .postfix =>
    r .exp ⬝ (r .postfix_op).star
  -- PS.g4:421
  | .postfix_nofunc =>
    r .exp_nofunc ⬝ (r .postfix_op).star
  -- PS.g4:422
  | .postfix_op =>
    t .BANG ∥ r .eval_at ∥ r .transpose
  -- PS.g4:424-425
  | .eval_at =>
    t .BAR ⬝ (r .eval_at_sup ∥ r .eval_at_sub ∥ r .eval_at_sup ⬝ r .eval_at_sub)
  -- PS.g4:427-430
  | .eval_at_sub =>
    t .UNDERSCORE ⬝ t .L_BRACE ⬝ (r .expr ∥ r .equality) ⬝ t .R_BRACE
  -- PS.g4:432-435
  | .eval_at_sup =>
    t .CARET ⬝ t .L_BRACE ⬝ (r .expr ∥ r .equality) ⬝ t .R_BRACE
  -- PS.g4:437-439
  | .exp =>
    r .exp ⬝ t .CARET ⬝ (r .atom ∥ t .L_BRACE ⬝ r .expr ⬝ t .R_BRACE) ⬝ (r .subexpr).opt ∥ r .comp
  -- PS.g4:441-443
  | .exp_nofunc =>
    r .exp_nofunc ⬝ t .CARET ⬝ (r .atom ∥ t .L_BRACE ⬝ r .expr ⬝ t .R_BRACE) ⬝ (r .subexpr).opt ∥
    r .comp_nofunc
  -- PS.g4:445-455
  | .comp =>
    r .group ∥ r .norm_group ∥ r .abs_group ∥ r .floor_group ∥ r .ceil_group ∥ r .func ∥ r .atom ∥
    r .binom ∥ r .matrix ∥ r .det
  -- PS.g4:457-466
  | .comp_nofunc =>
    r .group ∥ r .norm_group ∥ r .abs_group ∥ r .floor_group ∥ r .ceil_group ∥ r .atom ∥ r .binom ∥
    r .matrix ∥ r .det
  -- PS.g4:468-489
  | .group =>
    t .L_PAREN ⬝ r .expr ⬝ t .R_PAREN ∥ t .L_GROUP ⬝ r .expr ⬝ t .R_GROUP ∥ t .L_BRACE ⬝ r .expr ⬝
    t .R_BRACE ∥ t .L_BRACE_VISUAL ⬝ r .expr ⬝ t .R_BRACE_VISUAL ∥ t .L_BRACE_CMD ⬝ r .expr ⬝
    t .R_BRACE_CMD ∥ t .L_BRACKET ⬝ r .expr ⬝ t .R_BRACKET ∥ t .L_BRACK ⬝ r .expr ⬝ t .R_BRACK ∥
    t .L_LEFT ⬝ t .L_PAREN ⬝ r .expr ⬝ t .R_RIGHT ⬝ t .R_PAREN ∥ t .L_LEFT ⬝ t .L_GROUP ⬝ r .expr ⬝
    t .R_RIGHT ⬝ t .R_GROUP ∥ t .L_LEFT ⬝ t .L_BRACE ⬝ r .expr ⬝ t .R_RIGHT ⬝ t .R_BRACE ∥ t .L_LEFT ⬝
    t .L_BRACE_VISUAL ⬝ r .expr ⬝ t .R_RIGHT ⬝ t .R_BRACE_VISUAL ∥ t .L_LEFT ⬝ t .L_BRACE_CMD ⬝ r .expr ⬝
    t .R_RIGHT ⬝ t .R_BRACE_CMD ∥ t .L_LEFT ⬝ t .L_BRACKET ⬝ r .expr ⬝ t .R_RIGHT ⬝ t .R_BRACKET ∥
    t .L_LEFT ⬝ t .L_BRACK ⬝ r .expr ⬝ t .R_RIGHT ⬝ t .R_BRACK ∥ t .ML_LEFT ⬝ t .L_PAREN ⬝ r .expr ⬝
    t .MR_RIGHT ⬝ t .R_PAREN ∥ t .ML_LEFT ⬝ t .L_GROUP ⬝ r .expr ⬝ t .MR_RIGHT ⬝ t .R_GROUP ∥ t .ML_LEFT ⬝
    t .L_BRACE ⬝ r .expr ⬝ t .MR_RIGHT ⬝ t .R_BRACE ∥ t .ML_LEFT ⬝ t .L_BRACE_VISUAL ⬝ r .expr ⬝
    t .MR_RIGHT ⬝ t .R_BRACE_VISUAL ∥ t .ML_LEFT ⬝ t .L_BRACE_CMD ⬝ r .expr ⬝ t .MR_RIGHT ⬝
    t .R_BRACE_CMD ∥ t .ML_LEFT ⬝ t .L_BRACKET ⬝ r .expr ⬝ t .MR_RIGHT ⬝ t .R_BRACKET ∥ t .ML_LEFT ⬝
    t .L_BRACK ⬝ r .expr ⬝ t .MR_RIGHT ⬝ t .R_BRACK
  -- PS.g4:492-495
  | .norm_group =>
    t .NORM ⬝ r .expr ⬝ t .NORM ∥ t .L_LEFT ⬝ t .NORM ⬝ r .expr ⬝ t .R_RIGHT ⬝ t .NORM ∥ t .ML_LEFT ⬝
    t .NORM ⬝ r .expr ⬝ t .MR_RIGHT ⬝ t .NORM
  -- PS.g4:498-507
  | .abs_group =>
    t .BAR ⬝ r .expr ⬝ t .BAR ∥ t .L_VERT ⬝ r .expr ⬝ t .R_VERT ∥ t .VERT ⬝ r .expr ⬝ t .VERT ∥ t .L_LEFT ⬝
    t .BAR ⬝ r .expr ⬝ t .R_RIGHT ⬝ t .BAR ∥ t .L_LEFT ⬝ t .L_VERT ⬝ r .expr ⬝ t .R_RIGHT ⬝ t .R_VERT ∥
    t .L_LEFT ⬝ t .VERT ⬝ r .expr ⬝ t .R_RIGHT ⬝ t .VERT ∥ t .ML_LEFT ⬝ t .BAR ⬝ r .expr ⬝ t .MR_RIGHT ⬝
    t .BAR ∥ t .ML_LEFT ⬝ t .L_VERT ⬝ r .expr ⬝ t .MR_RIGHT ⬝ t .R_VERT ∥ t .ML_LEFT ⬝ t .VERT ⬝ r .expr ⬝
    t .MR_RIGHT ⬝ t .VERT
  -- PS.g4:510-516
  | .floor_group =>
    t .L_FLOOR ⬝ r .expr ⬝ t .R_FLOOR ∥ t .LL_CORNER ⬝ r .expr ⬝ t .LR_CORNER ∥ t .L_LEFT ⬝ t .L_FLOOR ⬝
    r .expr ⬝ t .R_RIGHT ⬝ t .R_FLOOR ∥ t .L_LEFT ⬝ t .LL_CORNER ⬝ r .expr ⬝ t .R_RIGHT ⬝ t .LR_CORNER ∥
    t .ML_LEFT ⬝ t .L_FLOOR ⬝ r .expr ⬝ t .MR_RIGHT ⬝ t .R_FLOOR ∥ t .ML_LEFT ⬝ t .LL_CORNER ⬝ r .expr ⬝
    t .MR_RIGHT ⬝ t .LR_CORNER
  -- PS.g4:519-525
  | .ceil_group =>
    t .L_CEIL ⬝ r .expr ⬝ t .R_CEIL ∥ t .UL_CORNER ⬝ r .expr ⬝ t .UR_CORNER ∥ t .L_LEFT ⬝ t .L_CEIL ⬝
    r .expr ⬝ t .R_RIGHT ⬝ t .R_CEIL ∥ t .L_LEFT ⬝ t .UL_CORNER ⬝ r .expr ⬝ t .R_RIGHT ⬝ t .UR_CORNER ∥
    t .ML_LEFT ⬝ t .L_CEIL ⬝ r .expr ⬝ t .MR_RIGHT ⬝ t .R_CEIL ∥ t .ML_LEFT ⬝ t .UL_CORNER ⬝ r .expr ⬝
    t .MR_RIGHT ⬝ t .UR_CORNER
  -- PS.g4:529-531
  | .accent =>
    r .accent_symbol ⬝ t .L_BRACE ⬝ r .expr ⬝ t .R_BRACE
  -- PS.g4:533
  | .atom_expr_no_supexpr =>
    (t .LETTER_NO_E ∥ t .GREEK_CMD ∥ t .OTHER_SYMBOL_CMD ∥ r .accent) ⬝ (r .subexpr).opt
  -- PS.g4:534
  | .atom_expr =>
    (t .LETTER_NO_E ∥ t .GREEK_CMD ∥ t .OTHER_SYMBOL_CMD ∥ r .accent) ⬝ (r .supexpr ⬝ r .subexpr ∥
    r .subexpr ⬝ r .supexpr ∥ r .subexpr ∥ r .supexpr).opt
  -- PS.g4:535
  | .atom =>
    r .atom_expr ∥ t .SYMBOL ∥ r .e_notation ∥ r .percent_number ∥ r .number ∥ t .DIFFERENTIAL ∥
    r .mathit ∥ r .frac ∥ t .VARIABLE
  -- PS.g4:537
  | .mathit =>
    t .CMD_MATHIT ⬝ t .L_BRACE ⬝ r .mathit_text ⬝ t .R_BRACE
  -- PS.g4:538
  | .mathit_text =>
    (t .LETTER_NO_E ∥ t .E_NOTATION_E ∥ t .EXP_E).plus
  -- PS.g4:549-550
  | .frac =>
    t .CMD_FRAC ⬝ (t .DIGIT ∥ t .L_BRACE ⬝ r .expr ⬝ t .R_BRACE) ⬝ (t .DIGIT ∥ t .L_BRACE ⬝ r .expr ⬝
    t .R_BRACE)
  -- PS.g4:554-556
  | .binom =>
    t .L_BRACE ⬝ r .expr ⬝ t .CMD_CHOOSE ⬝ r .expr ⬝ t .R_BRACE ∥ t .CMD_BINOM ⬝ t .L_BRACE ⬝ r .expr ⬝
    t .R_BRACE ⬝ t .L_BRACE ⬝ r .expr ⬝ t .R_BRACE
  -- PS.g4:558-567
  | .func_normal_functions_single_arg =>
    t .FUNC_LOG ∥ t .FUNC_LN ∥ t .FUNC_EXP ∥ t .FUNC_SIN ∥ t .FUNC_COS ∥ t .FUNC_TAN ∥ t .FUNC_CSC ∥
    t .FUNC_SEC ∥ t .FUNC_COT ∥ t .FUNC_ARCSIN ∥ t .FUNC_ARCCOS ∥ t .FUNC_ARCTAN ∥ t .FUNC_ARCCSC ∥
    t .FUNC_ARCSEC ∥ t .FUNC_ARCCOT ∥ t .FUNC_SINH ∥ t .FUNC_COSH ∥ t .FUNC_TANH ∥ t .FUNC_ARSINH ∥
    t .FUNC_ARCOSH ∥ t .FUNC_ARTANH ∥ t .FUNC_ARCSINH ∥ t .FUNC_ARCCOSH ∥ t .FUNC_ARCTANH ∥ t .FUNC_FLOOR ∥
    t .FUNC_CEIL ∥ t .FUNC_DET
  -- PS.g4:569-570
  | .func_normal_functions_multi_arg =>
    t .FUNC_GCD ∥ t .FUNC_LCM ∥ t .FUNC_MAX ∥ t .FUNC_MIN
  -- PS.g4:572-577
  | .func_operator_names_single_arg =>
    t .FUNC_ARSINH_NAME ∥ t .FUNC_ARCOSH_NAME ∥ t .FUNC_ARTANH_NAME ∥ t .FUNC_ARCSINH_NAME ∥
    t .FUNC_ARCCOSH_NAME ∥ t .FUNC_ARCTANH_NAME ∥ t .FUNC_FLOOR_NAME ∥ t .FUNC_CEIL_NAME ∥
    t .FUNC_EYE_NAME ∥ t .FUNC_RANK_NAME ∥ t .FUNC_TRACE_NAME ∥ t .FUNC_RREF_NAME ∥
    t .FUNC_NULLSPACE_NAME ∥ t .FUNC_DIAGONALIZE_NAME ∥ t .FUNC_NORM_NAME ∥ t .FUNC_EIGENVALS_NAME ∥
    t .FUNC_EIGENVECTORS_NAME ∥ t .FUNC_SVD_NAME ∥ t .FUNC_COLS_NAME ∥ t .FUNC_ROWS_NAME
  -- PS.g4:579-581
  | .func_operator_names_multi_arg =>
    t .FUNC_GCD_NAME ∥ t .FUNC_LCM_NAME ∥ t .FUNC_ZEROS_NAME ∥ t .FUNC_ORTHOGONALIZE_NAME ∥
    t .FUNC_ONES_NAME ∥ t .FUNC_DIAG_NAME ∥ t .FUNC_HSTACK_NAME ∥ t .FUNC_VSTACK_NAME
  -- PS.g4:583-586
  | .func_normal_single_arg =>
    r .func_normal_functions_single_arg ∥ t .CMD_OPERATORNAME ⬝ t .L_BRACE ⬝
    r .func_operator_names_single_arg ⬝ t .R_BRACE
  -- PS.g4:588-591
  | .func_normal_multi_arg =>
    r .func_normal_functions_multi_arg ∥ t .CMD_OPERATORNAME ⬝ t .L_BRACE ⬝
    r .func_operator_names_multi_arg ⬝ t .R_BRACE
  -- PS.g4:593-619
  | .func =>
    r .func_normal_single_arg ⬝ ((r .subexpr).opt ⬝ (r .supexpr).opt ∥ (r .supexpr).opt ⬝
    (r .subexpr).opt) ⬝ ((t .L_LEFT).opt ⬝ t .L_PAREN ⬝ r .func_single_arg ⬝ (t .R_RIGHT).opt ⬝
    t .R_PAREN ∥ (t .ML_LEFT).opt ⬝ t .L_PAREN ⬝ r .func_single_arg ⬝ (t .MR_RIGHT).opt ⬝ t .R_PAREN ∥
    r .func_single_arg_noparens) ∥ r .func_normal_multi_arg ⬝ ((r .subexpr).opt ⬝ (r .supexpr).opt ∥
    (r .supexpr).opt ⬝ (r .subexpr).opt) ⬝ ((t .L_LEFT).opt ⬝ t .L_PAREN ⬝ r .func_multi_arg ⬝
    (t .R_RIGHT).opt ⬝ t .R_PAREN ∥ (t .ML_LEFT).opt ⬝ t .L_PAREN ⬝ r .func_multi_arg ⬝ (t .MR_RIGHT).opt ⬝
    t .R_PAREN ∥ r .func_multi_arg_noparens) ∥ r .atom_expr_no_supexpr ⬝ (r .supexpr).opt ⬝
    (t .L_LEFT).opt ⬝ (t .L_PAREN ∥ t .L_BRACKET) ⬝ r .func_common_args ⬝ (t .R_PAREN ∥ t .R_BRACKET) ⬝
    (t .R_RIGHT).opt ∥ r .atom_expr_no_supexpr ⬝ (r .supexpr).opt ⬝ t .L_BRACE ⬝ (t .L_LEFT).opt ⬝
    (t .L_PAREN ∥ t .L_BRACKET) ⬝ r .func_common_args ⬝ (t .R_PAREN ∥ t .R_BRACKET) ⬝ (t .R_RIGHT).opt ⬝
    t .R_BRACE ∥ t .FUNC_INT ⬝ (r .subexpr ⬝ r .supexpr ∥ r .supexpr ⬝ r .subexpr ∥ (t .UNDERSCORE ⬝
    t .L_BRACE ⬝ t .R_BRACE) ⬝ (t .CARET ⬝ t .L_BRACE ⬝ t .R_BRACE) ∥ (t .CARET ⬝ t .L_BRACE ⬝
    t .R_BRACE) ⬝ (t .UNDERSCORE ⬝ t .L_BRACE ⬝ t .R_BRACE)).opt ⬝ ((r .additive).opt ⬝ t .DIFFERENTIAL ∥
    r .frac ∥ r .additive) ∥ t .FUNC_SQRT ⬝ (t .L_BRACKET ⬝ r .expr ⬝ t .R_BRACKET).opt ⬝ (t .DIGIT ∥
    t .L_BRACE ⬝ r .expr ⬝ t .R_BRACE) ∥ (t .FUNC_SUM ∥ t .FUNC_PROD) ⬝ (r .subeq ⬝ r .supexpr ∥
    r .supexpr ⬝ r .subeq) ⬝ r .mp ∥ t .FUNC_LIM ⬝ r .limit_sub ⬝ r .mp ∥ t .EXP_E ⬝ (r .supexpr).opt
  -- PS.g4:621
  | .args =>
    r .expr ⬝ t .COMMA ⬝ r .args ∥ r .expr
  -- PS.g4:623
  | .func_common_args =>
    r .atom ∥ r .expr ⬝ t .COMMA ∥ r .expr ⬝ t .COMMA ⬝ r .args
  -- PS.g4:625-630
  | .limit_sub =>
    t .UNDERSCORE ⬝ t .L_BRACE ⬝ (t .LETTER_NO_E ∥ t .GREEK_CMD ∥ t .OTHER_SYMBOL_CMD) ⬝
    t .LIM_APPROACH_SYM ⬝ r .expr ⬝ (t .CARET ⬝ t .L_BRACE ⬝ (t .ADD ∥ t .SUB) ⬝ t .R_BRACE).opt ⬝
    t .R_BRACE
  -- PS.g4:632
  | .func_single_arg =>
    r .expr
  -- PS.g4:633
  | .func_single_arg_noparens =>
    r .mp_nofunc
  -- PS.g4:635
  | .func_multi_arg =>
    r .expr ∥ r .expr ⬝ t .COMMA ⬝ r .func_multi_arg
  -- PS.g4:636
  | .func_multi_arg_noparens =>
    r .mp_nofunc
  -- PS.g4:638
  | .subexpr =>
    t .UNDERSCORE ⬝ (r .atom ∥ t .L_BRACE ⬝ (r .expr ∥ r .args) ⬝ t .R_BRACE)
  -- PS.g4:639
  | .supexpr =>
    t .CARET ⬝ (r .atom ∥ t .L_BRACE ⬝ r .expr ⬝ t .R_BRACE)
  -- PS.g4:641
  | .subeq =>
    t .UNDERSCORE ⬝ t .L_BRACE ⬝ r .equality ⬝ t .R_BRACE
  -- PS.g4:642
  | .supeq =>
    t .UNDERSCORE ⬝ t .L_BRACE ⬝ r .equality ⬝ t .R_BRACE

/-- `Derives e w`: the token types `w` are a phrase of the form `e`. -/
inductive Derives : E → List Kind → Prop
  | tok {k} : Derives (.tok k) [k]
  | rule {x w} : Derives (grammar x) w → Derives (.rule x) w
  | seq {a b u v} : Derives a u → Derives b v → Derives (.seq a b) (u ++ v)
  | left {a b w} : Derives a w → Derives (.alt a b) w
  | right {a b w} : Derives b w → Derives (.alt a b) w
  | none {a} : Derives (.opt a) []
  | some {a w} : Derives a w → Derives (.opt a) w
  | nil {a} : Derives (.star a) []
  | cons {a u v} : Derives a u → Derives (.star a) v → Derives (.star a) (u ++ v)
  | plus {a u v} : Derives a u → Derives (.star a) v → Derives (.plus a) (u ++ v)

end Verif.PS
