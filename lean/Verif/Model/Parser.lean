import Verif.Model.Lexer
import Verif.Model.Latex2Sympy
/-
Model of the parser generated from /repo/latex2sympy/PS.g4 (gen/PSParser.py).

ANTLR's ALL(*) parser takes, at every decision, the first alternative with which the rest of the input
can be parsed (loops and options prefer to go on).  So the tree it builds is the first complete parse
in the order of the alternatives.  Here every grammar rule is a function returning all its parses in
this order (`P`), and `parseTokens` is the first one that uses all tokens.  If there is none, ANTLR
may raise an exception or, as the rule `math` does not require the end of the input, accept a part of
it; `parseTokens` is `none` then.

Left-recursive rules are loops, as ANTLR generates them (e.g. gen/PSParser.py `additive`, with
`precpred` and a right operand of higher precedence): binary operators associate to the left.
Chain rules are elided as in `L2S.T`.  The recursion is bounded by the first argument of `rule`; the
bound used by `parseTokens` has no influence on the result (`C91_bound`).
-/

namespace Verif.Grammar
open Verif Verif.L2S

/-- A parser: all parses of a beginning of the tokens, with the remaining tokens, in the order of
preference (gen/PSParser.py, `adaptivePredict`). -/
def P (α : Type) := List Tok → List (α × List Tok)

instance : Monad P where
  pure a := fun ts => [(a, ts)]
  bind p f := fun ts => (p ts).flatMap fun x => f x.1 x.2

namespace P
variable {α β : Type}

/-- alternatives, in order (PS.g4:351-642) -/
def or (p q : P α) : P α := fun ts => p ts ++ q ts

/-- list of alternatives, in order (PS.g4:351-642) -/
def choice : List (P α) → P α
  | [] => fun _ => []
  | p :: ps => fun ts => p ts ++ choice ps ts

/-- `p?` (PS.g4:351-642) -/
def opt (p : P α) : P (Option α) := fun ts => ((p ts).map fun x => (some x.1, x.2)) ++ [(none, ts)]

/-- `p*` with at most `n` iterations (PS.g4:351-642) -/
def manyGo (p : P α) : Nat → P (List α)
  | 0 => fun ts => [([], ts)]
  | n + 1 => fun ts =>
    ((p ts).flatMap fun x => (manyGo p n x.2).map fun y => (x.1 :: y.1, y.2)) ++ [([], ts)]

/-- `p*`; every iteration uses a token (PS.g4:351-642) -/
def many (p : P α) : P (List α) := fun ts => manyGo p ts.length ts

/-- `p+` (PS.g4:351-642) -/
def plus (p : P α) : P (List α) := do
  let x ← p
  let xs ← many p
  pure (x :: xs)

/-- result and tokens used (the source interval of a context, latex2sympy2.py:733-741) -/
def used (p : P α) : P (α × List Tok) := fun ts =>
  (p ts).map fun x => ((x.1, ts.take (ts.length - x.2.length)), x.2)

end P

/-- a token of the given type (gen/PSParser.py, `self.match`) -/
def tk (k : Kind) : P Tok
  | [] => []
  | t :: ts => if t.kind = k then [(t, ts)] else []

/-- a token of one of the given types (gen/PSParser.py, `self._la in {...}`) -/
def oneOf (ks : List Kind) : P Tok
  | [] => []
  | t :: ts => if t.kind ∈ ks then [(t, ts)] else []

/-- `getText()`: the texts of the tokens, without skipped text (latex2sympy2.py:634, 673, 923) -/
def textOf (ts : List Tok) : Str := ts.flatMap (·.text)

/-- `rule2text`: the source text, with skipped text between the tokens (latex2sympy2.py:733-741) -/
def sourceOf : List Tok → Str
  | [] => []
  | t :: ts => t.text ++ ts.flatMap fun u => u.gap ++ u.text

/-- token types inspected by `convert_frac` (latex2sympy2.py:752-774) -/
def tokKind : Kind → TokKind
  | .DIFFERENTIAL => .differential
  | .SYMBOL => .symbol
  | .LETTER_NO_E => .letterNoE
  | _ => .other

/-- what `convert_frac` inspects of numerator and denominator (latex2sympy2.py:746-783) -/
def spanOf (ts : List Tok) : Option Span :=
  match ts.head?, ts.getLast? with
  | some a, some b =>
    some ⟨tokKind a.kind, a.text, tokKind b.kind, b.text, ts.length == 1, ts.length, sourceOf ts⟩
  | _, _ => none

/-! ### Grammar rules -/

/-- `number` without its value: the tokens (PS.g4:172) -/
def numberToks : P (List Tok) :=
  P.or
    (do let ds ← P.plus (tk .DIGIT)
        let gs ← P.many (do
          let c ← tk .COMMA
          let a ← tk .DIGIT
          let b ← tk .DIGIT
          let d ← tk .DIGIT
          pure [c, a, b, d])
        let f ← P.opt (do
          let p ← tk .PERIOD
          let es ← P.plus (tk .DIGIT)
          pure (p :: es))
        pure (ds ++ gs.flatten ++ f.getD []))
    (do let p ← tk .PERIOD
        let es ← P.plus (tk .DIGIT)
        pure (p :: es))

/-- text of `number` (PS.g4:172) -/
def numberText : P Str := do
  let ts ← numberToks
  pure (textOf ts)

/-- text of `e_notation` (PS.g4:176) -/
def eNotation : P Str := do
  let ts ← numberToks
  let e ← tk .E_NOTATION_E
  let s ← P.opt (oneOf [.SUB, .ADD])
  let ds ← P.plus (tk .DIGIT)
  pure (textOf (ts ++ e :: (s.toList ++ ds)))

/-- text of `percent_number` (PS.g4:190) -/
def percentNumber : P Str := do
  let ts ← numberToks
  let p ← tk .PERCENT_SIGN
  pure (textOf (ts ++ [p]))

/-- the accents, `accent_symbol` (PS.g4:308-349) -/
def accentKinds : List Kind :=
  [.T0, .T1, .T2, .T3, .T4, .T5, .T6, .T7, .T8, .T9, .T10, .T11, .T12, .T13, .T14, .T15, .T16, .T17,
   .T18, .T19, .T20, .T21, .T22, .T23, .T24, .T25, .T26, .CMD_MATHIT, .T27, .T28, .T29, .T30, .T31,
   .T32, .T33, .T34, .T35, .T36, .T37, .T38, .T39]

/-- Rules that call each other: `expr` (= `additive`), `mp`, `mp_nofunc`, `unary`, `unary_nofunc`,
`atom` (PS.g4:397-417, 535). -/
inductive NT where
  | expr | mp | mpNf | unary | unaryNf | atom
deriving DecidableEq

section
variable (rec : NT → P T)

/-- `L_BRACE expr R_BRACE` (PS.g4:438, 556, 613, 639) -/
def braced : P T := do
  let _ ← tk .L_BRACE
  let e ← rec .expr
  let _ ← tk .R_BRACE
  pure e

/-- `args` (PS.g4:621) with at most `n` items; only the text matters -/
def argsGo : Nat → P Unit
  | 0 => fun _ => []
  | n + 1 => P.or
    (do let _ ← rec .expr
        let _ ← tk .COMMA
        argsGo n)
    (do let _ ← rec .expr
        pure ())

/-- `args` (PS.g4:621) -/
def args : P Unit := fun ts => argsGo rec ts.length ts

/-- `subexpr` (PS.g4:638): tree (`T.args` for several arguments) and text -/
def subexpr : P (T × Str) := do
  let _ ← tk .UNDERSCORE
  P.or
    (do let x ← P.used (rec .atom)
        pure (x.1, textOf x.2))
    (do let _ ← tk .L_BRACE
        let x ← P.used (P.or (rec .expr) (do
          let _ ← args rec
          pure T.args))
        let _ ← tk .R_BRACE
        pure (x.1, textOf x.2))

/-- `supexpr` (PS.g4:639) -/
def supexpr : P T := do
  let _ ← tk .CARET
  P.or (rec .atom) (braced rec)

/-- `accent` (PS.g4:529-531) -/
def accent : P NameTok := do
  let a ← oneOf accentKinds
  let _ ← tk .L_BRACE
  let x ← P.used (rec .expr)
  let _ ← tk .R_BRACE
  pure (.accent a.text (textOf x.2))

/-- `LETTER_NO_E | GREEK_CMD | OTHER_SYMBOL_CMD | accent` (PS.g4:533-534) -/
def nameTok : P NameTok := P.choice [
  (do let t ← tk .LETTER_NO_E
      pure (.letter t.text)),
  (do let t ← tk .GREEK_CMD
      pure (.greek t.text)),
  (do let t ← tk .OTHER_SYMBOL_CMD
      pure (.other t.text)),
  accent rec]

/-- `atom_expr_no_supexpr` (PS.g4:533); only the text matters -/
def atomExprNoSup : P Str := do
  let x ← P.used (do
    let _ ← nameTok rec
    let _ ← P.opt (subexpr rec)
    pure ())
  pure (textOf x.2)

/-- `atom_expr` (PS.g4:534) -/
def atomExpr : P T := do
  let b ← nameTok rec
  P.choice [
    (do let p ← supexpr rec
        let s ← subexpr rec
        pure (.name b (some s.2) (some p))),
    (do let s ← subexpr rec
        let p ← supexpr rec
        pure (.name b (some s.2) (some p))),
    (do let s ← subexpr rec
        pure (.name b (some s.2) none)),
    (do let p ← supexpr rec
        pure (.name b none (some p))),
    pure (.name b none none)]

/-- `mathit` (PS.g4:537-538) -/
def mathit : P T := do
  let _ ← tk .CMD_MATHIT
  let _ ← tk .L_BRACE
  let x ← P.plus (oneOf [.LETTER_NO_E, .E_NOTATION_E, .EXP_E])
  let _ ← tk .R_BRACE
  pure (.mathit (sourceOf x))

/-- numerator or denominator: `DIGIT | L_BRACE expr R_BRACE` (PS.g4:549-550) -/
def fracPart : P (T × Option Span) :=
  P.or
    (do let d ← tk .DIGIT
        pure (.digit d.text, none))
    (do let _ ← tk .L_BRACE
        let x ← P.used (rec .expr)
        let _ ← tk .R_BRACE
        pure (x.1, spanOf x.2))

/-- `frac` (PS.g4:549-550) -/
def frac : P T := do
  let _ ← tk .CMD_FRAC
  let u ← fracPart rec
  let l ← fracPart rec
  pure (.frac u.1 u.2 l.1 l.2)

/-- `atom` (PS.g4:535) -/
def atom : P T := P.choice [
  atomExpr rec,
  (do let t ← tk .SYMBOL
      pure (.symbol t.text)),
  (do let s ← eNotation
      pure (.enotation s)),
  (do let s ← percentNumber
      pure (.percent s)),
  (do let s ← numberText
      pure (.number s)),
  (do let t ← tk .DIFFERENTIAL
      pure (.differential t.text)),
  mathit,
  frac rec,
  (do let t ← tk .VARIABLE
      pure (.variable t.text))]

/-- an expression between two tokens (PS.g4:468-525) -/
def between (l r : List Kind) : P T := do
  let _ ← l.foldlM (fun _ k => do
    let _ ← tk k
    pure ()) ()
  let e ← rec .expr
  let _ ← r.foldlM (fun _ k => do
    let _ ← tk k
    pure ()) ()
  pure e

/-- brackets with and without `\left`, `\mleft` (PS.g4:468-525) -/
def enclosed (ps : List (Kind × Kind)) : P T := P.choice (
  (ps.map fun p => between rec [p.1] [p.2]) ++
  (ps.map fun p => between rec [.L_LEFT, p.1] [.R_RIGHT, p.2]) ++
  (ps.map fun p => between rec [.ML_LEFT, p.1] [.MR_RIGHT, p.2]))

/-- the brackets of `group` (PS.g4:468-489) -/
def groupKinds : List (Kind × Kind) :=
  [(.L_PAREN, .R_PAREN), (.L_GROUP, .R_GROUP), (.L_BRACE, .R_BRACE),
   (.L_BRACE_VISUAL, .R_BRACE_VISUAL), (.L_BRACE_CMD, .R_BRACE_CMD), (.L_BRACKET, .R_BRACKET),
   (.L_BRACK, .R_BRACK)]

/-- `group` (PS.g4:468-489) -/
def group : P T := do
  let e ← enclosed rec groupKinds
  pure (.group e)

/-- `norm_group` (PS.g4:492-495) -/
def normGroup : P T := do
  let e ← enclosed rec [(.NORM, .NORM)]
  pure (.norm e)

/-- `abs_group` (PS.g4:498-507) -/
def absGroup : P T := do
  let e ← enclosed rec [(.BAR, .BAR), (.L_VERT, .R_VERT), (.VERT, .VERT)]
  pure (.abs e)

/-- `floor_group` (PS.g4:510-516) -/
def floorGroup : P T := do
  let e ← enclosed rec [(.L_FLOOR, .R_FLOOR), (.LL_CORNER, .LR_CORNER)]
  pure (.floor e)

/-- `ceil_group` (PS.g4:519-525) -/
def ceilGroup : P T := do
  let e ← enclosed rec [(.L_CEIL, .R_CEIL), (.UL_CORNER, .UR_CORNER)]
  pure (.ceil e)

/-- `binom` (PS.g4:554-556) -/
def binom : P T := P.or
  (do let _ ← tk .L_BRACE
      let u ← rec .expr
      let _ ← tk .CMD_CHOOSE
      let l ← rec .expr
      let _ ← tk .R_BRACE
      pure (.binom u l))
  (do let _ ← tk .CMD_BINOM
      let u ← braced rec
      let l ← braced rec
      pure (.binom u l))

/-- `matrix_row` (PS.g4:373-374) -/
def matrixRow : P (List T) := do
  let e ← rec .expr
  let es ← P.many (do
    let _ ← tk .MATRIX_DEL_COL
    rec .expr)
  pure (e :: es)

/-- the rows of `matrix` and `det` (PS.g4:364, 370) -/
def matrixRows : P (List (List T)) := do
  let r ← matrixRow rec
  let rs ← P.many (do
    let _ ← tk .MATRIX_DEL_ROW
    matrixRow rec)
  let _ ← P.opt (tk .MATRIX_DEL_ROW)
  pure (r :: rs)

/-- `transform_atom` (PS.g4:355) -/
def transformAtom : P TrAtom := do
  let l ← tk .LETTER_NO_E
  let _ ← tk .UNDERSCORE
  P.or
    (do let n ← numberText
        pure ⟨l.text, n⟩)
    (do let _ ← tk .L_BRACE
        let n ← numberText
        let _ ← tk .R_BRACE
        pure ⟨l.text, n⟩)

/-- `transform_scale` (PS.g4:356): coefficient and row -/
def transformScale : P (T × TrAtom) := do
  let k ← P.choice [
    rec .expr,
    group rec,
    (do let _ ← tk .ADD
        pure T.kAdd),
    (do let _ ← tk .SUB
        pure T.kSub)]
  let a ← transformAtom
  pure (k, a)

/-- `elementary_transform` (PS.g4:357-359) -/
def elementaryTransform : P T := P.choice [
  (do let a ← transformAtom
      let s ← transformScale rec
      pure (.trAssign a s.1 s.2)),
  (do let s ← transformScale rec
      pure (.trScale s.1 s.2)),
  (do let a ← transformAtom
      let _ ← tk .TRANSFORM_EXCHANGE
      let b ← transformAtom
      pure (.trSwap a b))]

/-- `elementary_transforms` (PS.g4:360) -/
def elementaryTransforms : P (List T) := do
  let t ← elementaryTransform rec
  let ts ← P.many (do
    let _ ← tk .COMMA
    elementaryTransform rec)
  pure (t :: ts)

/-- `matrix` (PS.g4:362-366) -/
def matrix : P T := do
  let _ ← tk .CMD_MATRIX_START
  let rows ← matrixRows rec
  let _ ← tk .CMD_MATRIX_END
  let arrow ← P.opt (do
    let _ ← tk .MATRIX_XRIGHTARROW
    let a ← P.opt (do
      let _ ← tk .L_BRACKET
      let t ← elementaryTransforms rec
      let _ ← tk .R_BRACKET
      pure t)
    let _ ← tk .L_BRACE
    let b ← elementaryTransforms rec
    let _ ← tk .R_BRACE
    pure (a.toList ++ [b]))
  pure (.matrix rows (arrow.getD []))

/-- `det` (PS.g4:368-371) -/
def det : P T := do
  let _ ← tk .CMD_DET_START
  let rows ← matrixRows rec
  let _ ← tk .CMD_DET_END
  pure (.det rows)

/-- `func_normal_functions_single_arg` (PS.g4:558-567) -/
def singleKinds : List Kind :=
  [.FUNC_LOG, .FUNC_LN, .FUNC_EXP, .FUNC_SIN, .FUNC_COS, .FUNC_TAN, .FUNC_CSC, .FUNC_SEC, .FUNC_COT,
   .FUNC_ARCSIN, .FUNC_ARCCOS, .FUNC_ARCTAN, .FUNC_ARCCSC, .FUNC_ARCSEC, .FUNC_ARCCOT, .FUNC_SINH,
   .FUNC_COSH, .FUNC_TANH, .FUNC_ARSINH, .FUNC_ARCOSH, .FUNC_ARTANH, .FUNC_ARCSINH, .FUNC_ARCCOSH,
   .FUNC_ARCTANH, .FUNC_FLOOR, .FUNC_CEIL, .FUNC_DET]

/-- `func_normal_functions_multi_arg` (PS.g4:569-570) -/
def multiKinds : List Kind := [.FUNC_GCD, .FUNC_LCM, .FUNC_MAX, .FUNC_MIN]

/-- `func_operator_names_single_arg` (PS.g4:572-577) -/
def singleNames : List Kind :=
  [.FUNC_ARSINH_NAME, .FUNC_ARCOSH_NAME, .FUNC_ARTANH_NAME, .FUNC_ARCSINH_NAME, .FUNC_ARCCOSH_NAME,
   .FUNC_ARCTANH_NAME, .FUNC_FLOOR_NAME, .FUNC_CEIL_NAME, .FUNC_EYE_NAME, .FUNC_RANK_NAME,
   .FUNC_TRACE_NAME, .FUNC_RREF_NAME, .FUNC_NULLSPACE_NAME, .FUNC_DIAGONALIZE_NAME, .FUNC_NORM_NAME,
   .FUNC_EIGENVALS_NAME, .FUNC_EIGENVECTORS_NAME, .FUNC_SVD_NAME, .FUNC_COLS_NAME, .FUNC_ROWS_NAME]

/-- `func_operator_names_multi_arg` (PS.g4:579-581) -/
def multiNames : List Kind :=
  [.FUNC_GCD_NAME, .FUNC_LCM_NAME, .FUNC_ZEROS_NAME, .FUNC_ORTHOGONALIZE_NAME, .FUNC_ONES_NAME,
   .FUNC_DIAG_NAME, .FUNC_HSTACK_NAME, .FUNC_VSTACK_NAME]

/-- `func_normal_single_arg`, `func_normal_multi_arg` (PS.g4:583-591): the name without its backslash,
and the operator name -/
def funcName (ks ns : List Kind) : P (Str × Str) := P.or
  (do let t ← oneOf ks
      pure (t.text.drop 1, []))
  (do let c ← tk .CMD_OPERATORNAME
      let _ ← tk .L_BRACE
      let t ← oneOf ns
      let _ ← tk .R_BRACE
      pure (c.text.drop 1, t.text))

/-- `(subexpr? supexpr? | supexpr? subexpr?)` (PS.g4:595, 599) -/
def subSup : P (Option (T × Str) × Option T) := P.or
  (do let s ← P.opt (subexpr rec)
      let p ← P.opt (supexpr rec)
      pure (s, p))
  (do let p ← P.opt (supexpr rec)
      let s ← P.opt (subexpr rec)
      pure (s, p))

/-- `L_LEFT? L_PAREN ... R_RIGHT? R_PAREN | ML_LEFT? L_PAREN ... MR_RIGHT? R_PAREN`
(PS.g4:596, 600) -/
def parenthesised {α : Type} (p : P α) : P α := P.or
  (do let _ ← P.opt (tk .L_LEFT)
      let _ ← tk .L_PAREN
      let a ← p
      let _ ← P.opt (tk .R_RIGHT)
      let _ ← tk .R_PAREN
      pure a)
  (do let _ ← P.opt (tk .ML_LEFT)
      let _ ← tk .L_PAREN
      let a ← p
      let _ ← P.opt (tk .MR_RIGHT)
      let _ ← tk .R_PAREN
      pure a)

/-- `func_multi_arg` with at most `n` items; only the text matters (PS.g4:635) -/
def multiArgGo : Nat → P Unit
  | 0 => fun _ => []
  | n + 1 => P.or
    (do let _ ← rec .expr
        pure ())
    (do let _ ← rec .expr
        let _ ← tk .COMMA
        multiArgGo n)

/-- text of `func_multi_arg` (PS.g4:635) -/
def multiArg : P Str := do
  let x ← P.used (fun ts => multiArgGo rec ts.length ts)
  pure (textOf x.2)

/-- text of `func_common_args` (PS.g4:623) -/
def commonArgs : P Str := do
  let x ← P.used (P.choice [
    (do let _ ← rec .atom
        pure ()),
    (do let _ ← rec .expr
        let _ ← tk .COMMA
        pure ()),
    (do let _ ← rec .expr
        let _ ← tk .COMMA
        args rec)])
  pure (textOf x.2)

/-- `L_LEFT? (L_PAREN | L_BRACKET) func_common_args (R_PAREN | R_BRACKET) R_RIGHT?`
(PS.g4:603, 605) -/
def callArgs : P Str := do
  let _ ← P.opt (tk .L_LEFT)
  let _ ← oneOf [.L_PAREN, .L_BRACKET]
  let a ← commonArgs rec
  let _ ← oneOf [.R_PAREN, .R_BRACKET]
  let _ ← P.opt (tk .R_RIGHT)
  pure a

/-- `equality` (PS.g4:394-395) -/
def equality : P (T × T) := do
  let l ← rec .expr
  let _ ← oneOf [.EQUAL, .ASSIGNMENT]
  let r ← rec .expr
  pure (l, r)

/-- `subeq` (PS.g4:641) -/
def subeq : P (T × T) := do
  let _ ← tk .UNDERSCORE
  let _ ← tk .L_BRACE
  let e ← equality rec
  let _ ← tk .R_BRACE
  pure e

/-- the limits of an integral: lower, upper (PS.g4:608) -/
def intLimits : P (Option T × Option T) := P.choice [
  (do let s ← subexpr rec
      let p ← supexpr rec
      pure (some s.1, some p)),
  (do let p ← supexpr rec
      let s ← subexpr rec
      pure (some s.1, some p)),
  (do let _ ← tk .UNDERSCORE
      let _ ← tk .L_BRACE
      let _ ← tk .R_BRACE
      let _ ← tk .CARET
      let _ ← tk .L_BRACE
      let _ ← tk .R_BRACE
      pure (none, none)),
  (do let _ ← tk .CARET
      let _ ← tk .L_BRACE
      let _ ← tk .R_BRACE
      let _ ← tk .UNDERSCORE
      let _ ← tk .L_BRACE
      let _ ← tk .R_BRACE
      pure (none, none))]

/-- integrand and differential (PS.g4:609) -/
def integrand : P (Option T × Option Str) := P.choice [
  (do let b ← P.opt (rec .expr)
      let d ← tk .DIFFERENTIAL
      pure (b, some d.text)),
  (do let b ← frac rec
      pure (some b, none)),
  (do let b ← rec .expr
      pure (some b, none))]

/-- `limit_sub` (PS.g4:625-630): variable, direction, limit point -/
def limitSub : P (NameTok × Option Bool × T) := do
  let _ ← tk .UNDERSCORE
  let _ ← tk .L_BRACE
  let v ← P.choice [
    (do let t ← tk .LETTER_NO_E
        pure (NameTok.letter t.text)),
    (do let t ← tk .GREEK_CMD
        pure (NameTok.greek t.text)),
    (do let t ← tk .OTHER_SYMBOL_CMD
        pure (NameTok.other t.text))]
  let _ ← tk .LIM_APPROACH_SYM
  let e ← rec .expr
  let d ← P.opt (do
    let _ ← tk .CARET
    let _ ← tk .L_BRACE
    let s ← oneOf [.ADD, .SUB]
    let _ ← tk .R_BRACE
    pure (decide (s.kind = .SUB)))
  let _ ← tk .R_BRACE
  pure (v, d, e)

/-- `func` (PS.g4:593-619) -/
def func : P T := P.choice [
  (do let n ← funcName singleKinds singleNames
      let s ← subSup rec
      let a ← P.or (parenthesised (rec .expr)) (rec .mpNf)
      pure (.fnSingle n.1 n.2 (s.1.map (·.1)) s.2 a)),
  (do let n ← funcName multiKinds multiNames
      let s ← subSup rec
      let a ← P.or
        (do let t ← parenthesised (multiArg rec)
            pure (true, t))
        (do let x ← P.used (rec .mpNf)
            pure (false, textOf x.2))
      pure (.fnMulti n.1 n.2 a.1 a.2 s.2)),
  (do let n ← atomExprNoSup rec
      let p ← P.opt (supexpr rec)
      let a ← callArgs rec
      pure (.fnApply n a p)),
  (do let n ← atomExprNoSup rec
      let p ← P.opt (supexpr rec)
      let _ ← tk .L_BRACE
      let a ← callArgs rec
      let _ ← tk .R_BRACE
      pure (.fnApply n a p)),
  (do let _ ← tk .FUNC_INT
      let l ← P.opt (intLimits rec)
      let b ← integrand rec
      pure (.integral b.1 b.2 (l.bind (·.1)) (l.bind (·.2)))),
  (do let _ ← tk .FUNC_SQRT
      let r ← P.opt (do
        let _ ← tk .L_BRACKET
        let r ← rec .expr
        let _ ← tk .R_BRACKET
        pure r)
      let b ← P.or
        (do let d ← tk .DIGIT
            pure (T.digit d.text))
        (braced rec)
      pure (.sqrt b r)),
  (do let f ← oneOf [.FUNC_SUM, .FUNC_PROD]
      let l ← P.or
        (do let e ← subeq rec
            let p ← supexpr rec
            pure (e, p))
        (do let p ← supexpr rec
            let e ← subeq rec
            pure (e, p))
      let b ← rec .mp
      pure (.sumProd (decide (f.kind = .FUNC_SUM)) b l.1.1 l.1.2 l.2)),
  (do let _ ← tk .FUNC_LIM
      let l ← limitSub rec
      let b ← rec .mp
      pure (.lim l.1 l.2.1 l.2.2 b)),
  (do let _ ← tk .EXP_E
      let p ← P.opt (supexpr rec)
      pure (.expE p))]

/-- `comp`, and `comp_nofunc` without functions (PS.g4:445-466) -/
def comp (fn : Bool) : P T := P.choice (
  [group rec, normGroup rec, absGroup rec, floorGroup rec, ceilGroup rec] ++
  (if fn then [func rec] else []) ++
  [atom rec, binom rec, matrix rec, det rec])

/-- `exp`, `exp_nofunc` (PS.g4:437-443): powers associate to the left; a subscript after the exponent
is not used by the converter -/
def exp (fn : Bool) : P T := do
  let b ← comp rec fn
  let es ← P.many (do
    let _ ← tk .CARET
    let e ← P.or (rec .atom) (braced rec)
    let _ ← P.opt (subexpr rec)
    pure e)
  pure (es.foldl .pow b)

/-- content of `eval_at_sub`, `eval_at_sup` (PS.g4:427-435) -/
def evalAtPart (k : Kind) : P T := do
  let _ ← tk k
  let _ ← tk .L_BRACE
  let e ← P.or (rec .expr) (do
    let e ← equality rec
    pure (.eqn e.1 e.2))
  let _ ← tk .R_BRACE
  pure e

/-- `transpose` (PS.g4:353) -/
def transposeKinds : List Kind := [.T40, .T41, .T42, .T43, .T44]

/-- `postfix_op` (PS.g4:422-425), as a function on trees -/
def postfixOp : P (T → T) := P.choice [
  (do let _ ← tk .BANG
      pure T.bang),
  (do let _ ← tk .BAR
      P.choice [
        (do let p ← evalAtPart rec .CARET
            pure fun e => T.evalAt e (some p) none),
        (do let s ← evalAtPart rec .UNDERSCORE
            pure fun e => T.evalAt e none (some s)),
        (do let p ← evalAtPart rec .CARET
            let s ← evalAtPart rec .UNDERSCORE
            pure fun e => T.evalAt e (some p) (some s))]),
  (do let _ ← oneOf transposeKinds
      pure T.transp)]

/-- `postfix`, `postfix_nofunc` (PS.g4:420-421) -/
def postfix' (fn : Bool) : P T := do
  let e ← exp rec fn
  let ops ← P.many (postfixOp rec)
  pure (ops.foldl (fun t f => f t) e)

/-- operators of products (PS.g4:405, 409) -/
def mulKinds : List Kind := [.MUL, .CMD_TIMES, .CMD_CDOT, .DIV, .CMD_DIV, .COLON, .CMD_MOD]

/-- the tree of a product (PS.g4:405, 409; latex2sympy2.py:392-419) -/
def mulTree (k : Kind) (l r : T) : T :=
  if k ∈ [.MUL, .CMD_TIMES, .CMD_CDOT] then .mul l r else
  if k ∈ [.DIV, .CMD_DIV, .COLON] then .div l r else .mod l r

/-- the tree of a sum (PS.g4:399-400) -/
def addTree (k : Kind) (l r : T) : T := if k = .ADD then .add l r else .sub l r

/-- the tree of a sign (PS.g4:413, 417) -/
def signTree (k : Kind) (u : T) : T := if k = .ADD then .pos u else .neg u

/-- a left-associative chain of operators (PS.g4:400, 405, 409, gen/PSParser.py) -/
def chain (ks : List Kind) (mk : Kind → T → T → T) (p : P T) : P T := do
  let t ← p
  let us ← P.many (do
    let o ← oneOf ks
    let u ← p
    pure (o.kind, u))
  pure (us.foldl (fun t u => mk u.1 t u.2) t)

/-- the rules that call each other (PS.g4:397-421, 535) -/
def body : NT → P T
  | .expr => chain [.ADD, .SUB] addTree (rec .mp)
  | .mp => chain mulKinds mulTree (rec .unary)
  | .mpNf => chain mulKinds mulTree (rec .unaryNf)
  | .unary => P.or
    (do let s ← oneOf [.ADD, .SUB]
        let u ← rec .unary
        pure (signTree s.kind u))
    (do let ps ← P.plus (postfix' rec true)
        pure (.juxt ps))
  | .unaryNf => P.or
    (do let s ← oneOf [.ADD, .SUB]
        let u ← rec .unaryNf
        pure (signTree s.kind u))
    (do let p ← postfix' rec true
        let ps ← P.many (postfix' rec false)
        pure (.juxt (p :: ps)))
  | .atom => atom rec

end

/-- the grammar rules, with bounded recursion (PS.g4:397-421, 535) -/
def rule : Nat → NT → P T
  | 0, _ => fun _ => []
  | n + 1, nt => body (rule n) nt

/-- relation tokens (PS.g4:377) -/
def relTok : Kind → Option RelTok
  | .IN => some .isIn
  | .ASSIGNMENT => some .assignment
  | .EQUAL => some .equal
  | .LT => some .lt
  | .LTE => some .lte
  | .GT => some .gt
  | .GTE => some .gte
  | .UNEQUAL => some .unequal
  | _ => none

/-- `relation` (PS.g4:376-378) -/
def relation (n : Nat) : P T :=
  chain [.IN, .ASSIGNMENT, .EQUAL, .LT, .LTE, .GT, .GTE, .UNEQUAL]
    (fun k l r => match relTok k with
      | some o => .rel o l r
      | none => l) (rule n .expr)

/-- `relation_list_content` (PS.g4:390-392) -/
def relationItems (n : Nat) : P (List T) := P.choice
  ([.COMMA, .SEMICOLON].map fun k => do
    let a ← relation n
    let _ ← tk k
    let b ← relation n
    let cs ← P.many (do
      let _ ← tk k
      relation n)
    pure (a :: b :: cs))

/-- the content of a list between tokens (PS.g4:382-388) -/
def itemsBetween (n : Nat) (l r : List Kind) : P (List T) := do
  let _ ← l.foldlM (fun _ k => do
    let _ ← tk k
    pure ()) ()
  let e ← relationItems n
  let _ ← r.foldlM (fun _ k => do
    let _ ← tk k
    pure ()) ()
  pure e

/-- `relation_list` (PS.g4:380-388) -/
def relationList (n : Nat) : P (List T) := P.choice [
  relationItems n,
  itemsBetween n [.L_BRACKET] [.R_BRACKET],
  itemsBetween n [.L_BRACE] [.R_BRACE],
  itemsBetween n [.L_BRACE_VISUAL] [.R_BRACE_VISUAL],
  itemsBetween n [.L_LEFT, .L_BRACKET] [.R_RIGHT, .R_BRACKET],
  itemsBetween n [.L_LEFT, .L_BRACE_VISUAL] [.R_RIGHT, .R_BRACE_VISUAL],
  itemsBetween n [.ML_LEFT, .L_BRACKET] [.MR_RIGHT, .R_BRACKET],
  itemsBetween n [.ML_LEFT, .L_BRACE_VISUAL] [.MR_RIGHT, .R_BRACE_VISUAL]]

/-- `math` (PS.g4:351) -/
def math (n : Nat) : P MathTree := P.or
  (do let t ← relation n
      pure (.one t))
  (do let ts ← relationList n
      pure (.list ts))

/-- The parse of a list of tokens: the first one that uses all of them (latex2sympy2.py:92-103). -/
def parseTokens (ts : List Tok) : Option MathTree :=
  ((math (4 * ts.length + 4) ts).find? (·.2.isEmpty)).map (·.1)

/-- The parse of a text (latex2sympy2.py:86-103). -/
def parseText (s : Str) : Option MathTree := (lex s).bind parseTokens

end Verif.Grammar
