import Verif.Py.Regex
import Verif.Model.Env
/-
Model of /repo/latex2sympy/latex2sympy2.py: `latex2sympy`, the converter from ANTLR parse trees to
SymPy expressions, the module globals it reads and writes, and `latex`, `latex2latex`.

ANTLR (lexer and parser) is an arbitrary function from text to a parse tree or an exception.  The
parse tree keeps one constructor per grammar alternative of PS.g4; chain rules (`expr: additive`,
`additive: mp`, `mp: unary`, `comp: atom`, ...), whose conversion functions only pass the value on,
are elided, and the `_nofunc` copies of the rules share the constructors.

SymPy constructors called with `evaluate=False` are kept as nodes of the tree type `SV`; every
other SymPy call is an arbitrary external function (`Lib.call`) that may return anything, raise,
and change the library state.  Trusted facts about SymPy: `Add/Mul/Pow(..., evaluate=False)` on
scalar expressions return the node with exactly these arguments, `Rational(text)` of a decimal
literal is its exact value, and negation of a rational number is exact.

Simplifications: the name of a `MatrixSymbol` is its text; `MathErrorListener` only formats the
message of the exception; Python dictionaries are association lists (insertion prepends).
-/

namespace Verif.L2S
open Verif

/-! ### SymPy values -/

/-- The Python objects handled by the converter (the values of latex2sympy2.py:144-1077). -/
inductive SV where
  /-- `sympy.Rational` (and `Integer`) -/
  | num (q : Rat)
  /-- `sympy.Symbol(name, real=...)` -/
  | sym (name : Str) (real : Option Bool)
  /-- `sympy.I`, `oo`, `-oo`, `pi`, `E`, `EmptySet`, ... -/
  | const (name : Str)
  /-- `sympy.Add(*args, evaluate=False)` -/
  | add (args : List SV)
  /-- `sympy.Mul(*args, evaluate=False)` -/
  | mul (args : List SV)
  /-- `sympy.Pow(b, e, evaluate=False)` -/
  | pow (b e : SV)
  /-- another unevaluated scalar expression -/
  | fn (name : Str) (args : List SV)
  /-- an unevaluated `Sum`, `Product`, `Integral`, `Limit` or `Derivative`: the operator, the bound
  symbol, the body, and the bounds or the point -/
  | binder (op var : Str) (real : Option Bool) (body : SV) (args : List SV)
  /-- an explicit matrix -/
  | mat (rows : List (List SV))
  /-- `sympy.MatrixSymbol(name, n, m)` -/
  | matSym (name : Str) (n m : SV)
  /-- `sympy.MatAdd(*args, evaluate=False)` -/
  | matAdd (args : List SV)
  /-- `sympy.MatMul(*args, evaluate=False)` -/
  | matMul (args : List SV)
  /-- a relation -/
  | rel (op : Str) (l r : SV)
  /-- a Python list -/
  | list (xs : List SV)
  /-- a Python tuple or dict -/
  | tuple (xs : List SV)
  /-- Python `None` -/
  | none
deriving Repr, Inhabited

mutual
/-- SymPy structural equality `==`, used for the keys of `variances` (latex2sympy2.py:186, 188, 650);
`Rat` literals are compared by value -/
def SV.eqb : SV → SV → Bool
  | .num p, .num q => decide (p = q)
  | .sym a r, .sym b t => decide (a = b) && decide (r = t)
  | .const a, .const b => decide (a = b)
  | .add xs, .add ys => SV.eqbL xs ys
  | .mul xs, .mul ys => SV.eqbL xs ys
  | .pow a b, .pow c d => a.eqb c && b.eqb d
  | .fn f xs, .fn g ys => decide (f = g) && SV.eqbL xs ys
  | .binder o v r b xs, .binder p u t c ys =>
    decide (o = p) && decide (v = u) && decide (r = t) && b.eqb c && SV.eqbL xs ys
  | .mat xs, .mat ys => SV.eqbLL xs ys
  | .matSym a n m, .matSym b k l => decide (a = b) && n.eqb k && m.eqb l
  | .matAdd xs, .matAdd ys => SV.eqbL xs ys
  | .matMul xs, .matMul ys => SV.eqbL xs ys
  | .rel o a b, .rel p c d => decide (o = p) && a.eqb c && b.eqb d
  | .list xs, .list ys => SV.eqbL xs ys
  | .tuple xs, .tuple ys => SV.eqbL xs ys
  | .none, .none => true
  | _, _ => false
/-- equality of argument lists (latex2sympy2.py:650) -/
def SV.eqbL : List SV → List SV → Bool
  | [], [] => true
  | x :: xs, y :: ys => x.eqb y && SV.eqbL xs ys
  | _, _ => false
/-- equality of matrix rows (latex2sympy2.py:650) -/
def SV.eqbLL : List (List SV) → List (List SV) → Bool
  | [], [] => true
  | x :: xs, y :: ys => SV.eqbL x y && SV.eqbLL xs ys
  | _, _ => false
end

instance : BEq SV := ⟨SV.eqb⟩

/-- the empty set (latex2sympy2.py:672) -/
def SV.emptySet : SV := .const s%"EmptySet"

/-- a scalar SymPy expression: `Add`, `Mul` and `Pow` with `evaluate=False` keep it as it is
(latex2sympy2.py:309, 341, 557) -/
def SV.plain : SV → Bool
  | .num _ => true
  | .sym _ _ => true
  | .const n => n != s%"EmptySet"
  | .add _ => true
  | .mul _ => true
  | .pow _ _ => true
  | .fn _ _ => true
  | .binder _ _ _ _ _ => true
  | _ => false

/-- `.is_Matrix` where the attribute exists (latex2sympy2.py:374, 449) -/
def SV.isMat : SV → Bool
  | .mat _ => true
  | .matSym _ _ _ => true
  | .matAdd _ => true
  | .matMul _ => true
  | _ => false

/-- the object is a SymPy object (it has the attributes `is_Matrix`, `func`, `doit`, ...)
(latex2sympy2.py:374, 360-366, 466) -/
def SV.isBasic : SV → Bool
  | .list _ => false
  | .tuple _ => false
  | .none => false
  | _ => true

/-- `.func.is_Number` (latex2sympy2.py:387, 452) -/
def SV.isNumber : SV → Bool
  | .num _ => true
  | .const n => n == s%"oo" || n == s%"-oo"
  | _ => false

/-- `bool(v)`: a SymPy zero, the empty set, an empty container and `None` are false, a relation raises
(latex2sympy2.py:776, 896, 944) -/
def SV.truth : SV → Except PyErr Bool
  | .num q => .ok (q != 0)
  | .rel _ _ _ => .error .typeError
  | .list xs => .ok !xs.isEmpty
  | .tuple xs => .ok !xs.isEmpty
  | .none => .ok false
  | .const n => .ok (n != s%"EmptySet")
  | .mat rows => .ok (rows.any fun r => !r.isEmpty)
  | _ => .ok true

/-- Values of `variable_values` (latex2sympy2.py:708-718). -/
inductive PV where
  /-- an instance of a SymPy class -/
  | sympy (v : SV)
  /-- an instance of another class with an attribute `__module__`; the text is `str(value)` -/
  | object (text : Str)
  /-- an instance of a built-in type (`int`, `float`, `str`): it has no attribute `__module__` -/
  | builtin (text : Str)

/-! ### Parse trees -/

/-- Token types inspected by `convert_frac` (latex2sympy2.py:752-774). -/
inductive TokKind where
  | differential | symbol | letterNoE | other
deriving DecidableEq, Repr

/-- What `convert_frac` inspects of the numerator or denominator: first and last token, whether
they are the same token, the number of tokens, and the source text (`rule2text`)
(latex2sympy2.py:746-783). -/
structure Span where
  startKind : TokKind
  startText : Str
  stopKind : TokKind
  stopText : Str
  single : Bool
  len : Nat
  text : Str
deriving DecidableEq, Repr

/-- PS.g4:533-534, the first part of `atom_expr` -/
inductive NameTok where
  | letter (text : Str)
  | greek (text : Str)
  | other (text : Str)
  /-- `accent`: the command and the text of the base -/
  | accent (name base : Str)
deriving DecidableEq, Repr

/-- PS.g4:355 `transform_atom` -/
structure TrAtom where
  letter : Str
  number : Str
deriving DecidableEq, Repr

/-- PS.g4:377, the operator of a relation -/
inductive RelTok where
  | isIn | assignment | equal | lt | lte | gt | gte | unequal
deriving DecidableEq, Repr

/-- Parse trees of PS.g4 (latex2sympy/PS.g4:351-620). -/
inductive T where
  /-- `relation: relation op relation` -/
  | rel (op : RelTok) (l r : T)
  /-- `additive ADD additive` -/
  | add (l r : T)
  /-- `additive SUB additive` -/
  | sub (l r : T)
  /-- `mp (MUL | CMD_TIMES | CMD_CDOT) mp` -/
  | mul (l r : T)
  /-- `mp (DIV | CMD_DIV | COLON) mp` -/
  | div (l r : T)
  /-- `mp CMD_MOD mp` -/
  | mod (l r : T)
  /-- `ADD unary` -/
  | pos (u : T)
  /-- `SUB unary` -/
  | neg (u : T)
  /-- `unary: postfix+` -/
  | juxt (ps : List T)
  /-- `postfix_op: BANG` -/
  | bang (e : T)
  /-- `postfix_op: eval_at` with its optional upper and lower part (an expression or `eqn`) -/
  | evalAt (e : T) (sup sub : Option T)
  /-- `postfix_op: transpose` -/
  | transp (e : T)
  /-- `equality` -/
  | eqn (l r : T)
  /-- `exp CARET ...` -/
  | pow (b e : T)
  /-- a subscript with several arguments (`args`), where an expression is expected -/
  | args
  | group (e : T)
  | norm (e : T)
  | abs (e : T)
  | floor (e : T)
  | ceil (e : T)
  | binom (u l : T)
  /-- `matrix`, with the transform lists of its arrow in order of appearance (none without arrow) -/
  | matrix (rows : List (List T)) (arrow : List (List T))
  | det (rows : List (List T))
  /-- `transform_scale`; the coefficient is an expression, `kAdd` or `kSub` -/
  | trScale (k : T) (a : TrAtom)
  /-- `transform_swap` -/
  | trSwap (a b : TrAtom)
  /-- `transform_assignment` -/
  | trAssign (a : TrAtom) (k : T) (b : TrAtom)
  | kAdd
  | kSub
  /-- `atom_expr`: name, text of the subscript, superscript -/
  | name (base : NameTok) (sub : Option Str) (sup : Option T)
  /-- `SYMBOL` -/
  | symbol (text : Str)
  | number (text : Str)
  | enotation (text : Str)
  | percent (text : Str)
  /-- `DIFFERENTIAL` -/
  | differential (text : Str)
  /-- `mathit` with the source text of `mathit_text` -/
  | mathit (text : Str)
  /-- `VARIABLE` -/
  | variable (text : Str)
  /-- a `DIGIT` token used as numerator, denominator or radicand -/
  | digit (text : Str)
  /-- `frac`; the span is missing for a `DIGIT` -/
  | frac (upper : T) (us : Option Span) (lower : T) (ls : Option Span)
  /-- `func_normal_single_arg`: command, operator name, subscript, superscript, argument -/
  | fnSingle (name opname : Str) (sub sup : Option T) (arg : T)
  /-- `func_normal_multi_arg`: command, operator name, whether in parentheses, text of the
  arguments, superscript -/
  | fnMulti (name opname : Str) (paren : Bool) (args : Str) (sup : Option T)
  /-- application of a named function: text of the name and of the arguments, superscript -/
  | fnApply (name args : Str) (sup : Option T)
  /-- `FUNC_INT`: integrand, `DIFFERENTIAL`, limits -/
  | integral (body : Option T) (d : Option Str) (sub sup : Option T)
  /-- `FUNC_SQRT` -/
  | sqrt (base : T) (root : Option T)
  /-- `FUNC_SUM`, `FUNC_PROD` -/
  | sumProd (isSum : Bool) (val var start sup : T)
  /-- `FUNC_LIM`: name of the variable, direction (`none`: not written, `some true`: `^{-}`,
  `some false`: `^{+}`), limit point, content -/
  | lim (var : NameTok) (minus : Option Bool) (approach content : T)
  /-- `EXP_E` -/
  | expE (sup : Option T)
deriving Inhabited

/-- PS.g4:351 `math` -/
inductive MathTree where
  | one (t : T)
  | list (ts : List T)

/-! ### Globals and libraries -/

/-- The module globals (latex2sympy2.py:22-29, and `diff_op`, `partial_op` of line 747, which do not
exist before the first fraction was converted). -/
structure Globals where
  isReal : Option Bool
  fracType : Str
  variances : List (SV × SV)
  var : List (Str × SV)
  values : List (Str × PV)
  diffOp : Option Bool
  partialOp : Option Bool

/-- The globals after importing the module (latex2sympy2.py:22-29). -/
def Globals.init : Globals := ⟨none, s%"\\frac", [], [], [], none, none⟩

/-- Program state: module globals and state of the libraries (latex2sympy2.py:22-29, 747). -/
structure St (Y : Type) where
  g : Globals
  lib : Y

/-- The libraries (calls of latex2sympy2.py:1-20). -/
structure Lib (Y : Type) where
  /-- ANTLR: text to parse tree, or the exception of `MathErrorListener` -/
  parse : Str → Except PyErr MathTree
  /-- a SymPy call that evaluates -/
  call : Str → List SV → Ext Y SV
  /-- check of the arguments of `MatAdd`, `MatMul` or `MatrixSymbol` (named by the first argument) -/
  validate : Str → List SV → Ext Y Unit
  /-- `str(v)` -/
  str : SV → Ext Y Str
  /-- `hashlib.md5(name.encode()).hexdigest()` -/
  md5 : Str → Str
  /-- `sympy.latex(v)` -/
  latex : SV → Ext Y Str
  /-- whether the generated parse-tree class of `transform_atom` has the accessor `NUMBER`; it has
  not in gen/PSParser.py:1249-1273 (used by latex2sympy2.py), it has in gen_orig/PS_origParser.py
  (used by latex2sympy2_orig.py) -/
  hasNUMBER : Bool

variable {Y : Type}

/-- call into the libraries (latex2sympy2.py:1-20) -/
def libExt {α : Type} (f : Ext Y α) : M (St Y) α :=
  M.ext fun s => match f s.lib with | (r, y) => (r, { s with lib := y })

/-- an evaluating SymPy call (e.g. latex2sympy2.py:802, 1029) -/
def Lib.ev (L : Lib Y) (f : Str) (args : List SV) : M (St Y) SV := libExt (L.call f args)

/-- read the globals (globals of latex2sympy2.py:22-29) -/
def getG : M (St Y) Globals := M.ext fun s => (.ok s.g, s)

/-- change the globals (globals of latex2sympy2.py:22-29) -/
def modG (f : Globals → Globals) : M (St Y) Unit := M.ext fun s => (.ok (), { s with g := f s.g })

/-- `x.is_Matrix`: Python lists, tuples and `None` have no such attribute
(latex2sympy2.py:374, 422, 449) -/
def isMatrix (v : SV) : M (St Y) Bool :=
  if v.isBasic then pure v.isMat else M.raise .attributeError

/-- `lh.is_Matrix or rh.is_Matrix` (latex2sympy2.py:374, 382, 408, 415, 473, 793) -/
def eitherMatrix (l r : SV) : M (St Y) Bool := do
  if ← isMatrix l then pure true else isMatrix r

/-! ### Building expressions -/

/-- `sympy.Add(*args, evaluate=False)` (latex2sympy2.py:309, 311) -/
def mkAdd (L : Lib Y) (args : List SV) : M (St Y) SV :=
  if args.all SV.plain then pure (.add args) else L.ev s%"Add" args

/-- `sympy.Mul(*args, evaluate=False)` (latex2sympy2.py:341, 343, 418) -/
def mkMul (L : Lib Y) (args : List SV) : M (St Y) SV :=
  if args.all SV.plain then pure (.mul args) else L.ev s%"Mul" args

/-- `sympy.Pow(b, e, evaluate=False)` (latex2sympy2.py:557, 662, 897) -/
def mkPow (L : Lib Y) (b e : SV) : M (St Y) SV :=
  if b.plain && e.plain then pure (.pow b e) else L.ev s%"Pow" [b, e]

/-- another SymPy function called with `evaluate=False` (latex2sympy2.py:425, 515, 571, 818, 894) -/
def mkFn (L : Lib Y) (f : Str) (args : List SV) : M (St Y) SV :=
  if args.all SV.plain then pure (.fn f args) else L.ev f args

/-- the summands of an `Add`, otherwise the object itself (latex2sympy2.py:301-308) -/
def SV.addArgs : SV → List SV
  | .add xs => xs
  | v => [v]

/-- the factors of a `Mul`, otherwise the object itself (latex2sympy2.py:333-340) -/
def SV.mulArgs : SV → List SV
  | .mul xs => xs
  | v => [v]

/-- latex2sympy2.py:298-311 `add_flat`; without an `Add` the last branch builds the same node -/
def addFlat (L : Lib Y) (l r : SV) : M (St Y) SV := mkAdd L (l.addArgs ++ r.addArgs)

/-- latex2sympy2.py:330-343 `mul_flat` -/
def mulFlat (L : Lib Y) (l r : SV) : M (St Y) SV := mkMul L (l.mulArgs ++ r.mulArgs)

/-- `x.doit()` (latex2sympy2.py:325, 327, 357) -/
def doit (L : Lib Y) (v : SV) : M (St Y) SV :=
  if v.isBasic then L.ev s%"doit" [v] else M.raise .attributeError

/-- `[arg.doit() for arg in args]` (latex2sympy2.py:325, 327) -/
def doitAll (L : Lib Y) : List SV → M (St Y) (List SV)
  | [] => pure []
  | v :: vs => do
    let w ← doit L v
    let ws ← doitAll L vs
    pure (w :: ws)

/-- `sympy.MatAdd(*args, evaluate=False)` after the shape check (latex2sympy2.py:325, 327) -/
def mkMatAdd (L : Lib Y) (args : List SV) : M (St Y) SV := do
  libExt (L.validate s%"MatAdd" args)
  pure (.matAdd args)

/-- `sympy.MatMul(*args, evaluate=False)` after the shape check
(latex2sympy2.py:357-366, 416, 794) -/
def mkMatMul (L : Lib Y) (args : List SV) : M (St Y) SV := do
  libExt (L.validate s%"MatMul" args)
  pure (.matMul args)

/-- the summands of a `MatAdd`, otherwise the object itself (latex2sympy2.py:317-324) -/
def SV.matAddArgs : SV → List SV
  | .matAdd xs => xs
  | v => [v]

/-- latex2sympy2.py:314-327 `mat_add_flat` -/
def matAddFlat (L : Lib Y) (l r : SV) : M (St Y) SV := do
  let args ← doitAll L (l.matAddArgs ++ r.matAddArgs)
  mkMatAdd L args

/-- An argument of `mat_mul_flat`: a Python integer (it has no attribute `doit`) or an object
(latex2sympy2.py:346, called at 383 and 409). -/
inductive Arg where
  | int (n : Int)
  | sv (v : SV)

/-- the value as a SymPy object (latex2sympy2.py:362-366) -/
def Arg.sympify : Arg → SV
  | .int n => .num n
  | .sv v => v

/-- `hasattr(x, 'is_MatMul') and x.is_MatMul` (latex2sympy2.py:347) -/
def Arg.isMatMul : Arg → Bool
  | .sv (.matMul _) => true
  | _ => false

/-- `list(x.args)` of a `MatMul`, otherwise `[x]` (latex2sympy2.py:349-356) -/
def Arg.matMulArgs : Arg → List Arg
  | .sv (.matMul xs) => xs.map .sv
  | a => [a]

/-- `arg.doit()` (latex2sympy2.py:357) -/
def Arg.doit (L : Lib Y) : Arg → M (St Y) SV
  | .int _ => M.raise .attributeError
  | .sv v => L2S.doit L v

/-- `[arg.doit() for arg in args]` (latex2sympy2.py:357) -/
def Arg.doitAll (L : Lib Y) : List Arg → M (St Y) (List SV)
  | [] => pure []
  | v :: vs => do
    let w ← v.doit L
    let ws ← Arg.doitAll L vs
    pure (w :: ws)

/-- `hasattr(x, 'doit')` (latex2sympy2.py:359-363) -/
def Arg.hasDoit : Arg → Bool
  | .int _ => false
  | .sv v => v.isBasic

/-- `x.doit()` if the attribute exists (latex2sympy2.py:359-366) -/
def Arg.tryDoit (L : Lib Y) (a : Arg) : M (St Y) SV :=
  if a.hasDoit then a.doit L else pure a.sympify

/-- latex2sympy2.py:346-366 `mat_mul_flat` -/
def matMulFlat (L : Lib Y) (l r : Arg) : M (St Y) SV :=
  if l.isMatMul || r.isMatMul then do
    let args ← Arg.doitAll L (l.matMulArgs ++ r.matMulArgs)
    mkMatMul L args
  else do
    let a ← l.tryDoit L
    let b ← r.tryDoit L
    mkMatMul L [a, b]

/-- `-x` of a SymPy number (latex2sympy2.py:388, 453) -/
def negNumber : SV → SV
  | .num q => .num (-q)
  | .const n => if n == s%"oo" then .const s%"-oo" else .const s%"oo"
  | v => v

/-- negation of a scalar (latex2sympy2.py:387-390, 452-455) -/
def negScalar (L : Lib Y) (v : SV) : M (St Y) SV :=
  if v.isNumber then pure (negNumber v) else mulFlat L (.num (-1)) v

/-- latex2sympy2.py:370-377, the ADD case of `convert_add` -/
def convertAdd (L : Lib Y) (l r : SV) : M (St Y) SV := do
  if ← eitherMatrix l r then matAddFlat L l r else addFlat L l r

/-- latex2sympy2.py:378-391, the SUB case of `convert_add` -/
def convertSub (L : Lib Y) (l r : SV) : M (St Y) SV := do
  if ← eitherMatrix l r then do
    let n ← matMulFlat L (.int (-1)) (.sv r)
    matAddFlat L l n
  else do
    let n ← negScalar L r
    addFlat L l n

/-- latex2sympy2.py:404-411 and 471-476, a product -/
def convertMul (L : Lib Y) (l r : SV) : M (St Y) SV := do
  if ← eitherMatrix l r then matMulFlat L (.sv l) (.sv r) else mulFlat L l r

/-- latex2sympy2.py:412-418 and 793-796, a quotient -/
def convertDiv (L : Lib Y) (l r : SV) : M (St Y) SV := do
  if ← eitherMatrix l r then do
    let p ← mkPow L r (.num (-1))
    mkMatMul L [l, p]
  else do
    let p ← mkPow L r (.num (-1))
    mkMul L [l, p]

/-- latex2sympy2.py:419-425, modulo -/
def convertMod (L : Lib Y) (l r : SV) : M (St Y) SV := do
  if ← isMatrix r then M.raise .other else mkFn L s%"Mod" [l, r]

/-- latex2sympy2.py:447-455, unary minus.  Line 450 passes the keyword `evaluate`, which
`mat_mul_flat` does not accept. -/
def convertNeg (L : Lib Y) (v : SV) : M (St Y) SV := do
  if ← isMatrix v then M.raise .typeError else negScalar L v

/-! ### Atoms -/

/-- value of a string of decimal digits
(`int(text)`, latex2sympy2.py:210; used for latex2sympy2.py:678) -/
def natOfText : Str → Nat → Option Nat
  | [], acc => some acc
  | x :: xs, acc =>
    if '0' ≤ x ∧ x ≤ '9' then natOfText xs (10 * acc + (x.toNat - 48)) else none

/-- `Rational(text)` for digits with an optional decimal point (latex2sympy2.py:678) -/
def decOfText (s : Str) : Option Rat :=
  match split s%"." s with
  | [a] => if a.isEmpty then none else (natOfText a 0).map fun (n : Nat) => (n : Rat)
  | [a, b] =>
    if a.isEmpty && b.isEmpty then none
    else (natOfText (a ++ b) 0).map fun (n : Nat) => (n : Rat) / 10 ^ b.length
  | _ => none

/-- exponent of a literal in scientific notation: optional sign and digits (latex2sympy2.py:685) -/
def expOfText : Str → Option Int
  | '-' :: ds => if ds.isEmpty then none else (natOfText ds 0).map fun (n : Nat) => -(n : Int)
  | '+' :: ds => if ds.isEmpty then none else (natOfText ds 0).map fun (n : Nat) => (n : Int)
  | ds => if ds.isEmpty then none else (natOfText ds 0).map fun (n : Nat) => (n : Int)

/-- `sympy.Rational(text)` for the literals of the grammar (latex2sympy2.py:678, 685) -/
def ratOfText (s : Str) : Option Rat :=
  match split s%"E" s with
  | [m] => decOfText m
  | [m, e] =>
    match decOfText m, expOfText e with
    | some q, some k => some (q * (10 : Rat) ^ k)
    | _, _ => none
  | _ => none

/-- latex2sympy2.py:675-681, 682-688: `Rational(s)`, otherwise `Number(s)` -/
def numberOf (L : Lib Y) (s : Str) : M (St Y) SV :=
  match ratOfText s with
  | some q => pure (.num q)
  | none => L.ev s%"Number" [.sym s none]

/-- latex2sympy2.py:596-621: name of a symbol without its subscript -/
def nameText : NameTok → Str
  | .letter t => t
  | .greek t => strip (t.drop 1)
  | .other t => strip t
  | .accent name base =>
    let n := name.drop 1
    if n = s%"bar" ∨ n = s%"overline" then base ++ s%"bar"
    else if n = s%"vec" ∨ n = s%"overrightarrow" then base ++ s%"vec"
    else if n = s%"tilde" ∨ n = s%"widetilde" then base ++ s%"tilde"
    else name ++ s%"{" ++ base ++ s%"}"

/-- latex2sympy2.py:623-638: text of a subscript -/
def subText : Option Str → Str
  | none => []
  | some s =>
    let s := strip s
    if 1 < s.length then s%"_{" ++ s ++ s%"}" else s%"_" ++ s

/-- `dict[key]` with SymPy keys (latex2sympy2.py:187, 189, 650) -/
def lookupSV (k : SV) : List (SV × SV) → Option SV
  | [] => none
  | (a, b) :: rest => if a == k then some b else lookupSV k rest

/-- latex2sympy2.py:648 `sympy.shape(v)`, `none` if it raises -/
def shapeOf (L : Lib Y) (v : SV) : M (St Y) (Option (SV × SV)) :=
  match v with
  | .matSym _ n m => pure (some (n, m))
  | .mat rows => pure (some (.num rows.length, .num ((rows.head?.map List.length).getD 0)))
  | v => M.tryExcept (do
      match ← L.ev s%"shape" [v] with
      | .tuple (n :: m :: _) => pure (some (n, m))
      | _ => pure none) (fun _ => pure none)

/-- latex2sympy2.py:643-652: a name registered as a matrix becomes a matrix symbol; a missing entry
of `variances` (line 650) is swallowed after `matrix_symbol` was set -/
def matrixSymbol (L : Lib Y) (name : Str) (symb : SV) : M (St Y) (Option SV) := do
  let g ← getG
  match g.var.lookup name with
  | none => pure none
  | some rh => do
    match ← shapeOf L rh with
    | none => pure none
    | some (n, m) => do
      let ms := SV.matSym name n m
      let g ← getG
      match lookupSV symb g.variances with
      | some v => modG fun g => { g with variances := (ms, v) :: g.variances }
      | none => pure ()
      pure (some ms)

/-- latex2sympy2.py:640-652, 664: the symbol, and its registered matrix symbol -/
def symbolOf (L : Lib Y) (name : Str) : M (St Y) (SV × Option SV) := do
  let g ← getG
  let symb := SV.sym name g.isReal
  let ms ← matrixSymbol L name symb
  pure (symb, ms)

/-- latex2sympy2.py:665-674 -/
def symbolConst (text : Str) : M (St Y) SV :=
  let s := replace s%"\\%" [] (replace s%"\\$" [] text)
  if s = s%"\\infty" then pure (.const s%"oo")
  else if s = s%"\\pi" then pure (.const s%"pi")
  else if s = s%"\\emptyset" then pure .emptySet
  else M.raise .other

/-- latex2sympy2.py:1117-1126 `get_differential_var_str`; without a non-blank character the loop
leaves `idx` unbound -/
def differentialVar (text : Str) : Except PyErr Str :=
  let rest := (text.drop 1).dropWhile fun c =>
    c == ' ' || c == Char.ofNat 13 || c == Char.ofNat 10 || c == Char.ofNat 9
  match rest with
  | [] => .error .other
  | '\\' :: t => .ok t
  | t => .ok t

/-- latex2sympy2.py:698-702: the name inside `\variable{...}` and whether a percent sign follows -/
def variableName (text : Str) : Str × Bool :=
  let isPercent := endsWith s%"\\%" text
  let name := text.drop 10
  (name.take (name.length - if isPercent then 3 else 1), isPercent)

/-- latex2sympy2.py:704-718: the value bound to a variable -/
def variableValue (L : Lib Y) (name : Str) : M (St Y) SV := do
  let g ← getG
  match g.values.lookup name with
  | some (.sympy v) => pure v
  | some (.object t) => L.ev s%"parse_expr" [.sym t none]
  | some (.builtin _) => M.raise .attributeError
  | none => pure (.sym (name ++ L.md5 name) g.isReal)

/-- latex2sympy2.py:697-724, the VARIABLE case of `convert_atom` -/
def convertVariable (L : Lib Y) (text : Str) : M (St Y) SV := do
  let (name, isPercent) := variableName text
  let v ← variableValue L name
  if isPercent then do
    let p ← mkPow L (.num 100) (.num (-1))
    mkMul L [v, p]
  else pure v

/-- latex2sympy2.py:726-733: a percentage is divided by 100 -/
def percentOf (L : Lib Y) (text : Str) : M (St Y) SV := do
  let s := replace s%"," [] (replace s%"\\%" [] text)
  match ratOfText s with
  | some q => pure (.num (q / 100))
  | none => do
    let n ← L.ev s%"Number" [.sym s none]
    L.ev s%"Rational" [n, .num 100]

/-! ### Fractions, functions and matrices -/

/-- latex2sympy2.py:749-763: the variable of a derivative written as a fraction with the given
denominator, and whether it is a partial derivative -/
def derivVar (ls : Span) : Except PyErr (Option (Str × Bool)) :=
  if ls.single && ls.startKind == .differential then do
    let v ← differentialVar ls.startText
    pure (some (v, false))
  else if ls.len == 2 && ls.startKind == .symbol && ls.startText == s%"\\partial"
      && (ls.stopKind == .letterNoE || ls.stopKind == .symbol) then
    pure (some (if ls.stopKind == .symbol then ls.stopText.drop 1 else ls.stopText, true))
  else pure none

/-- latex2sympy2.py:767-774: the numerator is only the differential operator -/
def isOperatorOnly (us : Span) (isPartial : Bool) : Bool :=
  if isPartial then us.single && us.startKind == .symbol && us.startText == s%"\\partial"
  else us.single && us.startKind == .letterNoE && us.startText == s%"d"

/-- latex2sympy2.py:775-781: the text to differentiate -/
def derivBody (us : Span) (isPartial : Bool) : Option Str :=
  if isPartial then
    if us.startText = s%"\\partial" then some (us.text.drop 8) else none
  else if startsWith s%"d" us.text then some (us.text.drop 1) else none

/-- latex2sympy2.py:746-783: the derivative case of `convert_frac`; `rec` is `latex2sympy` without
bindings; `none` means that the fraction is an ordinary one -/
def fracDeriv (L : Lib Y) (rec : Str → List (Str × PV) → M (St Y) SV) (us ls : Option Span) :
    M (St Y) (Option SV) := do
  modG fun g => { g with diffOp := some false, partialOp := some false }
  match us, ls with
  | some us, some ls => do
    match ← M.lift (derivVar ls) with
    | none => pure none
    | some (v, isPartial) => do
      modG fun g => if isPartial then { g with partialOp := some true } else { g with diffOp := some true }
      let g ← getG
      let wrt := SV.sym v g.isReal
      if isOperatorOnly us isPartial then pure (some (.list [wrt]))
      else
        match derivBody us isPartial with
        | none => pure none
        | some body => do
          let top ← rec body []
          if ← M.lift top.truth then do
            let d ← L.ev s%"Derivative" [top, wrt]
            pure (some d)
          else pure none
  | _, _ => pure none

/-- latex2sympy2.py:812-880 (all but the trigonometric functions): the value of a named function,
`none` if the name is not handled there -/
def singleFunc (L : Lib Y) (name opname : Str) (arg : SV) (base : M (St Y) SV) :
    M (St Y) (Option SV) :=
  if [s%"arcsin", s%"arccos", s%"arctan", s%"arccsc", s%"arcsec", s%"arccot"].contains name then do
    return some (← mkFn L (s%"a" ++ name.drop 3) [arg])
  else if [s%"arsinh", s%"arcosh", s%"artanh"].contains name then do
    return some (← mkFn L (s%"a" ++ name.drop 2) [arg])
  else if [s%"arcsinh", s%"arccosh", s%"arctanh"].contains name then do
    return some (← mkFn L (s%"a" ++ name.drop 3) [arg])
  else if name = s%"operatorname" then
    if [s%"arsinh", s%"arcosh", s%"artanh"].contains opname then do
      return some (← mkFn L (s%"a" ++ opname.drop 2) [arg])
    else if [s%"arcsinh", s%"arccosh", s%"arctanh"].contains opname then do
      return some (← mkFn L (s%"a" ++ opname.drop 3) [arg])
    else if opname = s%"floor" then do return some (← mkFn L s%"floor" [arg])
    else if opname = s%"ceil" then do return some (← mkFn L s%"ceiling" [arg])
    else if [s%"eye", s%"rank", s%"trace", s%"tr", s%"rref", s%"nullspace", s%"norm", s%"cols",
        s%"rows", s%"eig", s%"eigen", s%"diagonalize", s%"eigenvals", s%"eigenvalues",
        s%"eigenvects", s%"eigenvectors", s%"svd", s%"SVD"].contains opname then do
      return some (← L.ev opname [arg])
    else pure none
  else if name = s%"log" ∨ name = s%"ln" then do
    let b ← base
    return some (← mkFn L s%"log" [arg, b])
  else if name = s%"exp" ∨ name = s%"exponentialE" then do return some (← L.ev s%"exp" [arg])
  else if name = s%"floor" then do return some (← mkFn L s%"floor" [arg])
  else if name = s%"ceil" then do return some (← mkFn L s%"ceiling" [arg])
  else if name = s%"det" then do return some (← L.ev s%"det" [arg])
  else pure none

/-- latex2sympy2.py:890 -/
def trigNames : List Str :=
  [s%"sin", s%"cos", s%"tan", s%"csc", s%"sec", s%"cot", s%"sinh", s%"cosh", s%"tanh"]

/-- latex2sympy2.py:891 `func_pow == -1` -/
def isMinusOne : Option SV → Bool
  | some (.num q) => q == -1
  | _ => false

/-- latex2sympy2.py:882-899: superscript of a function; `expr` may be unbound (`none`) -/
def singleFuncPow (L : Lib Y) (name : Str) (arg : SV) (expr pw : Option SV) : M (St Y) SV := do
  let (expr, shouldPow) ← (if trigNames.contains name then do
      let e ← mkFn L (if isMinusOne pw then s%"a" ++ name else name) [arg]
      pure (some e, !isMinusOne pw)
    else pure (expr, true))
  let usePow ← (match pw with
    | some p => do if ← M.lift p.truth then pure shouldPow else pure false
    | none => pure false)
  match expr, usePow, pw with
  | some e, true, some p => mkPow L e p
  | some e, _, _ => pure e
  | none, _, _ => M.raise .other

/-- latex2sympy2.py:908-934: value of a function of several arguments, `none` if `expr` stays unbound -/
def multiFunc (L : Lib Y) (name opname : Str) (args : List SV) : M (St Y) (Option SV) :=
  if name = s%"operatorname" then
    if [s%"gcd", s%"lcm", s%"zeros", s%"ones", s%"diag", s%"hstack", s%"vstack", s%"orth",
        s%"ortho", s%"orthogonal", s%"orthogonalize"].contains opname then do
      return some (← L.ev opname args)
    else pure none
  else if name = s%"gcd" ∨ name = s%"lcm" then do return some (← L.ev name args)
  else if name = s%"max" then do return some (← L.ev s%"Max" args)
  else if name = s%"min" then do return some (← L.ev s%"Min" args)
  else pure none

/-- `[latex2sympy(arg, VARIABLE_VALUES) for arg in args]` (latex2sympy2.py:907, 955); the bindings
are read anew for every argument -/
def argList (rec : Str → List (Str × PV) → M (St Y) SV) : List Str → M (St Y) (List SV)
  | [] => pure []
  | a :: as => do
    let g ← getG
    let v ← rec a g.values
    let vs ← argList rec as
    pure (v :: vs)

/-- latex2sympy2.py:944-947: optional power of a function value; `expr` may be unbound (`none`) -/
def optPow (L : Lib Y) (e pw : Option SV) : M (St Y) SV := do
  let usePow ← (match pw with
    | some p => M.lift p.truth
    | none => pure false)
  match e, usePow, pw with
  | some e, true, some p => mkPow L e p
  | some e, _, _ => pure e
  | none, _, _ => M.raise .other

/-- latex2sympy2.py:952-954: text of the arguments of an applied function -/
def applyArgs (s : Str) : List Str :=
  let args := split s%"," s
  if args.getLast? = some [] then args.dropLast else args

/-- `integrand.atoms(Symbol)`, in iteration order (latex2sympy2.py:1006) -/
def symbolsOf : SV → List SV
  | .list xs => xs
  | _ => []

/-- latex2sympy2.py:1006-1013: the last symbol whose name looks like a differential, and the name of
the variable -/
def differentialSymbol (syms : List SV) : Option (SV × Str) :=
  syms.foldl (fun acc s => match s with
    | .sym ('d' :: '\\' :: v) _ => some (s, v)
    | .sym ('d' :: c :: v) _ => some (s, c :: v)
    | _ => acc) none

/-- latex2sympy2.py:1002-1018: integrand and variable of an integral -/
def integralVar (L : Lib Y) (body : SV) (d : Option Str) : M (St Y) (SV × SV) := do
  let g ← getG
  match d with
  | some text => do
    let v ← M.lift (differentialVar text)
    pure (body, .sym v g.isReal)
  | none => do
    let syms ← L.ev s%"atoms" [body]
    match differentialSymbol (symbolsOf syms) with
    | some (s, v) => do
      let b ← L.ev s%"subs" [body, s, .num 1]
      pure (b, .sym v g.isReal)
    | none => pure (body, .sym s%"x" g.isReal)

/-- `int(transform_atom.NUMBER().getText()) - 1` (latex2sympy2.py:210, 229-230, 253-254) -/
def trIndex (L : Lib Y) (a : TrAtom) : M (St Y) Int :=
  if L.hasNUMBER then
    match natOfText a.number 0 with
    | some n => if a.number.isEmpty then M.raise .valueError else pure ((n : Int) - 1)
    | none => M.raise .valueError
  else M.raise .attributeError

/-- the row or column with the given 0-based index exists
(SymPy check behind latex2sympy2.py:220-260) -/
def inRange (i : Int) (n : Nat) : Bool := decide (0 ≤ i) && decide (i < n)

/-- number of columns (SymPy `cols`, latex2sympy2.py:222) -/
def colCount (rows : List (List SV)) : Nat := (rows.head?.map List.length).getD 0

/-- `l[i] := x` (for latex2sympy2.py:220-260) -/
def setAt {α : Type} (l : List α) (i : Nat) (x : α) : List α := l.set i x

/-- columns of a rectangular matrix (for latex2sympy2.py:222, 236, 260) -/
def transposeRows (rows : List (List SV)) : List (List SV) :=
  (List.range (colCount rows)).map fun j => rows.map fun r => r.getD j .none

/-- `[k * x for x in row]`: an evaluating product (latex2sympy2.py:220) -/
def scaleRow (L : Lib Y) (k : SV) : List SV → M (St Y) (List SV)
  | [] => pure []
  | x :: xs => do
    let y ← L.ev s%"*" [k, x]
    let ys ← scaleRow L k xs
    pure (y :: ys)

/-- `[x + k * y]`: evaluating sum and product (latex2sympy2.py:258) -/
def addScaledRow (L : Lib Y) (k : SV) : List SV → List SV → M (St Y) (List SV)
  | x :: xs, y :: ys => do
    let p ← L.ev s%"*" [k, y]
    let z ← L.ev s%"+" [x, p]
    let zs ← addScaledRow L k xs ys
    pure (z :: zs)
  | _, _ => pure []

/-- An elementary operation on the rows of a matrix (SymPy `elementary_row_op`)
(latex2sympy2.py:220, 234, 258). -/
inductive RowOp where
  | scale (i : Int) (k : SV)
  | swap (i j : Int)
  | addMul (i : Int) (k : SV) (j : Int)

/-- SymPy `elementary_row_op`: an index out of range, or two equal indices in `n<->m` and `n->n+km`,
raise `ValueError` (latex2sympy2.py:220, 234, 258) -/
def rowOp (L : Lib Y) (rows : List (List SV)) : RowOp → M (St Y) (List (List SV))
  | .scale i k =>
    if inRange i rows.length then do
      let r ← scaleRow L k (rows.getD i.toNat [])
      pure (setAt rows i.toNat r)
    else M.raise .valueError
  | .swap i j =>
    if inRange i rows.length && inRange j rows.length && i != j then
      pure (setAt (setAt rows i.toNat (rows.getD j.toNat [])) j.toNat (rows.getD i.toNat []))
    else M.raise .valueError
  | .addMul i k j =>
    if inRange i rows.length && inRange j rows.length && i != j then do
      let r ← addScaledRow L k (rows.getD i.toNat []) (rows.getD j.toNat [])
      pure (setAt rows i.toNat r)
    else M.raise .valueError

/-- latex2sympy2.py:219-224, 233-238, 257-262: a row operation, or the same operation on the columns
(`elementary_col_op`) -/
def elementaryOp (L : Lib Y) (letter : Str) (m : SV) (op : RowOp) : M (St Y) SV :=
  if letter = s%"r" then
    match m with
    | .mat rows => do
      let r ← rowOp L rows op
      pure (.mat r)
    | _ => M.raise .attributeError
  else if letter = s%"c" then
    match m with
    | .mat rows => do
      let r ← rowOp L (transposeRows rows) op
      pure (.mat (transposeRows r))
    | _ => M.raise .attributeError
  else M.raise .other

/-! ### The converter -/

/-- `[wrt]` is left by a derivative operator: latex2sympy2.py:460-486, what happens with the first
value of a product.  `expr` and matrices are multiplied with the rest, tuples are returned, and
anything else must be a derivative operator. -/
inductive PostKind where
  | factor | result | operator (wrt : SV)

/-- latex2sympy2.py:466, 477, 479-481: classification of a postfix value -/
def postKind (v : SV) : M (St Y) PostKind :=
  match v with
  | .tuple _ => pure .result
  | .rel _ _ _ => operator v
  | .list _ => operator v
  | .none => operator v
  | _ => pure .factor
where
  /-- `assert diff_op or partial_op` and `wrt = res[0]` -/
  operator (v : SV) : M (St Y) PostKind := do
    let g ← getG
    match g.diffOp, g.partialOp with
    | some a, some b =>
      if a || b then
        match v with
        | .list (x :: _) => pure (.operator x)
        | .list [] => M.raise .indexError
        | _ => M.raise .typeError
      else M.raise .assertionError
    | _, _ => M.raise .other

/-- latex2sympy2.py:974 `1 / r` -/
def reciprocal (L : Lib Y) (v : SV) : M (St Y) SV :=
  match v with
  | .num q => if q = 0 then L.ev s%"1/" [v] else pure (.num (1 / q))
  | v => L.ev s%"1/" [v]

/-- latex2sympy2.py:490-497 `do_subs` with an expression: substitute the first symbol -/
def substExpr (L : Lib Y) (e atv : SV) : M (St Y) SV := do
  let syms ← L.ev s%"atoms" [atv]
  match syms with
  | .list (s :: _) => if e.isBasic then L.ev s%"subs" [e, s, atv] else M.raise .attributeError
  | _ => pure e

/-- latex2sympy2.py:524-529: values at the two ends -/
def evalAtEnds (L : Lib Y) (e : SV) : Option SV → Option SV → M (St Y) SV
  | some b, some a => do
    let n ← mulFlat L a (.num (-1))
    addFlat L b n
  | some b, none => pure b
  | none, some a => pure a
  | none, none => pure e

/-- a relation built with `evaluate=False` (latex2sympy2.py:151-159, 180, 197) -/
def mkRel (L : Lib Y) (op : Str) (l r : SV) : M (St Y) SV :=
  if l.plain && r.plain then pure (.rel op l r) else L.ev op [l, r]

/-- `v.args` (latex2sympy2.py:184-185); the arguments of a `Limit` or `Derivative` are simplified -/
def SV.args : SV → List SV
  | .add xs => xs
  | .mul xs => xs
  | .pow b e => [b, e]
  | .fn _ xs => xs
  | .binder _ v r b xs => [b, .tuple (.sym v r :: xs)]
  | .mat rows => [.num rows.length, .num (colCount rows)]
  | .matSym n a b => [.sym n Option.none, a, b]
  | .matAdd xs => xs
  | .matMul xs => xs
  | .rel _ a b => [a, b]
  | _ => []

/-- latex2sympy2.py:150-197: the relation; `\in` registers a matrix symbol (the name of a
`MatrixSymbol` is the left operand; kept as its text) -/
def convertRel (L : Lib Y) (op : RelTok) (l r : SV) : M (St Y) SV :=
  match op with
  | .lt => mkRel L s%"<" l r
  | .lte => mkRel L s%"<=" l r
  | .gt => mkRel L s%">" l r
  | .gte => mkRel L s%">=" l r
  | .equal => mkRel L s%"=" l r
  | .assignment => mkRel L s%"=" l r
  | .unequal => mkRel L s%"!=" l r
  | .isIn =>
    match r with
    | .pow _ e =>
      match e.args with
      | n :: m :: _ => do
        let g ← getG
        let n' := (lookupSV n g.variances).getD n
        let m' := (lookupSV m g.variances).getD m
        libExt (L.validate s%"MatrixSymbol" [l, n', m'])
        let s ← libExt (L.str l)
        let ms := SV.matSym s n' m'
        modG fun g => { g with variances := (l, ms) :: g.variances, var := (s, ms) :: g.var }
        pure l
      | _ => M.raise .indexError
    | _ => M.raise .other

mutual
/-- latex2sympy2.py:144-1077, the conversion functions; each branch cites its function.  `rec` is
`latex2sympy` (called for the parts that the converter parses again from text). -/
def conv (L : Lib Y) (rec : Str → List (Str × PV) → M (St Y) SV) : T → M (St Y) SV
  -- convert_relation, lines 144-197
  | .rel op l r => do
    let lv ← conv L rec l
    let rv ← conv L rec r
    convertRel L op lv rv
  -- convert_add, lines 369-393
  | .add l r => do
    let lv ← conv L rec l
    let rv ← conv L rec r
    convertAdd L lv rv
  | .sub l r => do
    let lv ← conv L rec l
    let rv ← conv L rec r
    convertSub L lv rv
  -- convert_mp, lines 396-430
  | .mul l r => do
    let lv ← conv L rec l
    let rv ← conv L rec r
    convertMul L lv rv
  | .div l r => do
    let lv ← conv L rec l
    let rv ← conv L rec r
    convertDiv L lv rv
  | .mod l r => do
    let lv ← conv L rec l
    let rv ← conv L rec r
    convertMod L lv rv
  -- convert_unary, lines 433-457
  | .pos u => conv L rec u
  | .neg u => do
    let v ← conv L rec u
    convertNeg L v
  | .juxt ps => convJuxt L rec ps
  -- convert_postfix, lines 504-540
  | .bang e => do
    let v ← conv L rec e
    match v with
    | .list _ => M.raise .other
    | _ => mkFn L s%"factorial" [v]
  | .evalAt e sup sub => do
    let v ← conv L rec e
    let b ← convAt L rec v sup
    let a ← convAt L rec v sub
    evalAtEnds L v b a
  | .transp e => do
    let v ← conv L rec e
    M.tryExcept (L.ev s%".T" [v]) fun _ => M.tryExcept (L.ev s%"transpose" [v]) fun _ => pure v
  -- not an expression: only occurs in `evalAt` and in the text of a sum
  | .eqn _ _ => M.raise .attributeError
  -- convert_expr(None)
  | .args => M.raise .attributeError
  -- convert_exp, lines 543-562
  | .pow b e => do
    let bv ← conv L rec b
    match bv with
    | .list _ => M.raise .other
    | _ => do
      let ev ← conv L rec e
      mkPow L bv ev
  -- convert_comp, lines 565-588
  | .group e => conv L rec e
  | .norm e => do
    let v ← conv L rec e
    L.ev s%"norm" [v]
  | .abs e => do
    let v ← conv L rec e
    mkFn L s%"Abs" [v]
  | .floor e => do
    let v ← conv L rec e
    mkFn L s%"floor" [v]
  | .ceil e => do
    let v ← conv L rec e
    mkFn L s%"ceiling" [v]
  -- convert_binom, lines 799-802
  | .binom u l => do
    let uv ← conv L rec u
    let lv ← conv L rec l
    L.ev s%"binomial" [uv, lv]
  -- convert_matrix, lines 267-295
  | .matrix rows arrow => do
    let rs ← convRows L rec rows
    let m ← L.ev s%"Matrix" (rs.map .list)
    match arrow with
    | [] => pure m
    | [a] => convTransforms L rec a m
    | [a, b] => do
      let m ← convTransforms L rec b m
      convTransforms L rec a m
    | _ => pure m
  | .det rows => do
    let rs ← convRows L rec rows
    let m ← L.ev s%"Matrix" (rs.map .list)
    let g ← getG
    let m ← L.ev s%"subs" (m :: g.variances.map fun p => SV.tuple [p.1, p.2])
    L.ev s%"det" [m]
  | .trScale _ _ => M.raise .attributeError
  | .trSwap _ _ => M.raise .attributeError
  | .trAssign _ _ _ => M.raise .attributeError
  | .kAdd => pure (.num 1)
  | .kSub => pure (.num (-1))
  -- convert_atom, lines 591-733
  | .name base sub sup =>
    if base = .letter s%"I" then pure (.const s%"I")
    else do
      let (s, ms) ← symbolOf L (nameText base ++ subText sub)
      match sup with
      | some p => do
        let pv ← conv L rec p
        mkPow L s pv
      | none => pure (ms.getD s)
  | .symbol text => symbolConst text
  | .number text => numberOf L (replace s%"," [] text)
  | .enotation text => numberOf L (replace s%"," [] text)
  | .percent text => percentOf L text
  | .differential text => do
    let v ← M.lift (differentialVar text)
    let g ← getG
    pure (.sym (s%"d" ++ v) g.isReal)
  | .mathit text => do
    let g ← getG
    pure (.sym text g.isReal)
  | .variable text => convertVariable L text
  | .digit text => numberOf L text
  -- convert_frac, lines 746-796
  | .frac u us l ls => do
    match ← fracDeriv L rec us ls with
    | some v => pure v
    | none => do
      let uv ← conv L rec u
      let lv ← conv L rec l
      convertDiv L uv lv
  -- convert_func, lines 805-964
  | .fnSingle name opname sub sup arg => do
    let a ← conv L rec arg
    let e ← singleFunc L name opname a (convBase L rec name sub)
    let p ← convOpt L rec sup
    singleFuncPow L name a e p
  | .fnMulti name opname paren args sup =>
    -- line 905: the context of `func_multi_arg_noparens` has no attribute `split`
    if !paren then M.raise .attributeError
    else do
      let as ← argList rec (split s%"," args)
      let e ← multiFunc L name opname as
      let p ← convOpt L rec sup
      optPow L e p
  | .fnApply name args sup => do
    let as ← argList rec (applyArgs args)
    match sup with
    | some p => do
      let pv ← conv L rec p
      let f ← L.ev (s%"Function " ++ name) as
      mkPow L f pv
    | none => L.ev (s%"Function " ++ name) as
  -- handle_integral, lines 994-1031
  | .integral body d sub sup => do
    let b ← (match body with
      | some t => conv L rec t
      -- the integrand 1 is a Python integer without `atoms`
      | none => if d.isNone then M.raise .attributeError else pure (.num 1))
    let (b, v) ← integralVar L b d
    match sub with
    | some s => do
      let lo ← conv L rec s
      match sup with
      | some s => do
        let hi ← conv L rec s
        L.ev s%"Integral" [b, .tuple [v, lo, hi]]
      | none => M.raise .attributeError
    | none => L.ev s%"Integral" [b, v]
  -- convert_func, lines 967-976
  | .sqrt base root => do
    let b ← conv L rec base
    match root with
    | some r => do
      let rv ← conv L rec r
      let e ← reciprocal L rv
      mkPow L b e
    | none => mkPow L b (.num (1 / 2))
  -- handle_sum_or_prod, lines 1034-1046
  | .sumProd isSum val var start sup => do
    let v ← conv L rec val
    let i ← conv L rec var
    let s ← conv L rec start
    let e ← conv L rec sup
    L.ev (if isSum then s%"Sum" else s%"Product") [v, .tuple [i, s, e]]
  -- handle_limit, lines 1049-1066
  | .lim var minus approach content => do
    let g ← getG
    let v := match var with
      | .letter t => SV.sym t g.isReal
      | .greek t => SV.sym (strip (t.drop 1)) g.isReal
      | .other t => SV.sym (strip t) g.isReal
      | .accent _ _ => SV.sym s%"x" g.isReal
    let a ← conv L rec approach
    let c ← conv L rec content
    L.ev s%"Limit" [c, v, a, .sym (if minus = some true then s%"-" else s%"+") none]
  -- handle_exp, lines 1069-1077
  | .expE sup => do
    match sup with
    | some s => do
      let v ← conv L rec s
      L.ev s%"exp" [v]
    | none => L.ev s%"exp" [.num 1]

/-- optional superscript (latex2sympy2.py:882-888, 936-942) -/
def convOpt (L : Lib Y) (rec : Str → List (Str × PV) → M (St Y) SV) :
    Option T → M (St Y) (Option SV)
  | none => pure none
  | some t => do
    let v ← conv L rec t
    pure (some v)

/-- latex2sympy2.py:863-871: base of a logarithm -/
def convBase (L : Lib Y) (rec : Str → List (Str × PV) → M (St Y) SV) (name : Str) :
    Option T → M (St Y) SV
  | some t => conv L rec t
  | none => pure (if name = s%"log" then .num 10 else .const s%"E")

/-- latex2sympy2.py:460-486 `convert_postfix_list` -/
def convJuxt (L : Lib Y) (rec : Str → List (Str × PV) → M (St Y) SV) : List T → M (St Y) SV
  | [] => M.raise .other
  | t :: ts => do
    let v ← conv L rec t
    match ← postKind v with
    | .result => pure v
    | .factor =>
      if ts.isEmpty then pure v
      else do
        let r ← convJuxt L rec ts
        convertMul L v r
    | .operator wrt =>
      if ts.isEmpty then M.raise .other
      else do
        let r ← convJuxt L rec ts
        L.ev s%"Derivative" [r, wrt]

/-- latex2sympy2.py:489-501 `do_subs` -/
def convAt (L : Lib Y) (rec : Str → List (Str × PV) → M (St Y) SV) (e : SV) :
    Option T → M (St Y) (Option SV)
  | none => pure none
  | some (.eqn l r) => do
    let lv ← conv L rec l
    let rv ← conv L rec r
    let v ← (if e.isBasic then L.ev s%"subs" [e, lv, rv] else M.raise .attributeError)
    pure (some v)
  | some t => do
    let a ← conv L rec t
    let v ← substExpr L e a
    pure (some v)

/-- latex2sympy2.py:276-277: a row of a matrix -/
def convList (L : Lib Y) (rec : Str → List (Str × PV) → M (St Y) SV) : List T → M (St Y) (List SV)
  | [] => pure []
  | t :: ts => do
    let v ← conv L rec t
    let vs ← convList L rec ts
    pure (v :: vs)

/-- latex2sympy2.py:274-278: the rows of a matrix -/
def convRows (L : Lib Y) (rec : Str → List (Str × PV) → M (St Y) SV) :
    List (List T) → M (St Y) (List (List SV))
  | [] => pure []
  | r :: rs => do
    let v ← convList L rec r
    let vs ← convRows L rec rs
    pure (v :: vs)

/-- latex2sympy2.py:205-264 `convert_elementary_transform` -/
def convTransform (L : Lib Y) (rec : Str → List (Str × PV) → M (St Y) SV) (m : SV) :
    T → M (St Y) SV
  | .trScale k a => do
    let i ← trIndex L a
    let kv ← conv L rec k
    elementaryOp L a.letter m (.scale i kv)
  | .trSwap a b => do
    let i ← trIndex L a
    let j ← trIndex L b
    if a.letter ≠ b.letter then M.raise .other
    else elementaryOp L a.letter m (.swap i j)
  | .trAssign a k b => do
    let kv ← conv L rec k
    let i ← trIndex L a
    let j ← trIndex L b
    if a.letter ≠ b.letter then M.raise .other
    else elementaryOp L a.letter m (.addMul i kv j)
  | _ => pure m

/-- latex2sympy2.py:285-293: the transforms of one list, in order -/
def convTransforms (L : Lib Y) (rec : Str → List (Str × PV) → M (St Y) SV) :
    List T → SV → M (St Y) SV
  | [], m => pure m
  | t :: ts, m => do
    let m ← convTransform L rec m t
    convTransforms L rec ts m
end

/-! ### `latex2sympy` -/

/-- latex2sympy2.py:64, `[a-zA-Z0-9+\-*/\\ ]` -/
def permChar (c : Char) : Bool :=
  asciiAlpha c || (decide ('0' ≤ c) && decide (c ≤ '9')) || c == '+' || c == '-' || c == '*'
    || c == '/' || c == '\\' || c == ' '

open Re in
/-- latex2sympy2.py:64, `\(([...]+?)\)_{([...]+?)}` -/
def permRe : Re :=
  cat [c '(', grp 1 (plusLazy (.chr permChar)), lit s%")_{", grp 2 (plusLazy (.chr permChar)), c '}']

/-- latex2sympy2.py:64, falling factorials `(n)_{k}` -/
def permStep (s : Str) : Str :=
  reSub permRe (fun _ t =>
    s%"\\frac{(" ++ t.groupD 1 ++ s%")!}{((" ++ t.groupD 1 ++ s%")-(" ++ t.groupD 2 ++ s%"))!}") s

/-- latex2sympy2.py:48-54: the kind of fraction used by a text; the last test wins -/
def fracTypeOf (s : Str) (old : Str) : Str :=
  let t := if contains s%"\\frac" s then s%"\\frac" else old
  let t := if contains s%"\\dfrac" s then s%"\\dfrac" else t
  if contains s%"\\tfrac" s then s%"\\tfrac" else t

/-- latex2sympy2.py:55-70: textual preparation -/
def prepare (s : Str) : Str :=
  let s := replace s%"\\dfrac" s%"\\frac" s
  let s := replace s%"\\tfrac" s%"\\frac" s
  let s := replace s%"\\mathrm{T}" s%"T" s
  let s := replace s%"\\mathrm{d}" s%"d" s
  let s := replace s%"{\\rm d}" s%"d" s
  let s := replace s%"\\left[\\begin{matrix}" s%"\\begin{bmatrix}" s
  let s := replace s%"\\end{matrix}\\right]" s%"\\end{bmatrix}" s
  let s := permStep s
  let s := replace s%"\\displaystyle" s%" " s
  let s := replace s%"\\quad" s%" " s
  let s := replace s%"\\qquad" s%" " s
  let s := replace s%"~" s%" " s
  let s := replace s%"\\," s%" " s
  replace s%"$" s%" " s

/-- latex2sympy2.py:100-107: the items of a list, in order -/
def convItems (L : Lib Y) (rec : Str → List (Str × PV) → M (St Y) SV) : List T → M (St Y) (List SV)
  | [] => pure []
  | t :: ts => do
    let v ← conv L rec t
    let vs ← convItems L rec ts
    pure (v :: vs)

/-- latex2sympy2.py:46-114 `latex2sympy`.  The first argument is the recursion budget. -/
def latex2sympy (L : Lib Y) : Nat → Str → List (Str × PV) → M (St Y) SV
  | 0, _, _ => M.raise .recursionError
  | n + 1, s, values => do
    modG fun g => { g with fracType := fracTypeOf s g.fracType, values := values }
    match ← M.lift (L.parse (prepare s)) with
    | .list ts => do
      let vs ← convItems L (latex2sympy L n) ts
      pure (.list vs)
    | .one t => conv L (latex2sympy L n) t

/-- latex2sympy2.py:32-34 `set_real` -/
def setReal (b : Option Bool) : M (St Y) Unit := modG fun g => { g with isReal := b }

/-- latex2sympy2.py:37-43 `set_variances` -/
def setVariances (L : Lib Y) (vs : List (SV × SV)) : M (St Y) Unit := do
  modG fun g => { g with variances := vs, var := [] }
  go vs.reverse
where
  go : List (SV × SV) → M (St Y) Unit
    | [] => pure ()
    | (k, v) :: rest => do
      let s ← libExt (L.str k)
      modG fun g => { g with var := (s, v) :: g.var }
      go rest

/-- latex2sympy2.py:1129-1137 `latex`: the replacements on the text printed by SymPy -/
def latexText (fracType s : Str) : Str :=
  let s := replace s%"\\tfrac" fracType (replace s%"\\dfrac" fracType (replace s%"\\frac" fracType s))
  let s := replace s%"\\left[\\begin{matrix}" s%"\\begin{bmatrix}" s
  let s := replace s%"\\end{matrix}\\right]" s%"\\end{bmatrix}" s
  let s := replace s%"\\right" [] (replace s%"\\left" [] s)
  let s := replace s%" )" s%")" s
  replace s%"\\log" s%"\\ln" s

/-- latex2sympy2.py:1129-1137 `latex` -/
def latex (L : Lib Y) (v : SV) : M (St Y) Str := do
  let g ← getG
  let s ← libExt (L.latex v)
  pure (latexText g.fracType s)

/-- latex2sympy2.py:1140-1146 `latex2latex` -/
def latex2latex (L : Lib Y) (n : Nat) (s : Str) : M (St Y) Str := do
  let v ← latex2sympy L n s []
  match v with
  | .list _ => latex L v
  | .tuple _ => latex L v
  | _ => do
    let g ← getG
    let w ← L.ev s%"subs" (v :: g.variances.map fun p => SV.tuple [p.1, p.2])
    let w ← L.ev s%"doit" [w]
    let w ← L.ev s%"doit" [w]
    let w ← L.ev s%"simplify" [w]
    latex L w

end Verif.L2S
