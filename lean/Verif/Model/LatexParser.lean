import Verif.Model.Normalize
/-
Model of /repo/math_evaluation/core/latex_parser.py (except `count_unknown_letters_in_expr` and
`should_allow_eval`, which nothing calls).

Simplifications: the thresholds 1e-3 and 5 * 1e-3 (binary64) are the rationals 1/1000 and 5/1000;
sympy symbols are represented by unique keys; `Exception` and bare `except` are the same
(KeyboardInterrupt and SystemExit are not modelled); a timeout is an exception raised by the
external call.
-/

namespace Verif

variable {X V S : Type}

/-- constants.py:4-12, the answer types -/
inductive Ty where
  | cplx | vec | set | mat | func | equl | expr | ineq | oths
deriving DecidableEq, Repr

/-- constants.py:16 `EPSILON` -/
def epsilon : Rat := 1 / 1000

/-- latex_parser.py:41-51: try `latex2sympy`, then `parse_latex` -/
def parseCands12 (E : Env X V S) (s : Str) : M X (Option V × Option V) := do
  let a ← M.tryExcept (do let v ← M.ext (E.l2s s); pure (some v)) (fun _ => pure none)
  match a with
  | some v => pure (some v, none)
  | none =>
    let b ← M.tryExcept (do let v ← M.ext (E.parseLatex s); pure (some v)) (fun _ => pure none)
    pure (none, b)

/-- latex_parser.py:53-72: `parse_expr`, dropped if it duplicates another candidate -/
def parseCand3 (E : Env X V S) (s : Str) (a b : Option V) : M X (Option V) :=
  M.tryExcept (do
    let v ← M.ext (E.parseExpr (replace s%"^" s%"**" s))
    -- a tuple with more than two elements becomes a list
    let v := match E.view v with
      | .tuple xs => if 2 < xs.length then E.ofList xs else v
      | _ => v
    let dup ← (match a with
      | some l => do if ← M.ext (E.truth l) then M.ext (E.eqv v l) else pure false
      | none => pure false)
    let r : Option V := if dup then none else some v
    match b with
    | some p => do
      if ← M.ext (E.truth p) then
        -- after line 68 the left side may be None; `None == sp_expr` is False
        match r with
        | some v => do if ← M.ext (E.eqv v p) then pure none else pure (some v)
        | none => pure none
      else pure r
    | none => pure r) (fun _ => pure none)

/-- latex_parser.py:22-74 `_sympy_parse`: the three candidates (`none` is `None`) -/
def sympyParse (E : Env X V S) (s : Str) : M X (List (Option V)) := do
  let (a, b) ← parseCands12 E s
  let c ← parseCand3 E s a b
  pure [a, b, c]

/-- latex_parser.py:100-105 `_is_sympy_zero` -/
def isSympyZero (E : Env X V S) (v : V) : M X Bool :=
  match E.view v with
  | .expr _ => M.ext (E.isZeroExpr v)
  | .matrix _ _ _ => M.ext (E.isZeroMatrix v)
  | _ => pure false

/-- latex_parser.py:108-140 `_get_sympy_type` -/
def getType (E : Env X V S) (v : V) : M X Ty :=
  match E.view v with
  | .list _ => pure .vec
  | .set _ => pure .set
  | .equality lhs _ => do
    let i ← M.ext (E.inv lhs)
    if ← M.ext (E.isNamedFunction lhs) then pure .func
    else if ← M.ext (E.isNamedFunction i) then pure .func
    else if ← M.ext (E.isSymbol lhs) then pure .func
    else pure .equl
  | .rel _ _ _ => pure .ineq
  | .expr hasI => pure (if hasI then .cplx else .expr)
  | .matrix _ _ _ => pure .mat
  | .tuple _ => pure .oths
  | .other => pure .oths

/-- `.rows` and `.cols` of a matrix; other values have no such attributes -/
def dims (E : Env X V S) (v : V) : M X (Nat × Nat) :=
  match E.view v with
  | .matrix r c _ => pure (r, c)
  | _ => M.raise .attributeError

/-- latex_parser.py:143-151 `_list_to_mat` -/
def listToMat (E : Env X V S) (v : V) (rows cols : Nat) : M X V := do
  let m ← M.ext (E.mkMatrix v)
  let (r, c) ← dims E m
  if r = rows ∧ c = cols then pure m
  else if (rows = 1 ∧ r = cols) ∨ (cols = 1 ∧ c = rows) then M.ext (E.transpose m)
  else M.raise .valueError

/-- latex_parser.py:154-160 `_ineq_to_expr` -/
def ineqToExpr (E : Env X V S) (v : V) : M X V :=
  match E.view v with
  | .rel .le l r => M.ext (E.sub l r)
  | .rel .lt l r => M.ext (E.sub l r)
  | .rel .ge l r => M.ext (E.sub r l)
  | .rel .gt l r => M.ext (E.sub r l)
  | .rel .ne _ _ => M.raise .valueError
  | _ => M.raise .attributeError

/-- `v.rel_op` -/
def relOp (E : Env X V S) (v : V) : M X RelOp :=
  match E.view v with
  | .rel op _ _ => pure op
  | _ => M.raise .attributeError

/-- latex_parser.py:163-167 `_uneq_to_set`: the elements inserted into the set -/
def uneqToSet (E : Env X V S) (v : V) : M X (List V) :=
  match E.view v with
  | .rel .ne l r => pure [l, r]
  | .rel _ _ _ => M.raise .valueError
  | _ => M.raise .attributeError

/-- latex_parser.py:170-178 `expr_with_only_i` -/
def exprWithOnlyI (E : Env X V S) (v : V) : M X (V × Bool) := do
  match ← M.ext (E.freeSyms v) with
  | [k] =>
    if E.symName k = s%"i" then
      let w ← M.ext (E.subsI v k)
      pure (w, true)
    else pure (v, false)
  | _ => pure (v, false)

/-- latex_parser.py:181-193 `sympy_simplify` -/
def sympySimplify (E : Env X V S) (v : V) : M X V :=
  M.tryExcept (do if ← M.ext (E.isNumber v) then M.ext (E.evalf v) else M.ext (E.simplify v))
    (fun e => do M.print (errLine e); M.raise .runtimeError)

/-- latex_parser.py:196-206 `sympy_expand_equal` -/
def sympyExpandEqual (E : Env X V S) (g v : V) : M X Bool :=
  M.tryExcept (M.ext (E.expandEq g v)) (fun e => do M.print (errLine e); pure false)

/-- latex_parser.py:209-220 `sympy_abs` -/
def sympyAbs (E : Env X V S) (v : V) : M X V :=
  M.tryExcept (M.ext (E.abs v)) (fun e => do M.print (errLine e); M.raise .runtimeError)

/-- latex_parser.py:223-236 `sympy_evalf` without substitution; `none` is `None` -/
def sympyEvalf (E : Env X V S) (v : V) : M X (Option V) :=
  M.tryExcept (do let w ← M.ext (E.evalf v); pure (some w))
    (fun e => do M.print (errLine e); pure none)

/-- latex_parser.py:223-236 `sympy_evalf` with a substitution -/
def sympyEvalfAt (E : Env X V S) (v : V) (σ : List (Str × V)) : M X (Option V) :=
  M.tryExcept (do let w ← M.ext (E.evalfAt v σ); pure (some w))
    (fun e => do M.print (errLine e); pure none)

/-- A value that is going to be used as a condition. -/
inductive Cond (V : Type) where
  | lit (b : Bool)
  | val (v : V)

/-- The truth value of a condition. -/
def Cond.test (E : Env X V S) : Cond V → M X Bool
  | .lit b => pure b
  | .val v => M.ext (E.truth v)

/-- latex_parser.py:266-271 `abs_smaller_than_threshold`: `a or b` returns the deciding object -/
def absSmaller (E : Env X V S) (v : V) (thr : Rat) : M X (Cond V) :=
  M.tryExcept (do
    let a ← sympyAbs E v
    let r ← M.ext (E.ltThr a thr)
    if ← M.ext (E.truth r) then pure (.val r)
    else
      match ← sympyEvalf E a with
      | some b => do
        let r ← M.ext (E.ltThr b thr)
        pure (.val r)
      | none => M.raise .typeError) (fun _ => pure (.lit false))

/-- latex_parser.py:259-283 `_diff_equal` -/
def diffEqual (E : Env X V S) (g diff : V) : M X (Cond V) := do
  if ← isSympyZero E diff then pure (.lit true)
  else if ← M.ext (E.isNumber diff) then do
    let syms ← M.ext (E.freeSyms g)
    let small ← (if !syms.isEmpty then pure true else M.ext (E.isInteger g))
    if small then absSmaller E diff epsilon
    else do
      let a ← sympyAbs E g
      if ← M.ext (E.ge1 a) then absSmaller E diff (5 * epsilon)
      else do
        let pos ← (do
          if ← M.ext (E.isNumber g) then do
            let a ← sympyAbs E g
            M.ext (E.gt0 a)
          else pure false)
        if pos then do
          let q ← M.ext (E.div diff g)
          absSmaller E q epsilon
        else pure (.lit false)
  else pure (.lit false)

/-- latex_parser.py:250: one random value per symbol -/
def drawAll (rng : Ext X V) : List Str → M X (List (Str × V))
  | [] => pure []
  | k :: ks => do
    let v ← M.ext rng
    let rest ← drawAll rng ks
    pure ((k, v) :: rest)

/-- equality of two Python sets of symbols -/
def sameSyms (a b : List Str) : Bool := a.all (b.contains ·) && b.all (a.contains ·)

/-- latex_parser.py:249-255: `n` rounds of sampling -/
def sampleLoop (E : Env X V S) (g v : V) (rng : Ext X V) (syms : List Str) : Nat → M X Bool
  | 0 => pure true
  | n + 1 => do
    let σ ← drawAll rng syms
    let tg ← sympyEvalfAt E g σ
    let tv ← sympyEvalfAt E v σ
    match tg, tv with
    | some a, some b => do
      let d ← M.ext (E.sub a b)
      let r ← diffEqual E a d
      if ← r.test E then sampleLoop E g v rng syms n else pure false
    | _, _ => pure false

/-- latex_parser.py:239-256 `_numerical_equal` -/
def numericalEqual (E : Env X V S) (g v : V) (rng : Ext X V) : M X Bool := do
  let a ← M.ext (E.freeSyms g)
  let b ← M.ext (E.freeSyms v)
  if !sameSyms a b then pure false
  else do
    let syms ← M.ext (E.freeSyms g)
    sampleLoop E g v rng syms 10

/-- latex_parser.py:409-412: numbers are evaluated (`None` if evaluation fails) -/
def evalIfNumber (E : Env X V S) (v : V) : M X (Option V) := do
  if ← M.ext (E.isNumber v) then sympyEvalf E v else pure (some v)

/-- latex_parser.py:441-450 -/
def numericStage (E : Env X V S) (g v : V) : M X Bool :=
  M.tryExcept (do
    let a ← M.ext (E.freeSyms g)
    let both ← (if !a.isEmpty then do
        let b ← M.ext (E.freeSyms v)
        pure !b.isEmpty
      else pure false)
    if both then do
      if ← numericalEqual E g v E.randint then pure true else numericalEqual E g v E.uniform
    else pure false) (fun _ => pure false)

/-- latex_parser.py:409-450, the comparison of plain expressions.  If `evalf` failed the value is
`None`: expansion and subtraction raise (caught), and the last stage yields `False` or `None`.
Simplification: library calls made on the other value after that point are not represented. -/
def scalarEqual (E : Env X V S) (g v : V) : M X Bool := do
  let g ← evalIfNumber E g
  let v ← evalIfNumber E v
  match g, v with
  | some g, some v => do
    if ← sympyExpandEqual E g v then pure true
    else do
      let d ← M.tryExcept (do
        let w ← M.ext (E.sub g v)
        let d ← sympySimplify E w
        diffEqual E g d) (fun _ => pure (.lit false))
      if ← d.test E then pure true else numericStage E g v
  | _, _ => do
    M.print (errLine .attributeError)
    pure false

/-- `all` over pairs with early exit -/
def allPairs {α : Type} (f : α → α → M X Bool) : List α → List α → M X Bool
  | a :: as, b :: bs => do if ← f a b then allPairs f as bs else pure false
  | _, _ => pure true

/-- latex_parser.py:314-318: search for a match of one element -/
def findMatch {α : Type} (f : α → M X Bool) : List α → M X Bool
  | [] => pure false
  | b :: bs => do if ← f b then pure true else findMatch f bs

/-- latex_parser.py:311-322 -/
def allFound {α : Type} (f : α → α → M X Bool) : List α → List α → M X Bool
  | [], _ => pure true
  | a :: as, bs => do if ← findMatch (f a) bs then allFound f as bs else pure false

/-- indices of an `m × n` matrix in row-major order (latex_parser.py:354-355) -/
def matIndices (m n : Nat) : List (Nat × Nat) :=
  (List.range m).flatMap fun i => (List.range n).map fun j => (i, j)

/-- latex_parser.py:354-362 -/
def entriesEqual (f : V → V → M X Bool) (eg ev : Nat → Nat → V) : List (Nat × Nat) → M X Bool
  | [] => pure true
  | (i, j) :: rest => do
    if ← f (eg i j) (ev i j) then entriesEqual f eg ev rest else pure false

/-- Compare two values with their own types. -/
def eqTyped (E : Env X V S) (rec : V → V → Ty → Ty → M X Bool) (g v : V) : M X Bool := do
  let tg ← getType E g
  let tv ← getType E v
  rec g v tg tv

/-- `.lhs - .rhs` of an equation (latex_parser.py:325-326) -/
def eqDiff (E : Env X V S) (v : V) : M X V :=
  match E.view v with
  | .equality l r => M.ext (E.sub l r)
  | .rel _ l r => M.ext (E.sub l r)
  | _ => M.raise .attributeError

/-- latex_parser.py:324-330 -/
def equationsEqual (E : Env X V S) (rec : V → V → Ty → Ty → M X Bool) (g v : V) : M X Bool := do
  let g ← eqDiff E g
  let v ← eqDiff E v
  let tg ← getType E g
  let tv ← getType E v
  if ← rec g v tg tv then pure true
  else do
    let ng ← M.ext (E.neg g)
    rec ng v tg tv

/-- `<=` or `>=` -/
def RelOp.nonStrict (o : RelOp) : Bool := o == .le || o == .ge
/-- `<` or `>` -/
def RelOp.strict (o : RelOp) : Bool := o == .lt || o == .gt

/-- latex_parser.py:332-347.  Line 344 applies `_uneq_to_set` to the set made in line 343, which
has no attribute `rel_op`. -/
def ineqsEqual (E : Env X V S) (rec : V → V → Ty → Ty → M X Bool) (g v : V) : M X Bool := do
  let og ← relOp E g
  let ov ← relOp E v
  if (og.nonStrict && ov.nonStrict) || (og.strict && ov.strict) then do
    let g ← ineqToExpr E g
    let v ← ineqToExpr E v
    eqTyped E rec g v
  else do
    let _ ← uneqToSet E g
    M.raise .attributeError

/-- latex_parser.py:349-362 -/
def matricesEqual (E : Env X V S) (rec : V → V → Ty → Ty → M X Bool) (g v : V) : M X Bool :=
  match E.view g, E.view v with
  | .matrix rg cg eg, .matrix rv cv ev =>
    if rv ≠ rg ∨ cv ≠ cg then pure false
    else entriesEqual (eqTyped E rec) eg ev (matIndices rg cg)
  | _, _ => M.raise .attributeError

/-- latex_parser.py:382-392 -/
def complexEqual (E : Env X V S) (rec : V → V → Ty → Ty → M X Bool) (g v : V) : M X Bool := do
  let gr ← M.ext (E.re g)
  let gi ← M.ext (E.im g)
  let vr ← M.ext (E.re v)
  let vi ← M.ext (E.im v)
  let tgr ← getType E gr
  let tgi ← getType E gi
  let tvr ← getType E vr
  let tvi ← getType E vi
  if ← rec gr vr tgr tvr then rec gi vi tgi tvi else pure false

/-- latex_parser.py:400-407: an equation is replaced by its right-hand side -/
def rhsIfEq (E : Env X V S) (v : V) (t : Ty) : M X (V × Ty) :=
  match E.view v with
  | .equality _ r => do
    let t ← getType E r
    pure (r, t)
  | _ => pure (v, t)

/-- latex_parser.py:400-407 -/
def functionsEqual (E : Env X V S) (rec : V → V → Ty → Ty → M X Bool) (g v : V) (tg tv : Ty) :
    M X Bool := do
  let (g, tg) ← rhsIfEq E g tg
  let (v, tv) ← rhsIfEq E v tv
  rec g v tg tv

/-- elements of a Python list -/
def listElems (E : Env X V S) (v : V) : M X (List V) :=
  match E.view v with
  | .list xs => pure xs
  | _ => M.raise .typeError

/-- elements of a Python set -/
def setElems (E : Env X V S) (v : V) : M X (List V) :=
  match E.view v with
  | .set xs => pure xs
  | _ => M.raise .typeError

/-- latex_parser.py:286-450 `_are_equal_latex_sympy`, one level; `rec` is the recursive call.
A type tag is a Python string passed along with the value, so the tag and the value may disagree
(lines 330, 370, 378, 398). -/
def areEqualBody (E : Env X V S) (rec : V → V → Ty → Ty → M X Bool) (g v : V) (tg tv : Ty) :
    M X Bool :=
  match tg, tv with
  -- lines 292-293
  | .vec, .set => pure false
  | .set, .vec => pure false
  -- lines 295-305
  | .vec, .vec => do
    let xs ← listElems E g
    let ys ← listElems E v
    if xs.length ≠ ys.length then pure false else allPairs (eqTyped E rec) xs ys
  -- lines 307-322
  | .set, .set => do
    let xs ← setElems E g
    let ys ← setElems E v
    if xs.length ≠ ys.length then pure false else allFound (eqTyped E rec) xs ys
  -- lines 324-330
  | .equl, .equl => equationsEqual E rec g v
  -- lines 332-347
  | .ineq, .ineq => ineqsEqual E rec g v
  -- lines 349-362
  | .mat, .mat => matricesEqual E rec g v
  -- lines 364-372
  | .mat, .vec => do
    let (r, c) ← dims E g
    M.tryExcept (do
      let w ← listToMat E v r c
      rec g w .mat .mat) (fun _ => pure false)
  -- lines 373-380
  | .vec, .mat => do
    let (r, c) ← dims E v
    M.tryExcept (do
      let w ← listToMat E g r c
      rec w v .mat .mat) (fun _ => pure false)
  -- lines 382-392
  | .cplx, .cplx => complexEqual E rec g v
  -- lines 394-398
  | .expr, .expr => do
    let (g, gi) ← exprWithOnlyI E g
    let (v, vi) ← exprWithOnlyI E v
    if gi || vi then rec g v .cplx .cplx else scalarEqual E g v
  -- lines 400-407, otherwise lines 409-450
  | tg, tv => if tg = .func ∨ tv = .func then functionsEqual E rec g v tg tv else scalarEqual E g v

/-- latex_parser.py:286-450 `_are_equal_latex_sympy` with a recursion budget -/
def areEqual (E : Env X V S) : Nat → V → V → Ty → Ty → M X Bool
  | 0, _, _, _, _ => M.raise .recursionError
  | n + 1, g, v, tg, tv => areEqualBody E (areEqual E n) g v tg tv

/-- latex_parser.py:469-482: all prediction candidates for one reference candidate -/
def candsInner (cmp : V → V → M X Bool) (g : V) : List (Option V) → M X Bool
  | [] => pure false
  | none :: vs => candsInner cmp g vs
  | some v :: vs => do if ← cmp g v then pure true else candsInner cmp g vs

/-- latex_parser.py:466-484 -/
def candsOuter (cmp : V → V → M X Bool) : List (Option V) → List (Option V) → M X Bool
  | [], _ => pure false
  | none :: gs, vs => candsOuter cmp gs vs
  | some g :: gs, vs => do if ← candsInner cmp g vs then pure true else candsOuter cmp gs vs

/-- text printed for the candidates in verbose mode; abstracted -/
def candsLine : Str := s%"candidates"

/-- latex_parser.py:453-484 `are_equal_with_simplify` -/
def areEqualWithSimplify (E : Env X V S) (n : Nat) (gt gv : Str) (verbose : Bool) : M X Bool := do
  let gs ← sympyParse E gt
  let vs ← sympyParse E gv
  if verbose then do
    M.print candsLine
    M.print candsLine
  candsOuter (eqTyped E (areEqual E n)) gs vs

/-- latex_parser.py:487-540 `are_equal_under_sympy` -/
def areEqualUnderSympy (E : Env X V S) (n : Nat) (gt gv : Str) (verbose : Bool) : M X Bool :=
  M.tryExcept (areEqualWithSimplify E n gt gv verbose) (fun _ => pure false)

end Verif
