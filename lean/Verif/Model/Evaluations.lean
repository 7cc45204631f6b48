import Verif.Model.LatexParser
/-
Model of /repo/math_evaluation/core/evaluations.py.
-/

namespace Verif

variable {X V S : Type}

/-- The recursive call of `is_equiv` on two strings; the Boolean is `verbose`. -/
abbrev EqFun (X : Type) := Str → Str → Bool → M X Bool

/-- text printed by `print(normalized...)` in verbose mode (line 32); abstracted -/
def normLine : Str := s%"normalized"
/-- text printed by `print(elems...)` in verbose mode (line 110); abstracted -/
def elemsLine : Str := s%"elements"

/-- evaluations.py:82-97 `is_equiv_possible_intervals` (verdict, splitted) -/
def possibleIntervals (E : Env X V S) (gt gv : Str) : M X (Bool × Bool) := do
  let a ← strToInterval E gt
  let b ← strToInterval E gv
  match a, b with
  | none, none => pure (false, false)
  | some s, some t => do
    if ← M.ext (E.compareEq s t) then pure (true, true) else pure (false, true)
  | _, _ => pure (false, true)

/-- Python `len` of the result of `split_tuple` -/
def Elems.len : Elems → Nat
  | .str s => s.length
  | .list xs => xs.length
  | .tuple xs => xs.length
  | .set xs => xs.length

/-- Python `x in elems` for the result of `split_tuple` (substring test for a string) -/
def Elems.has (x : Str) : Elems → Bool
  | .str s => contains x s
  | .list xs => xs.contains x
  | .tuple xs => xs.contains x
  | .set xs => xs.contains x

/-- evaluations.py:125-128 -/
def zipLoop (f : Str → Str → M X Bool) : List Str → List Str → M X Bool
  | a :: as, b :: bs => do if ← f a b then zipLoop f as bs else pure false
  | _, _ => pure true

/-- evaluations.py:134-138: search among the prediction elements; the list carries the flags
`gv_found_matches`.  Returns the updated list if a match was found. -/
def matchOne (f : Str → M X Bool) : List (Str × Bool) → M X (Option (List (Str × Bool)))
  | [] => pure none
  | (b, true) :: rest => do
    match ← matchOne f rest with
    | some r => pure (some ((b, true) :: r))
    | none => pure none
  | (b, false) :: rest => do
    if ← f b then pure (some ((b, true) :: rest))
    else
      match ← matchOne f rest with
      | some r => pure (some ((b, false) :: r))
      | none => pure none

/-- evaluations.py:132-139: the flags `gt_found_matches`, in order -/
def matchLoop (f : Str → Str → M X Bool) : List Str → List (Str × Bool) → M X (List Bool)
  | [], _ => pure []
  | a :: as, bs => do
    match ← matchOne (f a) bs with
    | some bs' => do
      let r ← matchLoop f as bs'
      pure (true :: r)
    | none => do
      let r ← matchLoop f as bs
      pure (false :: r)

/-- evaluations.py:130-139 -/
def setsMatch (f : Str → Str → M X Bool) (as bs : List Str) : M X Bool := do
  let flags ← matchLoop f as (bs.map fun b => (b, false))
  pure (flags.all id)

/-- same Python type -/
def Elems.sameType : Elems → Elems → Bool
  | .str _, .str _ => true
  | .list _, .list _ => true
  | .tuple _, .tuple _ => true
  | .set _, .set _ => true
  | _, _ => false

/-- evaluations.py:112-141: comparison of split answers -/
def elemsEquiv (eq : EqFun X) (gt gv : Str) (verbose : Bool) (a b : Elems) : M X (Bool × Bool) :=
  match a, b with
  | .str x, .str y =>
    if x = gt ∧ y = gv then pure (false, false)
    else do
      let r ← eq x y verbose
      pure (r, true)
  | a, b =>
    if a.len ≠ b.len ∧ !(b.has s%"\\in") then pure (false, true)
    else if !a.sameType b then pure (false, true)
    else match a, b with
      | .list xs, .list ys => do
        let r ← zipLoop (fun x y => eq x y verbose) xs ys
        pure (r, true)
      | .tuple xs, .tuple ys => do
        let r ← zipLoop (fun x y => eq x y verbose) xs ys
        pure (r, true)
      | .set xs, .set ys => do
        let r ← setsMatch (fun x y => eq x y verbose) xs ys
        pure (r, true)
      | _, _ => pure (false, true)

/-- evaluations.py:100-141 `is_equiv_possible_tuple` -/
def possibleTuple (E : Env X V S) (eq : EqFun X) (gt gv : Str) (verbose : Bool) :
    M X (Bool × Bool) := do
  let a ← M.lift (splitTuple E.U E.setOrder gt none)
  let b ← M.lift (splitTuple E.U E.setOrder gv none)
  if verbose then M.print elemsLine
  elemsEquiv eq gt gv verbose a b

/-- evaluations.py:164-179 -/
def rowsEquiv (eq : EqFun X) : List Row → List Row → M X Bool
  | .str x :: as, .str y :: bs => do
    if ← eq x y false then rowsEquiv eq as bs else pure false
  | .list xs :: as, .list ys :: bs =>
    if xs.length ≠ ys.length then pure false
    else do
      if ← zipLoop (fun x y => eq x y false) xs ys then rowsEquiv eq as bs else pure false
  | _ :: _, _ :: _ => pure false
  | _, _ => pure true

/-- evaluations.py:144-182 `is_equiv_possible_matrix` -/
def possibleMatrix (E : Env X V S) (eq : EqFun X) (gt gv : Str) : M X (Bool × Bool) := do
  let a ← splitMatrix E gt
  let b ← splitMatrix E gv
  match a, b with
  | .str x, .str y =>
    if x = gt ∧ y = gv then pure (false, false)
    else do
      let r ← eq x y false
      pure (r, true)
  | .rows xs, .rows ys =>
    if xs.length ≠ ys.length then pure (false, true)
    else do
      let r ← rowsEquiv eq xs ys
      pure (r, true)
  | _, _ => pure (false, true)

/-- evaluations.py:67: the reference contains a bracket -/
def hasBracket (s : Str) : Bool :=
  contains s%"(" s || contains s%")" s || contains s%"[" s || contains s%"]" s

/-- evaluations.py:58-79 `is_latex_equiv`; `eq` is `is_equiv`, `n` the recursion budget left for
the CAS comparison -/
def isLatexEquiv (E : Env X V S) (eq : EqFun X) (n : Nat) (gt gv : Str) (verbose : Bool) :
    M X Bool := do
  if gv.isEmpty then pure false
  else do
    let (c, s) ← (if hasBracket gt then possibleIntervals E gt gv else pure (false, false))
    let (c, s) ← (if !c then possibleTuple E eq gt gv verbose else pure (c, s))
    let (c, s) ← (if !c && (strIsMat gt || strIsMat gv) then possibleMatrix E eq gt gv
      else pure (c, s))
    if !c && !s then areEqualUnderSympy E n gt gv verbose else pure c

/-- the readings of a normal form (evaluations.py:42-45) -/
def Norm.readings : Norm → List Str
  | .str s => [s]
  | .set xs => xs

/-- evaluations.py:47-49 -/
def readingsInner (f : Str → Str → M X Bool) (g : Str) : List Str → M X Bool
  | [] => pure false
  | v :: vs => do if ← f g v then pure true else readingsInner f g vs

/-- evaluations.py:46-50 -/
def readingsOuter (f : Str → Str → M X Bool) : List Str → List Str → M X Bool
  | [], _ => pure false
  | g :: gs, vs => do if ← readingsInner f g vs then pure true else readingsOuter f gs vs

/-- evaluations.py:29-55: comparison of the normal forms -/
def compareNorms (E : Env X V S) (eq : EqFun X) (n : Nat) (verbose : Bool) (a b : Norm) :
    M X Bool :=
  let strPass := match a, b with
    | .str x, .str y => decide (x = y)
    | _, _ => false
  if strPass then pure true
  else
    M.tryExcept (match a, b with
      | .str x, .str y => isLatexEquiv E eq n x y verbose
      | a, b => readingsOuter (fun x y => isLatexEquiv E eq n x y verbose) a.readings b.readings)
      (fun _ => pure false)

/-- evaluations.py:18-55 `is_equiv` on two strings.  The first argument is the recursion budget;
calling with none left is `RecursionError`. -/
def isEquivStr (E : Env X V S) : Nat → EqFun X
  | 0, _, _, _ => M.raise .recursionError
  | n + 1, gt, gv, verbose =>
    if strip gt = strip gv then pure true
    else do
      let a ← stringNormalize E n gt
      let b ← stringNormalize E n gv
      if verbose then M.print normLine
      compareNorms E (isEquivStr E n) n verbose a b

/-- evaluations.py:18-55 `is_equiv` -/
def isEquiv (E : Env X V S) (n : Nat) (gt gv : Option Str) (verbose : Bool) : M X Bool :=
  match gt, gv with
  | none, none => do
    M.print s%"WARNING: Both None"
    pure true
  | some a, some b => isEquivStr E n a b verbose
  | _, _ => pure false

end Verif
