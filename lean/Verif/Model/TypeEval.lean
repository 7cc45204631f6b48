import Verif.Model.Evaluations
/-
Model of /repo/math_evaluation/core/type_evaluations.py.
-/

namespace Verif

variable {X V S : Type}

/-- A Python value used as a condition by `is_equiv_type`: a Boolean or a pair of Booleans
(a non-empty tuple is true). -/
inductive Verdict where
  | bool (b : Bool)
  | pair (b c : Bool)
deriving DecidableEq, Repr

/-- truth value -/
def Verdict.truthy : Verdict → Bool
  | .bool b => b
  | .pair _ _ => true

/-- `x.replace(...)` / `x.find(...)` / `x.startswith(...)` on a normal form: a set has no such
method -/
def Norm.needStr : Norm → M X Str
  | .str s => pure s
  | .set _ => M.raise .attributeError

/-- type_evaluations.py:25-53 `is_equiv_complex`.  After the `.replace` of lines 33-34 both sides
are strings, so only line 51 can run. -/
def isEquivComplex (E : Env X V S) (n : Nat) (gt pred : Str) : M X Verdict := do
  let a ← stringNormalize E n (strToComplex E.U gt)
  let a ← a.needStr
  let b ← stringNormalize E n (strToComplex E.U pred)
  let b ← b.needStr
  let a := replace s%"\\sqrt{-1}" s%"I" a
  let b := replace s%"\\sqrt{-1}" s%"I" b
  let r ← M.tryExcept (isLatexEquiv E (isEquivStr E n) n a b false) (fun _ => pure false)
  pure (.bool r)

/-- type_evaluations.py:56-71 `try_to_parse_function` on a string -/
def tryToParseFunction (E : Env X V S) (s : Str) : M X Str :=
  match find s%"=" s with
  | some (k + 1) =>
    M.tryExcept (do
      let f ← M.ext (E.l2s (s.take (k + 1)))
      let _ ← M.ext (E.inv f)
      pure (s.drop (k + 2))) (fun _ => pure s)
  | _ => pure s

/-- type_evaluations.py:74-93 `is_equiv_function` -/
def isEquivFunction (E : Env X V S) (n : Nat) (gt pred : Str) : M X Verdict := do
  if ← isEquivStr E n gt pred false then pure (.bool true)
  else do
    let a ← stringNormalize E n gt
    let b ← stringNormalize E n pred
    let a ← a.needStr
    let a ← tryToParseFunction E a
    let b ← b.needStr
    let b ← tryToParseFunction E b
    let r ← isEquivStr E n a b false
    pure (.bool r)

/-- enclosed in parentheses or in square brackets (type_evaluations.py:105, 130) -/
def enclosed (s : Str) : Bool :=
  (startsWith s%"(" s && endsWith s%")" s) || (startsWith s%"[" s && endsWith s%"]" s)

/-- Python `s[1:-1]` -/
def inner (s : Str) : Str := (s.drop 1).dropLast

/-- type_evaluations.py:104-111 `preprocess` of `is_equiv_vector` -/
def preVector (s : Str) : Str :=
  if enclosed s then s
  else if startsWith s%"{" s && endsWith s%"}" s then s%"[" ++ inner s ++ s%"]"
  else s%"[" ++ s ++ s%"]"

/-- type_evaluations.py:96-118 `is_equiv_vector`: returns the pair of `is_equiv_possible_tuple` -/
def isEquivVector (E : Env X V S) (n : Nat) (gt pred : Str) : M X Verdict := do
  let a ← stringNormalize E n gt
  let b ← stringNormalize E n pred
  let a ← a.needStr
  let b ← b.needStr
  M.tryExcept (do
    let (r, s) ← possibleTuple E (isEquivStr E n) (preVector a) (preVector b) false
    pure (.pair r s)) (fun _ => pure (.bool false))

/-- type_evaluations.py:129-132 `preprocess` of `is_equiv_set` -/
def preSet (s : Str) : Str := if enclosed s then inner s else s

/-- type_evaluations.py:121-139 `is_equiv_set`: returns the pair of `is_equiv_possible_tuple` -/
def isEquivSet (E : Env X V S) (n : Nat) (gt pred : Str) : M X Verdict := do
  let a ← stringNormalize E n gt
  let b ← stringNormalize E n pred
  let a ← a.needStr
  let b ← b.needStr
  M.tryExcept (do
    let (r, s) ← possibleTuple E (isEquivStr E n) (preSet a) (preSet b) false
    pure (.pair r s)) (fun _ => pure (.bool false))

/-- type_evaluations.py:149-161 `equiv_checks`, in order -/
def equivChecks (E : Env X V S) (n : Nat) : List (Str × (Str → Str → M X Verdict)) :=
  [(s%"Complex", isEquivComplex E n), (s%"Set", isEquivSet E n),
   (s%"Vector", isEquivVector E n), (s%"Function", isEquivFunction E n)]

/-- type_evaluations.py:163-169: the loop; `re.search` of a plain word is a substring test, and
raises `TypeError` on `None` -/
def checksLoop (answerType : Option Str) (gt pred : Str) :
    List (Str × (Str → Str → M X Verdict)) → M X Bool
  | [] => pure false
  | (name, check) :: rest =>
    match answerType with
    | none => M.raise .typeError
    | some t =>
      if contains name t then do
        let v ← check gt pred
        if v.truthy then pure true else checksLoop answerType gt pred rest
      else checksLoop answerType gt pred rest

/-- type_evaluations.py:142-171 `is_equiv_type` on two strings -/
def isEquivType (E : Env X V S) (n : Nat) (gt pred : Str) (answerType : Option Str)
    (verbose : Bool) : M X Bool := do
  if ← checksLoop answerType gt pred (equivChecks E n) then pure true
  else isEquivStr E n gt pred verbose

end Verif
