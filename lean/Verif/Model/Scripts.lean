import Verif.Model.Evaluations
/-
Model of /repo/demo.py (`is_equiv_MATH`) and /repo/example_tora_eval.py.
-/

namespace Verif

variable {X V S : Type}

/-- The `ground_truth` argument of `is_equiv_MATH`. -/
inductive GroundTruth where
  | list (gs : List (Option Str))
  | str (s : Str)
  /-- anything else, e.g. `None` -/
  | other

/-- demo.py:22-24: the loop over the references -/
def mathLoop (f : Option Str → M X Bool) : List (Option Str) → M X Bool
  | [] => pure false
  | g :: gs => do if ← f g then pure true else mathLoop f gs

/-- demo.py:11-28 `is_equiv_MATH` -/
def isEquivMATH (E : Env X V S) (n : Nat) (gt : GroundTruth) (pred : Option Str) (verbose : Bool) :
    M X Bool :=
  match gt with
  | .list gs => mathLoop (fun g => isEquiv E n g pred verbose) gs
  | .str s => isEquiv E n (some s) pred verbose
  | .other => M.raise .assertionError

/-- example_tora_eval.py:30-36 `extract_boxed` -/
def extractBoxed (output : Str) : Option Str :=
  match rfind s%"\\boxed{" output with
  | some (k + 1) =>
    let l := k + 1 + 7
    -- the text contains the brace of `\boxed{`, so `rfind("}")` may still be -1
    match rfind s%"}" output with
    | some r => some (slice output l r)
    | none => some (slice output l (output.length - 1))
  | _ => none

/-- A record of the model output file: question and the list `code`. -/
structure ToraRecord where
  question : Str
  code : List Str

/-- example_tora_eval.py:24-28: the dictionary of annotated answers; later entries win -/
def q2aLookup (data : List (Str × GroundTruth)) (q : Str) : Option GroundTruth :=
  data.reverse.lookup q

/-- example_tora_eval.py:38-46: counting loop -/
def toraLoop (eqMath : GroundTruth → Str → M X Bool) (data : List (Str × GroundTruth)) :
    Nat → List ToraRecord → M X Nat
  | cnt, [] => pure cnt
  | cnt, r :: rs =>
    match q2aLookup data r.question with
    | none => M.raise .keyError
    | some ans =>
      match r.code.getLast? with
      | none => M.raise .indexError
      | some out =>
        match extractBoxed out with
        | none => toraLoop eqMath data cnt rs
        | some p => do
          if ← eqMath ans p then toraLoop eqMath data (cnt + 1) rs else toraLoop eqMath data cnt rs

/-- example_tora_eval.py:22, 38-48: the printed accuracy.  Simplification: the quotient is
rational instead of binary64. -/
def toraAccuracy (eqMath : GroundTruth → Str → M X Bool) (data : List (Str × GroundTruth))
    (recs : List ToraRecord) : M X Rat :=
  if recs.length ≠ data.length then M.raise .assertionError
  else do
    let cnt ← toraLoop eqMath data 0 recs
    if recs.length = 0 then M.raise .zeroDivisionError
    else pure ((cnt : Rat) / (recs.length : Rat))

end Verif
