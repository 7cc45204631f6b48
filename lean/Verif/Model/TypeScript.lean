import Verif.Model.Llm
import Verif.Model.Prompts
/-
Model of /repo/llm_type.py.

Simplification: the progress bar of `tqdm` is not modelled.
-/

namespace Verif

variable {X : Type}

/-- llm_type.py:24-33: the questions and answers of the example -/
def typeData : List (Str × Str) :=
  [(s%"What is the coordinate of line $y = x + 2$ intercepting with y-aixs.", s%"(0, 2)"),
   (s%"Given $|x - 1| < 1$, solve $x$.", s%"(0, 2)")]

/-- llm_type.py:37-43: the loop; `None` is printed as such -/
def typeLines (call : List Message → Ext X (Option Str)) : List (Str × Str) → M X Unit
  | [] => pure ()
  | (q, a) :: data => do
    let t ← getLlmType promptTemplate promptTemplate2 call q a 1 5
    M.print (t.getD s%"None")
    typeLines call data

/-- llm_type.py:1-44, the script; `key` is the environment variable `DASHSCOPE_API_KEY`, an empty one counts as not set -/
def typeScript (key : Option Str) (call : List Message → Ext X (Option Str)) : M X Unit :=
  if (key.getD []).isEmpty then M.raise .valueError
  else do
    let _ ← M.lift (createLlm s%"tongyi")
    typeLines call typeData

end Verif
