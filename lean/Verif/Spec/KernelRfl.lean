import Lean.Elab.Tactic.Basic
/-
A tactic for concrete runs with free variables (a recursion budget, a state): the kernel checks
the computation by definitional unfolding.  Nothing is trusted besides the kernel.
-/

namespace Verif

open Lean Elab Tactic Meta in
/-- Close `a = b` by reflexivity, leaving the whole computation to the kernel. -/
elab "kernel_rfl" : tactic => do
  let g ← getMainGoal
  let t ← instantiateMVars (← g.getType)
  let some (_, lhs, _) := t.eq? | throwError "kernel_rfl: not an equation"
  g.assign (← mkEqRefl lhs)

end Verif
