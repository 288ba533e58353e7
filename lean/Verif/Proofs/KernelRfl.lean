import Lean
/-!
`kernel_rfl`: closes a goal `a = b` with `Eq.refl a`, leaving it to the kernel to check that `a` and `b` evaluate to the same value.
-/
open Lean Meta Elab Tactic in
/-- Closes `a = b` by evaluation in the kernel. -/
elab "kernel_rfl" : tactic => do
  let g ← getMainGoal
  let t ← instantiateMVars (← g.getType)
  let some (_, lhs, _) := t.eq? | throwError "not an equality"
  g.assign (← mkEqRefl lhs)
