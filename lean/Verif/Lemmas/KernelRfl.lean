import Lean.Elab.Tactic.Basic
import Lean.Meta.AppBuilder

/-! `kernel_rfl` closes `a = b` with `Eq.refl a`, leaving the comparison to the kernel (`rfl` runs it in the elaborator
first, which is slow on closed computations; `decide +kernel` does the same for decidable statements). -/

open Lean Elab Tactic Meta in
elab "kernel_rfl" : tactic => do
  let g ← getMainGoal
  let t ← instantiateMVars (← g.getType)
  let some (_, lhs, _) := t.eq? | throwError "not an equation"
  g.assign (← mkEqRefl lhs)
