import Lean.Elab.Tactic.Basic
import Lean.Meta.AppBuilder

/-! `kernel_rfl` closes a goal `a = b` by reflexivity, which the kernel then checks. -/

open Lean Elab Tactic Meta

elab "kernel_rfl" : tactic => do
  let g ← getMainGoal
  let t ← instantiateMVars (← g.getType)
  match t.consumeMData.eq? with
  | some (_, a, _) => g.assign (← mkEqRefl a)
  | none => throwError "not an equation"
