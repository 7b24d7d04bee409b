import Lean.Elab.Tactic.Basic
import Lean.Meta.AppBuilder
/-! `kernel_rfl` closes `a = b` with `Eq.refl a` and leaves the check to the kernel, which
evaluates rational arithmetic that the elaborator refuses to unfold. Nothing is trusted: if the two sides
are not definitionally equal the kernel rejects the theorem. -/

open Lean Elab Tactic Meta in
/-- Prove an equality by evaluation in the kernel. -/
elab "kernel_rfl" : tactic => do
  let g ← getMainGoal
  let t ← instantiateMVars (← g.getType)
  match t.eq? with
  | some (_, a, _) =>
    let p ← mkEqRefl a
    g.assign (mkExpectedPropHint p t)
  | none => throwError "kernel_rfl: not an equality"
