import Lean.Elab.Tactic.Basic
import Lean.Meta.AppBuilder
/-!
# `kernel_rfl`

Closes an equation by `Eq.refl` and leaves the comparison of both sides to the kernel, which evaluates closed string code
much faster than the elaborator. Nothing is trusted beyond the kernel: a wrong equation is rejected when the theorem is
added.
-/
namespace Oxml

open Lean Elab Tactic Meta in
elab "kernel_rfl" : tactic => do
  let g ← getMainGoal
  let t ← instantiateMVars (← g.getType)
  match t.eq? with
  | some (_, a, _) => g.assign (← mkEqRefl a)
  | none => throwError "not an equation"

end Oxml
