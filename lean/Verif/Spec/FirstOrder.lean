import Verif.Spec.Smooth
import Mathlib.Analysis.Calculus.FDeriv.Basic
import Mathlib.Algebra.BigOperators.Group.Finset.Basic

/-!
# Specification: first-order conditions for a minimum

The solver does not compare trajectories with one another: it looks for a point at which the gradient
of the cost is balanced by the gradients of the constraints that are active there.
-/

set_option autoImplicit false

namespace Trajopt.Spec

open scoped Classical in
/-- The gradient of the cost, `l` times, is balanced at `x` by those of the constraints, `m` times.  Multipliers of
inequalities have the sign that keeps the variables from leaving, and only active constraints push. -/
structure Balanced (p : Problem ℝ) (x : Fin p.nvars → ℝ) (l : ℝ) (m : Con ℝ → ℝ) : Prop where
  cost : 0 ≤ l
  le : ∀ a b, 0 ≤ m (.le a b)
  ge : ∀ a b, m (.ge a b) ≤ 0
  unlimited : ∀ a, m (.leInf a) = 0
  active : ∀ c ∈ p.cons, m c ≠ 0 → conFun (ofVec x) c = 0
  balance : ∀ e, p.cost = some e → ∀ d : Fin p.nvars → ℝ,
    l * fderiv ℝ (fun y : Fin p.nvars → ℝ => e.eval (ofVec y)) x d +
      ∑ c ∈ p.cons.toFinset, m c * fderiv ℝ (fun y : Fin p.nvars → ℝ => conFun (ofVec y) c) x d = 0

/-- The constraint is an inequality. -/
def Inequality : Con ℝ → Prop
  | .le _ _ | .ge _ _ => True
  | .eq _ _ | .leInf _ => False

end Trajopt.Spec
