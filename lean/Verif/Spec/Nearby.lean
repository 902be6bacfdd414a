import Verif.Spec.Trajectory

/-!
# Specification: two trajectories are close to each other
-/

set_option autoImplicit false

namespace Trajopt.Spec

/-- Nothing about the two states differs by more than `δ`. -/
structure State.CloseTo (δ : ℝ) (a b : State) : Prop where
  pos : ‖a.pos - b.pos‖ ≤ δ
  heading : ‖a.heading - b.heading‖ ≤ δ
  vel : ‖a.vel - b.vel‖ ≤ δ
  acc : ‖a.acc - b.acc‖ ≤ δ
  omega : |a.omega - b.omega| ≤ δ
  alpha : |a.alpha - b.alpha| ≤ δ

/-- Nothing about the two trajectories, with interval counts `N` and `m` modules, differs by more than `δ`. -/
structure Traj.CloseTo (δ : ℝ) (N : List ℕ) (m : ℕ) (T T' : Traj) : Prop where
  state : ∀ n < sampleCount N, (T.state n).CloseTo δ (T'.state n)
  force : ∀ n < sampleCount N, ∀ j < m, ‖T.force n j - T'.force n j‖ ≤ δ
  dt : ∀ s < N.length, 0 < N.getD s 0 → |T.dt s - T'.dt s| ≤ δ

end Trajopt.Spec
