import Verif.Spec.Trajectory

/-!
# Specification: between two trajectories
-/

set_option autoImplicit false

namespace Trajopt.Spec

/-- The state `k` of the way from `a` to `b`, with the heading and the angular velocity of `a`. -/
noncomputable def State.between (k : ℝ) (a b : State) : State where
  pos := (1 - k) * a.pos + k * b.pos
  heading := a.heading
  vel := (1 - k) * a.vel + k * b.vel
  acc := (1 - k) * a.acc + k * b.acc
  omega := a.omega
  alpha := (1 - k) * a.alpha + k * b.alpha

/-- The trajectory `k` of the way from `T` to `T'`, with the headings, angular velocities and times of `T`. -/
noncomputable def Traj.between (k : ℝ) (T T' : Traj) : Traj where
  state n := (T.state n).between k (T'.state n)
  force n j := (1 - k) * T.force n j + k * T'.force n j
  dt := T.dt

/-- Both trajectories have the same headings, angular velocities and time steps. -/
structure Traj.SameTurning (N : List ℕ) (T T' : Traj) : Prop where
  heading : ∀ n < sampleCount N, (T.state n).heading = (T'.state n).heading
  omega : ∀ n < sampleCount N, (T.state n).omega = (T'.state n).omega
  dt : ∀ s < N.length, T.dt s = T'.dt s

/-- The constraint keeps the robot away from nothing, and if it is to face a point, then to within a quarter turn. -/
def KeepsFromNothing (c : Constraint ℝ) : Prop :=
  match c with
  | .linePoint .. => False
  | .pointLine .. => False
  | .pointPoint .. => False
  | .pointAt _ tol => 0 ≤ Real.cos tol
  | _ => True

/-- How hard the modules push at a sample: the sum of the squares of their forces. -/
noncomputable def effort (m : ℕ) (F : ℕ → ℂ) : ℝ := ∑ j : Fin m, ‖F j‖ ^ 2

end Trajopt.Spec
