import Verif.Spec.Trajectory

/-!
# Specification: other trajectories for the same path
-/

set_option autoImplicit false

namespace Trajopt.Spec

/-- The robot looks the same after half a turn: `opp` takes each module to an equal one on the
opposite side. -/
structure HalfTurnSymmetric (dr : SwerveDrivetrain ℝ) (opp : Equiv.Perm (Fin dr.modules.length)) : Prop where
  place : ∀ j, vec dr.modules[opp j].translation = -vec dr.modules[j].translation
  speed : ∀ j, maxSpeed dr.modules[opp j] = maxSpeed dr.modules[j]
  force : ∀ j, maxForce dr.modules[opp j] = maxForce dr.modules[j]

/-- The constraint does not depend on which way round the robot stands. -/
def EitherWay : Constraint ℝ → Prop
  | .pointAt _ _ => False
  | .linePoint _ _ _ _ => False
  | .pointLine r _ _ _ => r = ⟨0, 0⟩
  | .pointPoint r _ _ => r = ⟨0, 0⟩
  | _ => True

/-- The trajectory with the robot turned about at the samples in `S`, every force now that of the
opposite module. -/
noncomputable def Traj.turnedAt {m : ℕ} (T : Traj) (opp : Equiv.Perm (Fin m)) (S : Set ℕ) : Traj :=
  open Classical in
  { state := fun n => if n ∈ S then { T.state n with heading := -(T.state n).heading } else T.state n
    force := fun n j => if h : n ∈ S ∧ j < m then T.force n (opp ⟨j, h.2⟩) else T.force n j
    dt := T.dt }

/-- The trajectory with other forces at the first sample, and the accelerations that they cause. -/
noncomputable def Traj.pushed (T : Traj) (dr : SwerveDrivetrain ℝ) (F : ℕ → ℂ) : Traj where
  state n := if n = 0 then { T.state 0 with
      acc := (∑ j : Fin dr.modules.length, F j) / (dr.mass : ℂ)
      alpha := (∑ j : Fin dr.modules.length, torque (lever (T.state 0) dr.modules[j]) (F j)) / dr.moi }
    else T.state n
  force n := if n = 0 then F else T.force n
  dt := T.dt

end Trajopt.Spec
