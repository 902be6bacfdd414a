import Verif.Spec.Trajectory

/-!
# Specification: momentum and energy of the robot
-/

set_option autoImplicit false

namespace Trajopt.Spec

/-- Kinetic energy: of the motion and of the rotation. -/
noncomputable def kinetic (dr : SwerveDrivetrain ℝ) (s : State) : ℝ :=
  dr.mass * ‖s.vel‖ ^ 2 / 2 + dr.moi * s.omega ^ 2 / 2

/-- Velocity of the point of the robot where a module is attached, field frame. -/
noncomputable def mountVelocity (s : State) (m : SwerveModule ℝ) : ℂ :=
  s.vel + Complex.I * s.omega * lever s m

/-- Power of the forces on the modules: the sum of force times velocity. -/
noncomputable def power (dr : SwerveDrivetrain ℝ) (s : State) (F : ℕ → ℂ) : ℝ :=
  ∑ j : Fin dr.modules.length, ((starRingEnd ℂ) (F j) * mountVelocity s dr.modules[j]).re

end Trajopt.Spec
