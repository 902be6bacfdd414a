import Verif.Spec.Trajectory

/-!
# Specification: turning
-/

set_option autoImplicit false

namespace Trajopt.Spec

/-- The greatest angular acceleration: all wheels pushing across their levers. -/
noncomputable def topTwist (dr : SwerveDrivetrain ℝ) : ℝ :=
  (dr.modules.map fun m => ‖vec m.translation‖ * maxForce m).sum / dr.moi

/-- Modules on a circle of radius `ρ` around their centre, with equal wheels that push with `F` and roll at `V`. -/
structure Ring (dr : SwerveDrivetrain ℝ) (F V ρ : ℝ) : Prop where
  some : dr.modules ≠ []
  centred : (dr.modules.map fun m => vec m.translation).sum = 0
  moi : 0 < dr.moi
  force_pos : 0 < F
  far : 0 < ρ
  circle : ∀ m ∈ dr.modules, ‖vec m.translation‖ = ρ
  radius : ∀ m ∈ dr.modules, m.wheelRadius ≠ 0
  force : ∀ m ∈ dr.modules, maxForce m = F
  speed : ∀ m ∈ dr.modules, m.wheelRadius * m.wheelMaxAngularVelocity = V

end Trajopt.Spec
