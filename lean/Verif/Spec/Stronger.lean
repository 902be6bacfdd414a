import Verif.Spec.Trajectory

/-!
# Specification: comparing drivetrains
-/

set_option autoImplicit false

namespace Trajopt.Spec

/-- `dr'` is `dr` with `c` times its mass and moment of inertia, and with wheels in the same places and as fast, whose
forces are at least `c` times as large. -/
structure Stronger (c : ℝ) (dr dr' : SwerveDrivetrain ℝ) : Prop where
  mass : dr'.mass = c * dr.mass
  moi : dr'.moi = c * dr.moi
  modules : List.Forall₂ (fun m m' =>
    m'.translation = m.translation ∧
    m'.wheelRadius * m'.wheelMaxAngularVelocity = m.wheelRadius * m.wheelMaxAngularVelocity ∧
    c * maxForce m ≤ maxForce m') dr.modules dr'.modules

/-- The same robot with motors that turn `k` times as fast. -/
noncomputable def geared (k : ℝ) (dr : SwerveDrivetrain ℝ) : SwerveDrivetrain ℝ :=
  { dr with modules := dr.modules.map fun m =>
      { m with wheelMaxAngularVelocity := k * m.wheelMaxAngularVelocity } }

/-- The same trajectory with `c` times the forces. -/
noncomputable def Traj.push (c : ℝ) (T : Traj) : Traj := { T with force := fun n j => c * T.force n j }

end Trajopt.Spec
