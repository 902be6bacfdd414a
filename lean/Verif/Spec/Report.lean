import Verif.Spec.FFI
import Verif.Spec.Trajectory

/-! # Specification: what a returned sample shows of the robot's state -/

set_option autoImplicit false

namespace Trajopt.Spec

/-- The sample shows the state and the forces of `m` modules.  Of the heading vector only the angle
is left; accelerations are not shown at all. -/
structure Shows (s : RustSample ℝ) (st : State) (m : ℕ) (F : ℕ → ℂ) : Prop where
  pos : st.pos = ⟨s.x, s.y⟩
  heading : s.heading = Complex.arg st.heading
  vel : st.vel = ⟨s.velocity_x, s.velocity_y⟩
  omega : st.omega = s.angular_velocity
  modules : s.module_forces_x.length = m ∧ s.module_forces_y.length = m
  forces : ∀ j < m, F j = ⟨s.module_forces_x.getD j 0, s.module_forces_y.getD j 0⟩

/-- Field position of the point `r` of the robot (given in the robot frame) at a sample. -/
noncomputable def sampleOnRobot (s : RustSample ℝ) (r : Translation2 ℝ) : ℂ :=
  ⟨s.x, s.y⟩ + vec r * unitVec s.heading

end Trajopt.Spec
