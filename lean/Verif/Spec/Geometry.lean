import Verif.Model.Real
import Verif.Model.Geometry

/-!
# Specification: plane geometry

Points and vectors of the plane as complex numbers.
-/

set_option autoImplicit false

namespace Trajopt.Spec

/-- The vector a translation stands for. -/
def vec (t : Translation2 ℝ) : ℂ := ⟨t.x, t.y⟩

/-- The direction a rotation stands for (a unit vector if the rotation is normalised). -/
def dir (r : Rotation2 ℝ) : ℂ := ⟨r.cos, r.sin⟩

/-- Field position of the point `q` fixed to a body at pose `p`. -/
noncomputable def onPose (p : Pose2 ℝ) (q : Translation2 ℝ) : ℂ :=
  vec p.translation + vec q * dir p.rotation

/-- A rotation that is a point of the unit circle. -/
def IsUnit (r : Rotation2 ℝ) : Prop := ‖dir r‖ = 1

end Trajopt.Spec
