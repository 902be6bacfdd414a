import Verif.Spec.Trajectory

/-!
# Specification: two paths, or two robots, that differ by a little
-/

set_option autoImplicit false

namespace Trajopt.Spec

/-- Two constraints of the same kind whose numbers differ by at most `δ`. -/
def ConstraintClose (δ : ℝ) : Constraint ℝ → Constraint ℝ → Prop
  | .angularVelocityMaxMagnitude m, .angularVelocityMaxMagnitude m' => |m - m'| ≤ δ
  | .linearAccelerationMaxMagnitude m, .linearAccelerationMaxMagnitude m' => |m - m'| ≤ δ
  | .linearVelocityMaxMagnitude m, .linearVelocityMaxMagnitude m' => |m - m'| ≤ δ
  | .linearVelocityDirection a, .linearVelocityDirection a' => |a - a'| ≤ δ
  | .pointAt p tol, .pointAt p' tol' => dist (vec p) (vec p') ≤ δ ∧ |tol - tol'| ≤ δ
  | .linePoint a b p d, .linePoint a' b' p' d' =>
    dist (vec a) (vec a') ≤ δ ∧ dist (vec b) (vec b') ≤ δ ∧ dist (vec p) (vec p') ≤ δ ∧ |d - d'| ≤ δ
  | .pointLine r a b d, .pointLine r' a' b' d' =>
    dist (vec r) (vec r') ≤ δ ∧ dist (vec a) (vec a') ≤ δ ∧ dist (vec b) (vec b') ≤ δ ∧ |d - d'| ≤ δ
  | .pointPoint r p d, .pointPoint r' p' d' => dist (vec r) (vec r') ≤ δ ∧ dist (vec p) (vec p') ≤ δ ∧ |d - d'| ≤ δ
  | .poseEquality x y h, .poseEquality x' y' h' => |x - x'| ≤ δ ∧ |y - y'| ≤ δ ∧ |h - h'| ≤ δ
  | .translationEquality p, .translationEquality p' => dist (vec p) (vec p') ≤ δ
  | _, _ => False

/-- Two paths with the same numbers of control intervals and the same constraints, up to `δ`. -/
structure PathClose (δ : ℝ) (t t' : PathTable ℝ) : Prop where
  counts : t.counts = t'.counts
  instant : ∀ w ≤ t.counts.length, List.Forall₂ (ConstraintClose δ) (t.instant w) (t'.instant w)
  continuous : ∀ s < t.counts.length, List.Forall₂ (ConstraintClose δ) (t.continuous s) (t'.continuous s)

/-- Two modules whose numbers differ by at most `δ`. -/
structure ModuleClose (δ : ℝ) (m m' : SwerveModule ℝ) : Prop where
  translation : dist (vec m.translation) (vec m'.translation) ≤ δ
  wheelRadius : |m.wheelRadius - m'.wheelRadius| ≤ δ
  wheelMaxAngularVelocity : |m.wheelMaxAngularVelocity - m'.wheelMaxAngularVelocity| ≤ δ
  wheelMaxTorque : |m.wheelMaxTorque - m'.wheelMaxTorque| ≤ δ

/-- Two robots whose numbers differ by at most `δ`. -/
structure RobotClose (δ : ℝ) (dr dr' : SwerveDrivetrain ℝ) : Prop where
  mass : |dr.mass - dr'.mass| ≤ δ
  moi : |dr.moi - dr'.moi| ≤ δ
  modules : List.Forall₂ (ModuleClose δ) dr.modules dr'.modules

/-- The constraint has a segment of length 0. -/
def HasNoLength : Constraint ℝ → Prop
  | .linePoint a b _ _ => a = b
  | .pointLine _ a b _ => a = b
  | _ => False

end Trajopt.Spec
