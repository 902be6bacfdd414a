import Verif.Model.FFI
import Mathlib.Data.Nat.Notation

/-! # Specification: which C++ call a Rust call stands for -/

set_option autoImplicit false

namespace Trajopt.Spec

variable {D : Type}

/-- The C++ drivetrain with the same numbers. -/
def drivetrainOf (d : RustDrivetrain D) : SwerveDrivetrain D :=
  ⟨d.mass, d.moi, d.modules.map fun m =>
    { translation := ⟨m.x, m.y⟩, wheelRadius := m.wheel_radius,
      wheelMaxAngularVelocity := m.wheel_max_angular_velocity, wheelMaxTorque := m.wheel_max_torque }⟩

/-- The rectangle of the given length (along the robot's x axis) and width around the robot's
origin, counterclockwise from front left. -/
def rectangle [Dbl D] (length width : D) : List (Translation2 D) :=
  let l := length / Num.lit 2
  let l' := -length / Num.lit 2
  let w := width / Num.lit 2
  let w' := -width / Num.lit 2
  [⟨l, w⟩, ⟨l', w⟩, ⟨l', w'⟩, ⟨l, w'⟩]

/-- The C++ call with the effect of a Rust call; `none` for a call without effect. -/
def counterpart [Dbl D] : RustCall D → Option (Op D)
  | .set_drivetrain d => some (.setDrivetrain (drivetrainOf d))
  | .set_bumpers l w => some (.addBumpers ⟨Num.lit (1 / 100), rectangle l w⟩)
  | .set_control_interval_counts counts => some (.controlIntervalCounts counts)
  | .pose_wpt i x y h => some (.poseWpt i x y h)
  | .translation_wpt i x y h => some (.translationWpt i x y h)
  | .empty_wpt i x y h => some (.wptInitialGuessPoint i (.ofXYHeading x y h))
  | .sgmt_initial_guess_points i ps =>
    some (.sgmtInitialGuessPoints i (ps.map fun p => .ofXYHeading p.x p.y p.heading))
  | .wpt_linear_velocity_direction i a => some (.wptConstraint i (.linearVelocityDirection a))
  | .wpt_linear_velocity_max_magnitude i m =>
    some (.wptConstraint i (.linearVelocityMaxMagnitude m))
  | .wpt_angular_velocity_max_magnitude i m =>
    some (.wptConstraint i (.angularVelocityMaxMagnitude m))
  | .wpt_linear_acceleration_max_magnitude i m =>
    some (.wptConstraint i (.linearAccelerationMaxMagnitude m))
  | .wpt_point_at i x y tol => some (.wptConstraint i (.pointAt ⟨x, y⟩ tol))
  | .sgmt_linear_velocity_direction i j a => some (.sgmtConstraint i j (.linearVelocityDirection a))
  | .sgmt_linear_velocity_max_magnitude i j m =>
    some (.sgmtConstraint i j (.linearVelocityMaxMagnitude m))
  | .sgmt_angular_velocity_max_magnitude i j m =>
    some (.sgmtConstraint i j (.angularVelocityMaxMagnitude m))
  | .sgmt_linear_acceleration_max_magnitude i j m =>
    some (.sgmtConstraint i j (.linearAccelerationMaxMagnitude m))
  | .sgmt_point_at i j x y tol => some (.sgmtConstraint i j (.pointAt ⟨x, y⟩ tol))
  | .sgmt_circle_obstacle i j x y r => some (.sgmtObstacle i j ⟨r, [⟨x, y⟩]⟩)
  | .sgmt_polygon_obstacle i j xs ys r =>
    if xs.length = ys.length then some (.sgmtObstacle i j ⟨r, List.zipWith (⟨·, ·⟩) xs ys⟩) else none
  | .add_progress_callback k => some (.addIntermediateCallback k)

/-- The argument that must not be negative if asserts are compiled in. -/
def mustBeNonneg : RustCall D → Option D
  | .wpt_linear_velocity_max_magnitude _ m => some m
  | .wpt_angular_velocity_max_magnitude _ m => some m
  | .wpt_linear_acceleration_max_magnitude _ m => some m
  | .wpt_point_at _ _ _ tol => some tol
  | .sgmt_linear_velocity_max_magnitude _ _ m => some m
  | .sgmt_angular_velocity_max_magnitude _ _ m => some m
  | .sgmt_linear_acceleration_max_magnitude _ _ m => some m
  | .sgmt_point_at _ _ _ _ tol => some tol
  | _ => none

/-- An assert about the arguments fails. -/
def BadArgument [Dbl D] (asserts : Bool) (c : RustCall D) : Prop :=
  asserts = true ∧ ∃ m, mustBeNonneg c = some m ∧ Dbl.le (Num.lit 0) m = false

/-- Calls the documentation allows: indices are in range and ranges non-empty, magnitudes and
tolerances not negative, polygons have corners (but not three, see `C62_refuted`). -/
def Acceptable [Dbl D] (asserts : Bool) (c : RustCall D) : Prop :=
  ¬ BadArgument asserts c ∧
  match c with
  | .set_drivetrain _ | .set_bumpers _ _ | .set_control_interval_counts _
  | .add_progress_callback _ => True
  | .pose_wpt i _ _ _ | .translation_wpt i _ _ _ | .empty_wpt i _ _ _
  | .wpt_linear_velocity_direction i _ | .wpt_linear_velocity_max_magnitude i _
  | .wpt_angular_velocity_max_magnitude i _ | .wpt_linear_acceleration_max_magnitude i _
  | .wpt_point_at i _ _ _ => i < 2 ^ 63
  | .sgmt_initial_guess_points i _ => i + 1 < 2 ^ 63
  | .sgmt_linear_velocity_direction i j _ | .sgmt_linear_velocity_max_magnitude i j _
  | .sgmt_angular_velocity_max_magnitude i j _ | .sgmt_linear_acceleration_max_magnitude i j _
  | .sgmt_point_at i j _ _ _ => i < j ∧ j < 2 ^ 63
  | .sgmt_circle_obstacle i j _ _ r => i < j ∧ j < 2 ^ 63 ∧
    (asserts = true → Dbl.le (Num.lit 0) ((Num.lit (1 / 100) : D) + r) = true)
  | .sgmt_polygon_obstacle i j x y r => x.length = y.length → i < j ∧ j < 2 ^ 63 ∧
    x.length < 2 ^ 64 ∧ x ≠ [] ∧ x.length ≠ 3 ∧
    (asserts = true → Dbl.le (Num.lit 0) ((Num.lit (1 / 100) : D) + r) = true)

end Trajopt.Spec
