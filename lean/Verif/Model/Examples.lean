import Verif.Model.FFI

/-!
# The programs that come with the library

Call histories of the C++ and Rust examples and of the obstacle test, as far as they build paths.
-/

namespace Trajopt.Examples

variable {D : Type} [Dbl D]

/-- One module of the robot (Main.cpp:20-23, swerve.rs:8-35, ObstacleTest.cpp:16-19). -/
def wheel (x y : Rat) : SwerveModule D :=
  ⟨⟨Num.lit x, Num.lit y⟩, Num.lit (4 / 100), Num.lit 70, Num.lit 2⟩

/-- `swerveDrivetrain` (/repo/examples/Swerve/src/Main.cpp:17-23, the same in
/repo/test/src/ObstacleTest.cpp:14-19). -/
def robot : SwerveDrivetrain D :=
  ⟨Num.lit 45, Num.lit 6, [wheel (6 / 10) (6 / 10), wheel (6 / 10) (-6 / 10),
    wheel (-6 / 10) (6 / 10), wheel (-6 / 10) (-6 / 10)]⟩

/-- `zeroLinearVelocity` (Main.cpp:25). -/
def noSpeed : Constraint D := .linearVelocityMaxMagnitude (Num.lit 0)

/-- `zeroAngularVelocity` (Main.cpp:26). -/
def noTurn : Constraint D := .angularVelocityMaxMagnitude (Num.lit 0)

/-- Example 1 (Main.cpp:30-36). -/
def cpp1 : List (Op D) :=
  [.setDrivetrain robot, .poseWpt 0 (Num.lit 0) (Num.lit 0) (Num.lit 0),
    .poseWpt 1 (Num.lit 1) (Num.lit 0) (Num.lit 0), .wptConstraint 0 noSpeed, .wptConstraint 1 noSpeed,
    .controlIntervalCounts [40]]

/-- Example 2 (Main.cpp:45-51). -/
def cpp2 : List (Op D) :=
  [.setDrivetrain robot, .poseWpt 0 (Num.lit 1) (Num.lit 1) (-Dbl.pi / Num.lit 2),
    .poseWpt 1 (Num.lit 2) (Num.lit 0) (Num.lit 0), .wptConstraint 0 noSpeed, .wptConstraint 1 noSpeed,
    .controlIntervalCounts [40]]

/-- Example 3 (Main.cpp:60-67). -/
def cpp3 : List (Op D) :=
  [.setDrivetrain robot, .poseWpt 0 (Num.lit 0) (Num.lit 0) (Dbl.pi / Num.lit 2),
    .poseWpt 1 (Num.lit 1) (Num.lit 1) (Num.lit 0),
    .poseWpt 2 (Num.lit 2) (Num.lit 0) (Dbl.pi / Num.lit 2), .wptConstraint 0 noSpeed,
    .wptConstraint 1 noSpeed, .controlIntervalCounts [40, 40]]

/-- Example 4 (Main.cpp:76-81). -/
def cpp4 : List (Op D) :=
  [.setDrivetrain robot, .poseWpt 0 (Num.lit 0) (Num.lit 0) (Num.lit 0),
    .poseWpt 1 (Num.lit 0) (Num.lit 1) (Num.lit 0), .wptConstraint 0 noSpeed,
    .controlIntervalCounts [40]]

/-- Example 5 (Main.cpp:90-100). -/
def cpp5 : List (Op D) :=
  [.setDrivetrain robot, .poseWpt 0 (Num.lit 0) (Num.lit 0) (Num.lit 0),
    .sgmtObstacle 0 1 ⟨Num.lit (1 / 10), [⟨Num.lit (5 / 10), Num.lit (5 / 10)⟩]⟩,
    .poseWpt 1 (Num.lit 1) (Num.lit 0) (Num.lit 0), .wptConstraint 0 noSpeed, .wptConstraint 1 noSpeed,
    .controlIntervalCounts [40]]

/-- Example 6 (Main.cpp:109-137); the heading guess of `TranslationWpt` is the default
(SwervePathBuilder.hpp:67-68). -/
def cpp6 : List (Op D) :=
  [.setDrivetrain robot, .poseWpt 0 (Num.lit 0) (Num.lit 0) (Num.lit 0),
    .poseWpt 1 (Num.lit 1) (Num.lit 1) (Dbl.pi / Num.lit 2), .wptConstraint 1 noTurn,
    .wptConstraint 1 (.mkLinearVelocityDirection (Dbl.pi / Num.lit 2)),
    .translationWpt 2 (Num.lit 1) (Num.lit 2) (Num.lit 0),
    .poseWpt 3 (Num.lit 1) (Num.lit 1) (Dbl.pi / Num.lit 2), .wptConstraint 3 noTurn,
    .wptConstraint 3 (.mkLinearVelocityDirection (Dbl.pi / Num.lit 2)),
    .poseWpt 4 (Num.lit 2) (Num.lit 0) Dbl.pi, .wptConstraint 0 noSpeed, .wptConstraint 4 noSpeed,
    .controlIntervalCounts [40, 30, 30, 40]]

/-- Example 7 (Main.cpp:148-169). -/
def cpp7 : List (Op D) :=
  [.setDrivetrain robot, .poseWpt 0 (Num.lit 0) (Num.lit 0) (Num.lit 0),
    .sgmtConstraint 0 1 (.pointPoint ⟨Num.lit 0, Num.lit 0⟩ ⟨Num.lit 1, Num.lit 0⟩ (Num.lit 1)),
    .wptInitialGuessPoint 0 (.ofXYHeading (Num.lit 0) (Num.lit 0) (Num.lit 0)),
    .poseWpt 1 (Num.lit 2) (Num.lit 0) (Num.lit 0), .wptConstraint 0 noSpeed, .wptConstraint 1 noSpeed,
    .controlIntervalCounts [30]]

/-- The examples of Main.cpp. -/
def cpp : List (List (Op D)) := [cpp1, cpp2, cpp3, cpp4, cpp5, cpp6, cpp7]

/-- One module in Rust. -/
def rustWheel (x y : Rat) : RustModule D :=
  ⟨Num.lit x, Num.lit y, Num.lit (4 / 100), Num.lit 70, Num.lit 2⟩

/-- The Rust example (/repo/examples/swerve.rs:4-48). -/
def rust : List (RustCall D) :=
  [.add_progress_callback 0,
    .set_drivetrain ⟨Num.lit 45, Num.lit 6, [rustWheel (6 / 10) (6 / 10), rustWheel (6 / 10) (-6 / 10),
      rustWheel (-6 / 10) (6 / 10), rustWheel (-6 / 10) (-6 / 10)]⟩,
    .set_bumpers (Num.lit (13 / 10)) (Num.lit (13 / 10)),
    .pose_wpt 0 (Num.lit 0) (Num.lit 0) (Num.lit 0), .pose_wpt 1 (Num.lit 1) (Num.lit 0) (Num.lit 0),
    .wpt_angular_velocity_max_magnitude 0 (Num.lit 0), .wpt_angular_velocity_max_magnitude 1 (Num.lit 0),
    .sgmt_circle_obstacle 0 1 (Num.lit (5 / 10)) (Num.lit (1 / 10)) (Num.lit (2 / 10)),
    .set_control_interval_counts [40]]

/-- The test "Obstacle - Linear initial guess" (/repo/test/src/ObstacleTest.cpp:21-36), which is skipped
with the message "Fails".  There is no `SetDrivetrain`. -/
def obstacleTest : List (Op D) :=
  let length : D := Num.lit (7 / 10)
  let width : D := Num.lit (7 / 10)
  let two : D := Num.lit 2
  [.poseWpt 0 (Num.lit 0) (Num.lit 0) (Num.lit 0), .poseWpt 1 (Num.lit 2) (Num.lit 2) (Num.lit 0),
    .addBumpers ⟨Num.lit (1 / 10), [⟨length / two, width / two⟩, ⟨-length / two, width / two⟩,
      ⟨-length / two, -width / two⟩, ⟨length / two, -width / two⟩]⟩,
    .sgmtObstacle 0 1 ⟨Num.lit 1, [⟨Num.lit 1, Num.lit 1⟩]⟩, .controlIntervalCounts [10]]

end Trajopt.Examples
