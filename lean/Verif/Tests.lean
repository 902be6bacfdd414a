import Verif.Model.FFI

/-!
# The repository's own tests and examples, run on the model

Executions with machine doubles.  These are tests of the model, not proofs.
-/

set_option autoImplicit false

namespace Trajopt.Tests

/-- `CHECK(a == b)` on results. -/
def is {α : Type} [BEq α] (r : Res α) (a : α) : Bool :=
  match r with
  | .ok b => a == b
  | .error _ => false

/-- `Catch::Approx(b).margin(1e-9)`. -/
def near (a b : Float) : Bool := (a - b).abs < 1e-9

/-- `std::numbers::pi`. -/
def π : Float := Dbl.pi

/-- `deg2rad` (/repo/test/src/geometry/Rotation2dTest.cpp:9-11). -/
def deg2rad (d : Float) : Float := d * π / 180

/-! /repo/test/src/util/TrajoptUtilTest.cpp -/

#guard is (getIndex [2, 3] 0 0) 0
#guard is (getIndex [2, 3] 1 1) 2
#guard is (getIndex [2, 3] 2 2) 5
#guard is (getIndex [2, 3] 3 0) 6
#guard linspace (0 : Float) 2 2 == [1, 2]

/-! /repo/test/src/util/GenerateLinearInitialGuessTest.cpp -/

/-- A pose at `(x, 0)` with heading 0. -/
def at' (x : Float) : Pose2 Float := .ofXYHeading x 0 0

#guard is (do return (← generateLinearInitialGuess [[at' 1], [at' 2, at' 3], [at' 6]] [2, 3]).x)
  [1, 2, 3, 4, 5, 6]

/-! /repo/test/src/SwervePathBuilderTest.cpp -/

#guard is (do
  let b := run true [.wptInitialGuessPoint 0 (at' 0), .sgmtInitialGuessPoints 0 [at' 1, at' 2],
    .wptInitialGuessPoint 1 (at' 1), .wptInitialGuessPoint 2 (at' 5),
    .controlIntervalCounts [3, 2]] Builder.new
  return (← b.calculateInitialGuess).x) [0, 1, 2, 1, 3, 5]

/-! /repo/test/src/geometry/Rotation2dTest.cpp -/

#guard near (Rotation2.ofAngle (π / 3)).degrees 60
#guard near (Rotation2.ofAngle (π / 4)).degrees 45
#guard near (Rotation2.ofAngle (π / 4)).radians (π / 4)
#guard near (Rotation2.ofAngle (π / 6)).radians (π / 6)
#guard near (Rotation2.zero.add (.ofAngle (π / 2)) : Rotation2 Float).radians (π / 2)
#guard near ((Rotation2.ofAngle (π / 2)).add (.ofAngle (π / 6))).degrees 120
#guard near ((Rotation2.ofAngle (deg2rad 70)).sub (.ofAngle (π / 6))).degrees 40
#guard (Rotation2.zero : Rotation2 Float).cos == 1 && (Rotation2.zero : Rotation2 Float).sin == 0

/-! /repo/test/src/geometry/Translation2dTest.cpp -/

/-- The two translations most of the tests use. -/
def one : Translation2 Float := ⟨1, 3⟩

/-- See `one`. -/
def two : Translation2 Float := ⟨2, 5⟩

/-- `X()` and `Y()` as expected. -/
def xy (t : Translation2 Float) (x y : Float) : Bool := near t.x x && near t.y y

#guard xy (.ofPolar (Float.sqrt 2) (.ofAngle (π / 4))) 1 1
#guard xy (.ofPolar 2 (.ofAngle (π / 3))) 1 (Float.sqrt 3)
#guard xy (one.add two) 3 8
#guard xy (one.sub two) (-1) (-2)
#guard xy (Translation2.neg ⟨-4.5, 7⟩) 4.5 (-7)
#guard xy (Translation2.smul ⟨3, 5⟩ 3) 9 15
#guard xy (Translation2.sdiv ⟨3, 5⟩ 2) 1.5 2.5
#guard xy (Translation2.rotateBy ⟨3, 0⟩ (.ofAngle (π / 2))) 0 3
#guard one.angle.radians == Float.atan2 3 1 && two.angle.radians == Float.atan2 5 2
#guard one.dot two == 17
#guard one.cross two == -1
#guard near (Translation2.norm (⟨3, 5⟩ : Translation2 Float)) (Float.sqrt 34)
#guard (⟨3, 5⟩ : Translation2 Float).squaredNorm == 34
#guard near (Translation2.distance ⟨1, 1⟩ ⟨6, 6⟩) (5 * Float.sqrt 2)
#guard xy .zero 0 0 && xy (Translation2.zero.sub ⟨1, 2⟩) (-1) (-2)

/-! /repo/test/src/geometry/Pose2dTest.cpp -/

#guard
  let r : Rotation2 Float := .ofAngle (5 * π / 180)
  let p := (Pose2.ofXYHeading 1 2 (π / 4)).rotateBy r
  near p.x (r.cos * 1 - r.sin * 2) && near p.y (r.sin * 1 + r.cos * 2) && near p.rotation.degrees 50

/-! /repo/examples/Swerve/src/Main.cpp -/

/-- Main.cpp:16-23. -/
def drivetrain : SwerveDrivetrain Float :=
  ⟨45, 6, [⟨⟨0.6, 0.6⟩, 0.04, 70, 2⟩, ⟨⟨0.6, -0.6⟩, 0.04, 70, 2⟩, ⟨⟨-0.6, 0.6⟩, 0.04, 70, 2⟩,
    ⟨⟨-0.6, -0.6⟩, 0.04, 70, 2⟩]⟩

/-- Numbers of variables and constraints of the generated problem. -/
def size (ops : List (Op Float)) : Res (Nat × Nat) := do
  let g ← Generator.construct (run true ops Builder.new) 0
  return (g.problem.nvars, g.problem.cons.length)

/-- Main.cpp:25-26. -/
def zeroV : Constraint Float := .linearVelocityMaxMagnitude 0

/-- See `zeroV`. -/
def zeroω : Constraint Float := .angularVelocityMaxMagnitude 0

-- Example 1: 18 variables per sample and one time step; 4 step caps, 1 sign, 8 per interval, 11 per
-- sample, 4 per pose, 2 per velocity
#guard is (size [.setDrivetrain drivetrain, .poseWpt 0 0 0 0, .poseWpt 1 1 0 0,
  .wptConstraint 0 zeroV, .wptConstraint 1 zeroV, .controlIntervalCounts [40]])
  (41 * 18 + 1, 4 + 1 + 40 * 8 + 41 * 11 + 2 * 4 + 2 * 2)

-- Example 5: the obstacle has no effect, as there are no bumpers
#guard is (size [.setDrivetrain drivetrain, .poseWpt 0 0 0 0, .sgmtObstacle 0 1 ⟨0.1, [⟨0.5, 0.5⟩]⟩,
  .poseWpt 1 1 0 0, .wptConstraint 0 zeroV, .wptConstraint 1 zeroV, .controlIntervalCounts [40]])
  (41 * 18 + 1, 4 + 1 + 40 * 8 + 41 * 11 + 2 * 4 + 2 * 2)

-- Example 6
#guard is (size [.setDrivetrain drivetrain, .poseWpt 0 0 0 0, .poseWpt 1 1 1 (π / 2),
  .wptConstraint 1 zeroω, .wptConstraint 1 (.mkLinearVelocityDirection (π / 2)),
  .translationWpt 2 1 2 0, .poseWpt 3 1 1 (π / 2), .wptConstraint 3 zeroω,
  .wptConstraint 3 (.mkLinearVelocityDirection (π / 2)), .poseWpt 4 2 0 π, .wptConstraint 0 zeroV,
  .wptConstraint 4 zeroV, .controlIntervalCounts [40, 30, 30, 40]])
  (141 * 18 + 4, 4 * 5 + 140 * 8 + 141 * 11 + 4 * 4 + 2 + 2 * 2 + 2 * 2)

-- Example 7: the constraint holds at both waypoints and at all samples between
#guard is (size [.setDrivetrain drivetrain, .poseWpt 0 0 0 0,
  .sgmtConstraint 0 1 (.pointPoint ⟨0, 0⟩ ⟨1, 0⟩ 1), .wptInitialGuessPoint 0 (at' 0),
  .poseWpt 1 2 0 0, .wptConstraint 0 zeroV, .wptConstraint 1 zeroV, .controlIntervalCounts [30]])
  (31 * 18 + 1, 4 + 1 + 30 * 8 + 31 * 11 + 2 * 4 + 2 * 2 + 2 + 30)

/-! /repo/test/src/ObstacleTest.cpp, skipped there because it fails: no drivetrain is set -/

/-- ObstacleTest.cpp:21-35. -/
def obstacleTest : List (Op Float) :=
  [.poseWpt 0 0 0 0, .poseWpt 1 2 2 0,
    .addBumpers ⟨0.1, [⟨0.35, 0.35⟩, ⟨-0.35, 0.35⟩, ⟨-0.35, -0.35⟩, ⟨0.35, -0.35⟩]⟩,
    .sgmtObstacle 0 1 ⟨1, [⟨1, 1⟩]⟩, .controlIntervalCounts [10]]

#guard match size obstacleTest with | .error .ub => true | _ => false

-- With the drivetrain, each of the 4 bumper edges and 4 bumper corners is kept away from the obstacle
-- at both waypoints and the 10 samples of the segment
#guard is (size (.setDrivetrain drivetrain :: obstacleTest))
  (11 * 18 + 1, 4 + 1 + 10 * 8 + 11 * 11 + 2 * 4 + 8 * (2 + 10))

/-! /repo/examples/swerve.rs -/

#guard
  match Rust.run (D := Float) false
    [.add_progress_callback 0,
      .set_drivetrain ⟨45, 6, [⟨0.6, 0.6, 0.04, 70, 2⟩, ⟨0.6, -0.6, 0.04, 70, 2⟩,
        ⟨-0.6, 0.6, 0.04, 70, 2⟩, ⟨-0.6, -0.6, 0.04, 70, 2⟩]⟩,
      .set_bumpers 1.3 1.3, .pose_wpt 0 0 0 0, .pose_wpt 1 1 0 0,
      .wpt_angular_velocity_max_magnitude 0 0, .wpt_angular_velocity_max_magnitude 1 0,
      .sgmt_circle_obstacle 0 1 0.5 0.1 0.2, .set_control_interval_counts [40]] Rust.new with
  | .error _ => false
  | .ok b =>
    match Rust.generate "" (fun _ => "") b 0 (.other 0) (fun _ => 0) with
    | .ok (.ok samples) => samples.length == 41 && samples.all (·.module_forces_x.length == 4)
    | _ => false

end Trajopt.Tests
