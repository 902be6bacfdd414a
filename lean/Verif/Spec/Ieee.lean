import Verif.Spec.Wide
import Verif.Spec.RoundingPath
import Verif.Model.Ieee

/-!
# Specification: programs with IEEE doubles

Finite doubles and their magnitudes; the same program with other numbers.
-/

set_option autoImplicit false

namespace Trajopt

/-- Neither infinite nor NaN. -/
def Ieee.Finite : Ieee → Prop
  | .fin _ _ _ => True
  | _ => False

/-- A finite double of magnitude at most `2 ^ k`. -/
def Ieee.Fits (k : ℤ) (a : Ieee) : Prop := a.Finite ∧ |a.value| ≤ 2 ^ k

/-- A double without overflow, infinities, NaN and sign of zero (0 for special values). -/
def Ieee.plain (a : Ieee) : Doubles binary64 :=
  ⟨a.value, by
    rcases a with _ | _ | ⟨s, m, h⟩
    · exact rnd64_zero
    · exact rnd64_zero
    · change rnd64 (signed s m) = signed s m
      unfold signed
      split
      · rw [rnd64_neg, h.2.1]
      · exact h.2.1⟩

section
variable {D E : Type} (f : D → E)

/-- The same rotation with other numbers. -/
def Rotation2.mapD (r : Rotation2 D) : Rotation2 E := ⟨f r.cos, f r.sin⟩

/-- The same translation with other numbers. -/
def Translation2.mapD (p : Translation2 D) : Translation2 E := ⟨f p.x, f p.y⟩

/-- The same pose with other numbers. -/
def Pose2.mapD (p : Pose2 D) : Pose2 E := ⟨p.translation.mapD f, p.rotation.mapD f⟩

/-- The same obstacle with other numbers. -/
def Obstacle.mapD (o : Obstacle D) : Obstacle E := ⟨f o.safetyDistance, o.points.map (Translation2.mapD f)⟩

/-- The same constraint with other numbers. -/
def Constraint.mapD : Constraint D → Constraint E
  | .angularVelocityMaxMagnitude m => .angularVelocityMaxMagnitude (f m)
  | .linePoint a b p d => .linePoint (a.mapD f) (b.mapD f) (p.mapD f) (f d)
  | .linearAccelerationMaxMagnitude m => .linearAccelerationMaxMagnitude (f m)
  | .linearVelocityDirection a => .linearVelocityDirection (f a)
  | .linearVelocityMaxMagnitude m => .linearVelocityMaxMagnitude (f m)
  | .pointAt p t => .pointAt (p.mapD f) (f t)
  | .pointLine r a b d => .pointLine (r.mapD f) (a.mapD f) (b.mapD f) (f d)
  | .pointPoint r p d => .pointPoint (r.mapD f) (p.mapD f) (f d)
  | .poseEquality x y h => .poseEquality (f x) (f y) (f h)
  | .translationEquality t => .translationEquality (t.mapD f)

/-- The same module with other numbers. -/
def SwerveModule.mapD (m : SwerveModule D) : SwerveModule E :=
  ⟨m.translation.mapD f, f m.wheelRadius, f m.wheelMaxAngularVelocity, f m.wheelMaxTorque⟩

/-- The same drivetrain with other numbers. -/
def SwerveDrivetrain.mapD (dr : SwerveDrivetrain D) : SwerveDrivetrain E :=
  ⟨f dr.mass, f dr.moi, dr.modules.map (SwerveModule.mapD f)⟩

/-- The same waypoint with other numbers. -/
def Waypoint.mapD (w : Waypoint D) : Waypoint E :=
  ⟨w.waypointConstraints.map (Constraint.mapD f), w.segmentConstraints.map (Constraint.mapD f)⟩

/-- The same path with other numbers. -/
def SwervePath.mapD (p : SwervePath D) : SwervePath E :=
  ⟨p.waypoints.map (Waypoint.mapD f), p.drivetrain.map (SwerveDrivetrain.mapD f), p.callbacks⟩

/-- The same builder with other numbers. -/
def Builder.mapD (b : Builder D) : Builder E where
  path := b.path.mapD f
  bumpers := b.bumpers.map (Obstacle.mapD f)
  initialGuessPoints := b.initialGuessPoints.map (·.map (Pose2.mapD f))
  controlIntervalCounts := b.controlIntervalCounts

/-- The same call with other numbers. -/
def Op.mapD : Op D → Op E
  | .setDrivetrain d => .setDrivetrain (d.mapD f)
  | .poseWpt i x y h => .poseWpt i (f x) (f y) (f h)
  | .translationWpt i x y h => .translationWpt i (f x) (f y) (f h)
  | .wptInitialGuessPoint i p => .wptInitialGuessPoint i (p.mapD f)
  | .sgmtInitialGuessPoints i ps => .sgmtInitialGuessPoints i (ps.map (Pose2.mapD f))
  | .addBumpers o => .addBumpers (o.mapD f)
  | .wptObstacle i o => .wptObstacle i (o.mapD f)
  | .sgmtObstacle i j o => .sgmtObstacle i j (o.mapD f)
  | .wptConstraint i c => .wptConstraint i (c.mapD f)
  | .sgmtConstraint i j c => .sgmtConstraint i j (c.mapD f)
  | .controlIntervalCounts cs => .controlIntervalCounts cs
  | .addIntermediateCallback k => .addIntermediateCallback k

end

section
variable {D : Type}

/-- The numbers of a pose. -/
def Pose2.data (p : Pose2 D) : List D := [p.translation.x, p.translation.y, p.rotation.cos, p.rotation.sin]

/-- The numbers of an obstacle. -/
def Obstacle.data (o : Obstacle D) : List D := o.safetyDistance :: o.points.flatMap Translation2.data

/-- The numbers a call passes. -/
def Op.data : Op D → List D
  | .setDrivetrain d => d.data
  | .poseWpt _ x y h => [x, y, h]
  | .translationWpt _ x y h => [x, y, h]
  | .wptInitialGuessPoint _ p => p.data
  | .sgmtInitialGuessPoints _ ps => ps.flatMap Pose2.data
  | .addBumpers o => o.data
  | .wptObstacle _ o => o.data
  | .sgmtObstacle _ _ o => o.data
  | .wptConstraint _ c => c.data
  | .sgmtConstraint _ _ c => c.data
  | .controlIntervalCounts _ => []
  | .addIntermediateCallback _ => []

end

/-- The constants of an expression. -/
def Expr.constants {D : Type} : Expr D → List D
  | .const d => [d]
  | .var _ => []
  | .add a b | .sub a b | .mul a b | .div a b | .atan2 a b | .hypot a b => a.constants ++ b.constants
  | .neg a | .sin a | .cos a | .sign a => a.constants

/-- The constants of a constraint. -/
def Con.constants {D : Type} : Con D → List D
  | .eq a b | .le a b | .ge a b => a.constants ++ b.constants
  | .leInf a => a.constants

namespace Spec

/-- All numbers a program passes are finite and of magnitude at most 2^250. -/
def Moderate (ops : List (Op Ieee)) : Prop := ∀ op ∈ ops, ∀ d ∈ op.data, Ieee.Fits 250 d

/-- No wheel radius is below 2^(-250). -/
def RadiiNotTiny (dr : SwerveDrivetrain Ieee) : Prop := ∀ m ∈ dr.modules, 2 ^ (-250 : ℤ) ≤ |m.wheelRadius.value|

end Spec

end Trajopt
