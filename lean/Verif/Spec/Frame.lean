import Verif.Spec.Builder
import Verif.Spec.Trajectory

/-!
# Specification: changing the data of a path

A change of all points, directions, poses and other quantities mentioned in a history of builder calls, and four
such changes: a motion of the field, a reflection of field and robot, other units of measurement, and another
choice of the robot's axes.
-/

set_option autoImplicit false

namespace Trajopt.Spec

variable {D : Type}

/-- How to change points of the field, points of the robot, headings and guessed poses and, if at all,
distances, limits, masses and wheels; directions of travel change like headings unless said otherwise. -/
structure Change (D : Type) where
  field : Translation2 D → Translation2 D
  robot : Translation2 D → Translation2 D
  dir : D → D
  pose : Pose2 D → Pose2 D
  course : D → D := dir
  dist : D → D := fun x => x
  speed : D → D := fun x => x
  accel : D → D := fun x => x
  spin : D → D := fun x => x
  mass : D → D := fun x => x
  moi : D → D := fun x => x
  wheelTorque : D → D := fun x => x
  wheelSpeed : D → D := fun x => x
  wheelRadius : D → D := fun x => x

namespace Change

variable (R : Change D)

/-- The changed constraint. -/
def con : Constraint D → Constraint D
  | .angularVelocityMaxMagnitude m => .angularVelocityMaxMagnitude (R.spin m)
  | .linePoint a b p d => .linePoint (R.robot a) (R.robot b) (R.field p) (R.dist d)
  | .linearAccelerationMaxMagnitude m => .linearAccelerationMaxMagnitude (R.accel m)
  | .linearVelocityDirection a => .linearVelocityDirection (R.course a)
  | .linearVelocityMaxMagnitude m => .linearVelocityMaxMagnitude (R.speed m)
  | .pointAt p tol => .pointAt (R.field p) tol
  | .pointLine r a b d => .pointLine (R.robot r) (R.field a) (R.field b) (R.dist d)
  | .pointPoint r p d => .pointPoint (R.robot r) (R.field p) (R.dist d)
  | .poseEquality x y h => .poseEquality (R.field ⟨x, y⟩).x (R.field ⟨x, y⟩).y (R.dir h)
  | .translationEquality t => .translationEquality (R.field t)

/-- The changed module. -/
def wheel (m : SwerveModule D) : SwerveModule D :=
  ⟨R.robot m.translation, R.wheelRadius m.wheelRadius, R.wheelSpeed m.wheelMaxAngularVelocity,
    R.wheelTorque m.wheelMaxTorque⟩

/-- The changed drivetrain. -/
def drivetrain (d : SwerveDrivetrain D) : SwerveDrivetrain D where
  mass := R.mass d.mass
  moi := R.moi d.moi
  modules := d.modules.map R.wheel

/-- The changed bumpers. -/
def bumper (o : Obstacle D) : Obstacle D := ⟨R.dist o.safetyDistance, o.points.map R.robot⟩

/-- The changed obstacle. -/
def obstacle (o : Obstacle D) : Obstacle D := ⟨R.dist o.safetyDistance, o.points.map R.field⟩

/-- The changed builder call. -/
def op : Op D → Op D
  | .setDrivetrain d => .setDrivetrain (R.drivetrain d)
  | .poseWpt i x y h => .poseWpt i (R.field ⟨x, y⟩).x (R.field ⟨x, y⟩).y (R.dir h)
  | .translationWpt i x y h => .translationWpt i (R.field ⟨x, y⟩).x (R.field ⟨x, y⟩).y (R.dir h)
  | .wptInitialGuessPoint i p => .wptInitialGuessPoint i (R.pose p)
  | .sgmtInitialGuessPoints i ps => .sgmtInitialGuessPoints i (ps.map R.pose)
  | .addBumpers o => .addBumpers (R.bumper o)
  | .wptObstacle i o => .wptObstacle i (R.obstacle o)
  | .sgmtObstacle i j o => .sgmtObstacle i j (R.obstacle o)
  | .wptConstraint i c => .wptConstraint i (R.con c)
  | .sgmtConstraint i j c => .sgmtConstraint i j (R.con c)
  | .controlIntervalCounts cs => .controlIntervalCounts cs
  | .addIntermediateCallback k => .addIntermediateCallback k

end Change

/-- Turn the field by `φ` about its origin, then shift it by `(a, b)`. -/
noncomputable def motion (φ a b : ℝ) : Change ℝ where
  field p := ⟨Real.cos φ * p.x - Real.sin φ * p.y + a, Real.sin φ * p.x + Real.cos φ * p.y + b⟩
  robot r := r
  dir h := h + φ
  pose p :=
    ⟨⟨Real.cos φ * p.translation.x - Real.sin φ * p.translation.y + a,
      Real.sin φ * p.translation.x + Real.cos φ * p.translation.y + b⟩,
     ⟨Real.cos φ * p.rotation.cos - Real.sin φ * p.rotation.sin,
      Real.sin φ * p.rotation.cos + Real.cos φ * p.rotation.sin⟩⟩

/-- The moved state. -/
noncomputable def State.moved (φ a b : ℝ) (s : State) : State where
  pos := unitVec φ * s.pos + ⟨a, b⟩
  heading := unitVec φ * s.heading
  vel := unitVec φ * s.vel
  acc := unitVec φ * s.acc
  omega := s.omega
  alpha := s.alpha

/-- The moved trajectory. -/
noncomputable def Traj.moved (φ a b : ℝ) (T : Traj) : Traj where
  state n := (T.state n).moved φ a b
  force n j := unitVec φ * T.force n j
  dt := T.dt

/-- Reflect field and robot: left becomes right. -/
noncomputable def mirror : Change ℝ where
  field p := ⟨p.x, -p.y⟩
  robot r := ⟨r.x, -r.y⟩
  dir h := -h
  pose p := ⟨⟨p.translation.x, -p.translation.y⟩, ⟨p.rotation.cos, -p.rotation.sin⟩⟩

/-- The reflected state. -/
noncomputable def State.mirrored (s : State) : State where
  pos := (starRingEnd ℂ) s.pos
  heading := (starRingEnd ℂ) s.heading
  vel := (starRingEnd ℂ) s.vel
  acc := (starRingEnd ℂ) s.acc
  omega := -s.omega
  alpha := -s.alpha

/-- The reflected trajectory. -/
noncomputable def Traj.mirrored (T : Traj) : Traj where
  state n := (T.state n).mirrored
  force n j := (starRingEnd ℂ) (T.force n j)
  dt := T.dt

/-- Measure lengths, times and masses in other units: what was `1` is now `l`, `t` and `m`. -/
noncomputable def units (l t m : ℝ) : Change ℝ where
  field p := ⟨l * p.x, l * p.y⟩
  robot r := ⟨l * r.x, l * r.y⟩
  dir h := h
  pose p := ⟨⟨l * p.translation.x, l * p.translation.y⟩, p.rotation⟩
  dist d := l * d
  speed v := l / t * v
  accel a := l / t ^ 2 * a
  spin w := t⁻¹ * w
  mass M := m * M
  moi J := m * l ^ 2 * J
  wheelTorque M := m * l ^ 2 / t ^ 2 * M
  wheelSpeed w := t⁻¹ * w
  wheelRadius r := l * r

/-- The state in other units. -/
noncomputable def State.inUnits (l t : ℝ) (s : State) : State where
  pos := l * s.pos
  heading := s.heading
  vel := (l / t : ℝ) * s.vel
  acc := (l / t ^ 2 : ℝ) * s.acc
  omega := t⁻¹ * s.omega
  alpha := (t ^ 2)⁻¹ * s.alpha

/-- The trajectory in other units. -/
noncomputable def Traj.inUnits (l t m : ℝ) (T : Traj) : Traj where
  state n := (T.state n).inUnits l t
  force n j := (m * l / t ^ 2 : ℝ) * T.force n j
  dt s := t * T.dt s

/-- The constraint is not a keep-out distance from a line. -/
def NoLine : Constraint ℝ → Prop
  | .linePoint _ _ _ d => d = 0
  | .pointLine _ _ _ d => d = 0
  | _ => True

/-- Describe the robot in axes turned by `φ`: its points get other coordinates, and its heading another value. -/
noncomputable def axes (φ : ℝ) : Change ℝ where
  field p := p
  robot r := ⟨Real.cos φ * r.x + Real.sin φ * r.y, Real.cos φ * r.y - Real.sin φ * r.x⟩
  dir h := h + φ
  course a := a
  pose p :=
    ⟨p.translation,
     ⟨Real.cos φ * p.rotation.cos - Real.sin φ * p.rotation.sin,
      Real.sin φ * p.rotation.cos + Real.cos φ * p.rotation.sin⟩⟩

/-- The state with the heading of the turned axes. -/
noncomputable def State.onAxes (φ : ℝ) (s : State) : State := { s with heading := unitVec φ * s.heading }

/-- The trajectory with the headings of the turned axes. -/
noncomputable def Traj.onAxes (φ : ℝ) (T : Traj) : Traj := { T with state n := (T.state n).onAxes φ }

/-- The constraint does not speak of the robot's front. -/
def NoFront : Constraint ℝ → Prop
  | .pointAt _ _ => False
  | _ => True

end Trajopt.Spec
