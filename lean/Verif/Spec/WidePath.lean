import Verif.Spec.Wide

/-!
# Programs with finite numbers

The same calls with reals as with doubles that are finite.
-/

set_option autoImplicit false

namespace Trajopt

/-- A finite rotation. -/
def Rotation2.wide (r : Rotation2 ℝ) : Rotation2 Wide := ⟨.fin r.cos, .fin r.sin⟩

/-- A finite pose. -/
def Pose2.wide (p : Pose2 ℝ) : Pose2 Wide := ⟨p.translation.wide, p.rotation.wide⟩

/-- A finite obstacle. -/
def Obstacle.wide (o : Obstacle ℝ) : Obstacle Wide :=
  ⟨.fin o.safetyDistance, o.points.map Translation2.wide⟩

/-- A waypoint with finite data. -/
def Waypoint.wide (w : Waypoint ℝ) : Waypoint Wide :=
  ⟨w.waypointConstraints.map Constraint.wide, w.segmentConstraints.map Constraint.wide⟩

/-- A path with finite data. -/
def SwervePath.wide (p : SwervePath ℝ) : SwervePath Wide :=
  ⟨p.waypoints.map Waypoint.wide, p.drivetrain.map SwerveDrivetrain.wide, p.callbacks⟩

/-- A builder with finite data. -/
def Builder.wide (b : Builder ℝ) : Builder Wide where
  path := SwervePath.wide b.path
  bumpers := b.bumpers.map Obstacle.wide
  initialGuessPoints := b.initialGuessPoints.map (·.map Pose2.wide)
  controlIntervalCounts := b.controlIntervalCounts

/-- A call with finite arguments. -/
def Op.wide : Op ℝ → Op Wide
  | .setDrivetrain d => .setDrivetrain d.wide
  | .poseWpt i x y h => .poseWpt i (.fin x) (.fin y) (.fin h)
  | .translationWpt i x y h => .translationWpt i (.fin x) (.fin y) (.fin h)
  | .wptInitialGuessPoint i p => .wptInitialGuessPoint i (Pose2.wide p)
  | .sgmtInitialGuessPoints i ps => .sgmtInitialGuessPoints i (ps.map Pose2.wide)
  | .addBumpers o => .addBumpers (Obstacle.wide o)
  | .wptObstacle i o => .wptObstacle i (Obstacle.wide o)
  | .sgmtObstacle i j o => .sgmtObstacle i j (Obstacle.wide o)
  | .wptConstraint i c => .wptConstraint i c.wide
  | .sgmtConstraint i j c => .sgmtConstraint i j c.wide
  | .controlIntervalCounts cs => .controlIntervalCounts cs
  | .addIntermediateCallback k => .addIntermediateCallback k

/-- A solution with finite data. -/
def SwerveSolution.wide (s : SwerveSolution ℝ) : SwerveSolution Wide where
  dt := s.dt.map .fin
  x := s.x.map .fin
  y := s.y.map .fin
  thetacos := s.thetacos.map .fin
  thetasin := s.thetasin.map .fin
  vx := s.vx.map .fin
  vy := s.vy.map .fin
  omega := s.omega.map .fin
  ax := s.ax.map .fin
  ay := s.ay.map .fin
  alpha := s.alpha.map .fin
  moduleFX := s.moduleFX.map (·.map .fin)
  moduleFY := s.moduleFY.map (·.map .fin)

end Trajopt
