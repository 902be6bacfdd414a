import Verif.Model.Geometry

/-!
# Constraints (/repo/include/trajopt/constraint)
-/

namespace Trajopt

variable {D : Type}

/-- The `std::variant` of the ten constraint classes
(/repo/include/trajopt/constraint/Constraint.hpp:61-67) with their data members. -/
inductive Constraint (D : Type) where
  /-- AngularVelocityMaxMagnitudeConstraint.hpp:57 -/
  | angularVelocityMaxMagnitude (maxMagnitude : D)
  /-- LinePointConstraint.hpp:69-72 -/
  | linePoint (robotLineStart robotLineEnd fieldPoint : Translation2 D) (minDistance : D)
  /-- LinearAccelerationMaxMagnitudeConstraint.hpp:58 -/
  | linearAccelerationMaxMagnitude (maxMagnitude : D)
  /-- LinearVelocityDirectionConstraint.hpp:52; the class stores `Rotation2d{angle}`, the model
  the constructor's argument -/
  | linearVelocityDirection (angle : D)
  /-- LinearVelocityMaxMagnitudeConstraint.hpp:58 -/
  | linearVelocityMaxMagnitude (maxMagnitude : D)
  /-- PointAtConstraint.hpp:67-68 -/
  | pointAt (fieldPoint : Translation2 D) (headingTolerance : D)
  /-- PointLineConstraint.hpp:67-70 -/
  | pointLine (robotPoint fieldLineStart fieldLineEnd : Translation2 D) (minDistance : D)
  /-- PointPointConstraint.hpp:64-66 -/
  | pointPoint (robotPoint fieldPoint : Translation2 D) (minDistance : D)
  /-- PoseEqualityConstraint.hpp:48; the class stores `Pose2d{x, y, heading}`, the model the
  constructor's arguments -/
  | poseEquality (x y heading : D)
  /-- TranslationEqualityConstraint.hpp:46 -/
  | translationEquality (translation : Translation2 D)
  deriving Repr, DecidableEq

namespace Constraint

/-- An `assert(v >= 0.0)` in a constructor followed by the construction of `c`.  `asserts` tells
whether asserts are compiled in. -/
def assertNonneg [Dbl D] (asserts : Bool) (v : D) (c : Constraint D) : Res (Constraint D) :=
  if asserts && !Dbl.le (Num.lit 0) v then .error .assertFailed else .ok c

/-- AngularVelocityMaxMagnitudeConstraint.hpp:27-30. -/
def mkAngularVelocityMaxMagnitude [Dbl D] (asserts : Bool) (m : D) : Res (Constraint D) :=
  assertNonneg asserts m (.angularVelocityMaxMagnitude m)

/-- LinePointConstraint.hpp:35-43. -/
def mkLinePoint [Dbl D] (asserts : Bool) (s e p : Translation2 D) (d : D) : Res (Constraint D) :=
  assertNonneg asserts d (.linePoint s e p d)

/-- LinearAccelerationMaxMagnitudeConstraint.hpp:27-30. -/
def mkLinearAccelerationMaxMagnitude [Dbl D] (asserts : Bool) (m : D) : Res (Constraint D) :=
  assertNonneg asserts m (.linearAccelerationMaxMagnitude m)

/-- LinearVelocityDirectionConstraint.hpp:24. -/
def mkLinearVelocityDirection (angle : D) : Constraint D :=
  .linearVelocityDirection angle

/-- LinearVelocityMaxMagnitudeConstraint.hpp:27-30. -/
def mkLinearVelocityMaxMagnitude [Dbl D] (asserts : Bool) (m : D) : Res (Constraint D) :=
  assertNonneg asserts m (.linearVelocityMaxMagnitude m)

/-- PointAtConstraint.hpp:31-35. -/
def mkPointAt [Dbl D] (asserts : Bool) (p : Translation2 D) (tol : D) : Res (Constraint D) :=
  assertNonneg asserts tol (.pointAt p tol)

/-- PointLineConstraint.hpp:35-43. -/
def mkPointLine [Dbl D] (asserts : Bool) (p s e : Translation2 D) (d : D) : Res (Constraint D) :=
  assertNonneg asserts d (.pointLine p s e d)

/-- PointPointConstraint.hpp:33-39. -/
def mkPointPoint [Dbl D] (asserts : Bool) (r p : Translation2 D) (d : D) : Res (Constraint D) :=
  assertNonneg asserts d (.pointPoint r p d)

/-- PoseEqualityConstraint.hpp:26-27. -/
def mkPoseEquality (x y heading : D) : Constraint D :=
  .poseEquality x y heading

/-- TranslationEqualityConstraint.hpp:25. -/
def mkTranslationEquality (x y : D) : Constraint D := .translationEquality ⟨x, y⟩

end Constraint

/-- The local lambda `max` of LinePointDistance.hpp:18-20. -/
def lpdMax [Num T] (a b : T) : T :=
  Num.lit (1 / 2) * (Num.lit 1 + Num.sign (b - a)) * (b - a) + a

/-- The local lambda `min` of LinePointDistance.hpp:21-23. -/
def lpdMin [Num T] (a b : T) : T :=
  Num.lit (-1 / 2) * (Num.lit 1 + Num.sign (b - a)) * (b - a) + b

/-- The local lambda `Lerp` of LinePointDistance.hpp:24. -/
def lpdLerp [Num T] (a b t : T) : T := a + t * (b - a)

/-- `detail::LinePointDistance` (/repo/include/trajopt/constraint/detail/LinePointDistance.hpp:12-35).
Mixed `double`/`Variable` operands are promoted first. -/
def linePointDistance [Num T] (lineStart lineEnd point : Translation2 T) : T :=
  let l : Translation2 T := ⟨lineEnd.x - lineStart.x, lineEnd.y - lineStart.y⟩
  let v : Translation2 T := ⟨point.x - lineStart.x, point.y - lineStart.y⟩
  let t := v.dot l / l.squaredNorm
  let tBounded := lpdMax (lpdMin t (Num.lit 1)) (Num.lit 0)
  let i : Translation2 T :=
    ⟨lpdLerp lineStart.x lineEnd.x tBounded, lpdLerp lineStart.y lineEnd.y tBounded⟩
  (i.sub point).squaredNorm

/-- The decision variables of one sample, as passed to `Apply`
(/repo/src/SwerveTrajectoryGenerator.cpp:231-236 and 254-259). -/
structure SampleVars (D : Type) where
  pose : Pose2 (Expr D)
  linearVelocity : Translation2 (Expr D)
  angularVelocity : Expr D
  linearAcceleration : Translation2 (Expr D)
  angularAcceleration : Expr D

/-- `Apply`: the constraints passed to `problem.SubjectTo`, in order. -/
def Constraint.apply [Dbl D] (c : Constraint D) (s : SampleVars D) : List (Con D) :=
  match c with
  | .angularVelocityMaxMagnitude m =>
    -- AngularVelocityMaxMagnitudeConstraint.hpp:42-54
    if Dbl.eq m (Num.lit 0) then [.eq s.angularVelocity (Num.lit 0)]
    else [.ge s.angularVelocity (.const (-m)), .le s.angularVelocity (.const m)]
  | .linePoint a b p d =>
    -- LinePointConstraint.hpp:55-66
    let lineStart := s.pose.translation.add (a.toV.rotateBy s.pose.rotation)
    let lineEnd := s.pose.translation.add (b.toV.rotateBy s.pose.rotation)
    let dist := linePointDistance lineStart lineEnd p.toV
    [.ge (dist * dist) (.const (d * d))]
  | .linearAccelerationMaxMagnitude m =>
    -- LinearAccelerationMaxMagnitudeConstraint.hpp:42-55
    if Dbl.eq m (Num.lit 0) then
      [.eq s.linearAcceleration.x (Num.lit 0), .eq s.linearAcceleration.y (Num.lit 0)]
    else [.le s.linearAcceleration.squaredNorm (.const (m * m))]
  | .linearVelocityDirection angle =>
    -- LinearVelocityDirectionConstraint.hpp:24,36-49
    let angle : Rotation2 D := .ofAngle angle
    let dot := s.linearVelocity.dot ⟨.const angle.cos, .const angle.sin⟩
    [.eq (dot * dot) s.linearVelocity.squaredNorm]
  | .linearVelocityMaxMagnitude m =>
    -- LinearVelocityMaxMagnitudeConstraint.hpp:42-55
    if Dbl.eq m (Num.lit 0) then
      [.eq s.linearVelocity.x (Num.lit 0), .eq s.linearVelocity.y (Num.lit 0)]
    else [.le s.linearVelocity.squaredNorm (.const (m * m))]
  | .pointAt p tol =>
    -- PointAtConstraint.hpp:47-64
    let dx := .const p.x - s.pose.x
    let dy := .const p.y - s.pose.y
    let dot := s.pose.rotation.cos * dx + s.pose.rotation.sin * dy
    [.ge dot (.const (Num.cos tol) * Num.hypot dx dy)]
  | .pointLine r a b d =>
    -- PointLineConstraint.hpp:55-64
    let point := s.pose.translation.add (r.toV.rotateBy s.pose.rotation)
    let dist := linePointDistance a.toV b.toV point
    [.ge (dist * dist) (.const (d * d))]
  | .pointPoint r p d =>
    -- PointPointConstraint.hpp:51-61
    let bumperCorner := s.pose.translation.add (r.toV.rotateBy s.pose.rotation)
    let dx := .const p.x - bumperCorner.x
    let dy := .const p.y - bumperCorner.y
    [.ge (dx * dx + dy * dy) (.const (d * d))]
  | .poseEquality x y heading =>
    -- PoseEqualityConstraint.hpp:26-27,39-45
    s.pose.eqCons (.ofXYHeading x y heading)
  | .translationEquality t =>
    -- TranslationEqualityConstraint.hpp:37-43
    s.pose.translation.eqCons t.toV

end Trajopt
