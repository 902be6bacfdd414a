import Verif.Spec.Builder
import Verif.Model.Real
import Mathlib.Data.List.Forall2

/-!
# Specification: looser limits
-/

set_option autoImplicit false

namespace Trajopt.Spec

/-- The same constraint with a limit that is no tighter: more speed, acceleration or tolerance, less distance. -/
inductive Looser : Constraint ℝ → Constraint ℝ → Prop
  | same (c : Constraint ℝ) : Looser c c
  | angularVelocity (m m' : ℝ) : m ≤ m' → Looser (.angularVelocityMaxMagnitude m) (.angularVelocityMaxMagnitude m')
  | linearVelocity (m m' : ℝ) : 0 ≤ m → m ≤ m' →
      Looser (.linearVelocityMaxMagnitude m) (.linearVelocityMaxMagnitude m')
  | linearAcceleration (m m' : ℝ) : 0 ≤ m → m ≤ m' →
      Looser (.linearAccelerationMaxMagnitude m) (.linearAccelerationMaxMagnitude m')
  | pointAt (p : Translation2 ℝ) (tol tol' : ℝ) : 0 ≤ tol → tol ≤ tol' → tol' ≤ Real.pi →
      Looser (.pointAt p tol) (.pointAt p tol')
  | linePoint (a b p : Translation2 ℝ) (d d' : ℝ) : 0 ≤ d' → d' ≤ d → Looser (.linePoint a b p d) (.linePoint a b p d')
  | pointLine (r a b : Translation2 ℝ) (d d' : ℝ) : 0 ≤ d' → d' ≤ d → Looser (.pointLine r a b d) (.pointLine r a b d')
  | pointPoint (r p : Translation2 ℝ) (d d' : ℝ) : 0 ≤ d' → d' ≤ d → Looser (.pointPoint r p d) (.pointPoint r p d')

/-- The same corners with a safety distance that is no larger. -/
structure LooserObstacle (o o' : Obstacle ℝ) : Prop where
  points : o.points = o'.points
  nonneg : 0 ≤ o'.safetyDistance
  le : o'.safetyDistance ≤ o.safetyDistance

/-- The same call with limits that are no tighter. -/
inductive LooserCall : Op ℝ → Op ℝ → Prop
  | other (op : Op ℝ) : (∀ o, op ≠ .addBumpers o) → (∀ i o, op ≠ .wptObstacle i o) →
      (∀ i j o, op ≠ .sgmtObstacle i j o) → LooserCall op op
  | wptConstraint (i : ℕ) {c c' : Constraint ℝ} : Looser c c' → LooserCall (.wptConstraint i c) (.wptConstraint i c')
  | sgmtConstraint (i j : ℕ) {c c' : Constraint ℝ} : Looser c c' →
      LooserCall (.sgmtConstraint i j c) (.sgmtConstraint i j c')
  | addBumpers {o o' : Obstacle ℝ} : LooserObstacle o o' → LooserCall (.addBumpers o) (.addBumpers o')
  | wptObstacle (i : ℕ) {o o' : Obstacle ℝ} : LooserObstacle o o' → LooserCall (.wptObstacle i o) (.wptObstacle i o')
  | sgmtObstacle (i j : ℕ) {o o' : Obstacle ℝ} : LooserObstacle o o' →
      LooserCall (.sgmtObstacle i j o) (.sgmtObstacle i j o')

end Trajopt.Spec
