import Verif.Spec.Trajectory

/-!
# Specification: solutions that leave every limit some room

An interior-point method, such as the solver's, keeps to the inside of all inequality constraints.
-/

set_option autoImplicit false

namespace Trajopt

/-- The constraint holds, and as a strict inequality if it is an inequality. -/
def Con.Inside (σ : ℕ → ℝ) : Con ℝ → Prop
  | .eq a b => a.Defined σ ∧ b.Defined σ ∧ a.eval σ = b.eval σ
  | .le a b => a.Defined σ ∧ b.Defined σ ∧ a.eval σ < b.eval σ
  | .ge a b => a.Defined σ ∧ b.Defined σ ∧ a.eval σ > b.eval σ
  | .leInf a => a.Defined σ

/-- The assignment lies inside all constraints of the problem. -/
def Problem.Inside (p : Problem ℝ) (σ : ℕ → ℝ) : Prop := ∀ c ∈ p.cons, c.Inside σ

namespace Spec

/-- The state leaves the constraint some room, if the constraint is an inequality. -/
def Room (c : Constraint ℝ) (s : State) : Prop :=
  match c with
  | .angularVelocityMaxMagnitude m => m ≠ 0 → |s.omega| < m
  | .linearAccelerationMaxMagnitude m => m ≠ 0 → ‖s.acc‖ < |m|
  | .linearVelocityMaxMagnitude m => m ≠ 0 → ‖s.vel‖ < |m|
  | .pointAt p tol => Real.cos tol * dist s.pos (vec p) < ((vec p - s.pos) * (starRingEnd ℂ) s.heading).re
  | .linePoint a b p d => ∀ q ∈ segment ℝ (s.onRobot a) (s.onRobot b), |d| < dist q (vec p) ^ 2
  | .pointLine r a b d => ∀ q ∈ segment ℝ (vec a) (vec b), |d| < dist q (s.onRobot r) ^ 2
  | .pointPoint r p d => |d| < dist (s.onRobot r) (vec p)
  | .linearVelocityDirection _ => True
  | .poseEquality _ _ _ => True
  | .translationEquality _ => True

/-- The constraint is about where the robot is and which way it faces, and is an inequality. -/
def OfPlace : Constraint ℝ → Prop
  | .pointAt _ _ => True
  | .linePoint _ _ _ _ => True
  | .pointLine _ _ _ _ => True
  | .pointPoint _ _ _ => True
  | _ => False

/-- The trajectory leaves some room everywhere. -/
structure Roomy (t : PathTable ℝ) (dr : SwerveDrivetrain ℝ) (T : Traj) : Prop where
  speed : ∀ n < sampleCount t.counts, ∀ m ∈ dr.modules, ‖wheelVelocity (T.state n) m‖ < maxSpeed m
  limit : ∀ n < sampleCount t.counts, ∀ j : Fin dr.modules.length, ‖T.force n j‖ < maxForce dr.modules[j]
  time : ∀ s < t.counts.length, 0 < T.dt s
  stepCap : ∀ s < t.counts.length, ∀ m ∈ dr.modules, ∀ g, Gap dr g →
    T.dt s * m.wheelRadius * m.wheelMaxAngularVelocity < g
  instant : ∀ w ≤ t.counts.length, ∀ c ∈ t.instant w, Room c (T.state (waypointSample t.counts w))
  continuous : ∀ s < t.counts.length, ∀ c ∈ t.continuous s, ∀ n ∈ segmentSamples t.counts s, Room c (T.state n)

end Spec

end Trajopt
