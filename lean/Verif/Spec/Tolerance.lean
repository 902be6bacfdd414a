import Verif.Spec.Trajectory

/-!
# Specification: trajectories that are feasible up to a tolerance

The solver stops as soon as no constraint is violated by more than its tolerance
(`tolerance = 1e-4`, /repo/src/SwerveTrajectoryGenerator.cpp:284-285).  Here: what it means that
no generated constraint is violated by more than `ε`, and what a trajectory then obeys, in
mathematical terms.
-/

set_option autoImplicit false

namespace Trajopt

/-- The assignment violates the constraint by at most `ε`. -/
def Con.HoldsWithin (ε : ℝ) (σ : ℕ → ℝ) : Con ℝ → Prop
  | .eq a b => a.Defined σ ∧ b.Defined σ ∧ |a.eval σ - b.eval σ| ≤ ε
  | .le a b => a.Defined σ ∧ b.Defined σ ∧ a.eval σ ≤ b.eval σ + ε
  | .ge a b => a.Defined σ ∧ b.Defined σ ∧ b.eval σ ≤ a.eval σ + ε
  | .leInf a => a.Defined σ

/-- The assignment violates no constraint of the problem by more than `ε`. -/
def Problem.FeasibleWithin (ε : ℝ) (p : Problem ℝ) (σ : ℕ → ℝ) : Prop :=
  ∀ c ∈ p.cons, c.HoldsWithin ε σ

namespace Spec

/-- Each coordinate is off by at most `ε`. -/
def Near (ε : ℝ) (z w : ℂ) : Prop := |z.re - w.re| ≤ ε ∧ |z.im - w.im| ≤ ε

/-- The heading vector is, up to `ε`, parallel to the direction `u` and of norm 1. -/
def Along (ε : ℝ) (heading u : ℂ) : Prop :=
  |(heading * (starRingEnd ℂ) u).im| ≤ ε ∧ |‖heading‖ ^ 2 - 1| ≤ ε

/-- One control interval, up to `ε`. -/
structure IntervalWithin (ε dt : ℝ) (a b : State) : Prop where
  pos : Near ε b.pos (a.pos + dt * b.vel)
  turn : Along ε (b.heading * (starRingEnd ℂ) a.heading) (unitVec (b.omega * dt))
  vel : Near ε b.vel (a.vel + dt * b.acc)
  omega : |b.omega - (a.omega + dt * b.alpha)| ≤ ε

/-- Physically possible, up to `ε`. -/
structure DynamicsWithin (ε : ℝ) (dr : SwerveDrivetrain ℝ) (s : State) (F : ℕ → ℂ) : Prop where
  force : Near ε (∑ j : Fin dr.modules.length, F j) (dr.mass * s.acc)
  torque : |(∑ j : Fin dr.modules.length, torque (lever s dr.modules[j]) (F j)) -
    dr.moi * s.alpha| ≤ ε
  speed : ∀ m ∈ dr.modules, ‖wheelVelocity s m‖ ^ 2 ≤ maxSpeed m ^ 2 + ε
  limit : ∀ j : Fin dr.modules.length, ‖F j‖ ^ 2 ≤ maxForce dr.modules[j] ^ 2 + ε

/-- What the generated constraints require, up to `ε`. -/
def MeaningWithin (ε : ℝ) (c : Constraint ℝ) (s : State) : Prop :=
  match c with
  | .angularVelocityMaxMagnitude m => |s.omega| ≤ m + ε
  | .linearAccelerationMaxMagnitude m => (m = 0 → Near ε s.acc 0) ∧ (m ≠ 0 → ‖s.acc‖ ^ 2 ≤ m ^ 2 + ε)
  | .linearVelocityMaxMagnitude m => (m = 0 → Near ε s.vel 0) ∧ (m ≠ 0 → ‖s.vel‖ ^ 2 ≤ m ^ 2 + ε)
  | .linearVelocityDirection a => ((s.vel * (starRingEnd ℂ) (unitVec a)).im) ^ 2 ≤ ε
  | .pointAt p tol =>
    Real.cos tol * dist s.pos (vec p) ≤ ((vec p - s.pos) * (starRingEnd ℂ) s.heading).re + ε
  | .linePoint a b p d => s.onRobot a ≠ s.onRobot b ∧
      ∀ q ∈ segment ℝ (s.onRobot a) (s.onRobot b), d ^ 2 ≤ dist q (vec p) ^ 4 + ε
  | .pointLine r a b d => vec a ≠ vec b ∧
      ∀ q ∈ segment ℝ (vec a) (vec b), d ^ 2 ≤ dist q (s.onRobot r) ^ 4 + ε
  | .pointPoint r p d => d ^ 2 ≤ dist (s.onRobot r) (vec p) ^ 2 + ε
  | .poseEquality x y h => Near ε s.pos (vec ⟨x, y⟩) ∧ Along ε s.heading (unitVec h)
  | .translationEquality t => Near ε s.pos (vec t)

/-- The trajectory obeys path and drivetrain up to `ε`. -/
structure ObeysWithin (ε : ℝ) (t : PathTable ℝ) (dr : SwerveDrivetrain ℝ) (T : Traj) : Prop where
  interval : ∀ s < t.counts.length, ∀ n ∈ segmentSamples t.counts s,
    IntervalWithin ε (T.dt s) (T.state (n - 1)) (T.state n)
  dynamics : ∀ n < sampleCount t.counts, DynamicsWithin ε dr (T.state n) (T.force n)
  time : ∀ s < t.counts.length, 0 ≤ T.dt s + ε
  stepCap : ∀ s < t.counts.length, ∀ m ∈ dr.modules, ∀ g, Gap dr g →
    T.dt s * m.wheelRadius * m.wheelMaxAngularVelocity ≤ g + ε
  instant : ∀ w ≤ t.counts.length, ∀ c ∈ t.instant w,
    MeaningWithin ε c (T.state (waypointSample t.counts w))
  continuous : ∀ s < t.counts.length, ∀ c ∈ t.continuous s, ∀ n ∈ segmentSamples t.counts s,
    MeaningWithin ε c (T.state n)

end Spec

end Trajopt
