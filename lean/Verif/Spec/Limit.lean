import Verif.Spec.Split

/-!
# Specification: a limit is reached
-/

set_option autoImplicit false

namespace Trajopt.Spec

/-- The robot stands still. -/
def State.Rests (s : State) : Prop := s.vel = 0 ∧ s.omega = 0

/-- The constraint limits a velocity or acceleration that is not zero and as great as it may be. -/
def LimitReached (c : Constraint ℝ) (s : State) : Prop :=
  match c with
  | .angularVelocityMaxMagnitude m => s.omega ≠ 0 ∧ |s.omega| = m
  | .linearAccelerationMaxMagnitude m => s.acc ≠ 0 ∧ ‖s.acc‖ = |m|
  | .linearVelocityMaxMagnitude m => s.vel ≠ 0 ∧ ‖s.vel‖ = |m|
  | _ => False

/-- The constraint is imposed at sample `n`, by a waypoint or by a segment. -/
def ImposedAt (t : PathTable ℝ) (n : ℕ) (c : Constraint ℝ) : Prop :=
  (∃ w ≤ t.counts.length, n = waypointSample t.counts w ∧ c ∈ t.instant w) ∨
  ∃ s < t.counts.length, n ∈ segmentSamples t.counts s ∧ c ∈ t.continuous s

/-- At sample `n` a wheel turns, or pushes, as much as it can, or a limit the path sets is reached. -/
def AtLimit (t : PathTable ℝ) (dr : SwerveDrivetrain ℝ) (T : Traj) (n : ℕ) : Prop :=
  (∃ m ∈ dr.modules, wheelVelocity (T.state n) m ≠ 0 ∧ ‖wheelVelocity (T.state n) m‖ = maxSpeed m) ∨
  (∃ j : Fin dr.modules.length, T.force n j ≠ 0 ∧ ‖T.force n j‖ = maxForce dr.modules[j]) ∨
  ∃ c, ImposedAt t n c ∧ LimitReached c (T.state n)

end Trajopt.Spec
