import Verif.Spec.Layout
import Verif.Spec.Builder
import Verif.Spec.Semantics
import Mathlib.Algebra.BigOperators.Fin

/-!
# Specification: the optimal control problem

A trajectory of a swerve robot, and when it obeys a path and a drivetrain.  Nothing here mentions
decision variables, expressions or generated constraints.
-/

set_option autoImplicit false

namespace Trajopt.Spec

/-- A sampled trajectory. -/
@[ext] structure Traj where
  /-- state at sample `n` -/
  state : ℕ → State
  /-- force of module `j` at sample `n`, field frame -/
  force : ℕ → ℕ → ℂ
  /-- duration of each control interval of segment `s` -/
  dt : ℕ → ℝ

/-- One control interval of length `dt`, from `a` to `b` (implicit Euler). -/
structure Interval (dt : ℝ) (a b : State) : Prop where
  pos : b.pos = a.pos + dt * b.vel
  /-- the heading turns by `ω dt`, or by that and half a turn -/
  turn : b.heading * (starRingEnd ℂ) a.heading = unitVec (b.omega * dt) ∨
    b.heading * (starRingEnd ℂ) a.heading = -unitVec (b.omega * dt)
  vel : b.vel = a.vel + dt * b.acc
  omega : b.omega = a.omega + dt * b.alpha

/-- Position of a module relative to the robot's origin, field frame. -/
noncomputable def lever (s : State) (m : SwerveModule ℝ) : ℂ := vec m.translation * s.heading

/-- Torque of force `F` with lever `r`. -/
noncomputable def torque (r F : ℂ) : ℝ := ((starRingEnd ℂ) r * F).im

/-- Velocity of a module's wheel, robot frame. -/
noncomputable def wheelVelocity (s : State) (m : SwerveModule ℝ) : ℂ :=
  (starRingEnd ℂ) s.heading * s.vel + Complex.I * s.omega * vec m.translation

/-- Largest speed of a wheel's rim. -/
noncomputable def maxSpeed (m : SwerveModule ℝ) : ℝ := |m.wheelRadius * m.wheelMaxAngularVelocity|

/-- Largest force of a wheel. -/
noncomputable def maxForce (m : SwerveModule ℝ) : ℝ := |m.wheelMaxTorque / m.wheelRadius|

/-- The state is physically possible with the given module forces. -/
structure Dynamics (dr : SwerveDrivetrain ℝ) (s : State) (F : ℕ → ℂ) : Prop where
  force : ∑ j : Fin dr.modules.length, F j = dr.mass * s.acc
  torque : ∑ j : Fin dr.modules.length, torque (lever s dr.modules[j]) (F j) = dr.moi * s.alpha
  speed : ∀ m ∈ dr.modules, ‖wheelVelocity s m‖ ≤ maxSpeed m
  limit : ∀ j : Fin dr.modules.length, ‖F j‖ ≤ maxForce dr.modules[j]

/-- `g` is a nonzero coordinate difference between two modules listed one after the other. -/
def Gap (dr : SwerveDrivetrain ℝ) (g : ℝ) : Prop :=
  g ≠ 0 ∧ ∃ a b, (a, b) ∈ dr.modules.zip dr.modules.tail ∧
    (g = |a.translation.x - b.translation.x| ∨ g = |a.translation.y - b.translation.y|)

/-- The trajectory obeys path and drivetrain. -/
structure Obeys (t : PathTable ℝ) (dr : SwerveDrivetrain ℝ) (T : Traj) : Prop where
  /-- consecutive samples fit together -/
  interval : ∀ s < t.counts.length, ∀ n ∈ segmentSamples t.counts s,
    Interval (T.dt s) (T.state (n - 1)) (T.state n)
  /-- every sample is physically possible -/
  dynamics : ∀ n < sampleCount t.counts, Dynamics dr (T.state n) (T.force n)
  /-- time does not run backwards -/
  time : ∀ s < t.counts.length, 0 ≤ T.dt s
  /-- in one interval no wheel at full speed travels further than any gap between modules -/
  stepCap : ∀ s < t.counts.length, ∀ m ∈ dr.modules, ∀ g, Gap dr g →
    T.dt s * m.wheelRadius * m.wheelMaxAngularVelocity ≤ g
  /-- waypoint constraints -/
  instant : ∀ w ≤ t.counts.length, ∀ c ∈ t.instant w,
    Meaning c (T.state (waypointSample t.counts w))
  /-- segment constraints -/
  continuous : ∀ s < t.counts.length, ∀ c ∈ t.continuous s, ∀ n ∈ segmentSamples t.counts s,
    Meaning c (T.state n)

/-- Two trajectories agree on `S` samples, `m` modules and `K` segments. -/
structure Traj.Agree (S m K : ℕ) (T T' : Traj) : Prop where
  state : ∀ n < S, T.state n = T'.state n
  force : ∀ n < S, ∀ j < m, T.force n j = T'.force n j
  dt : ∀ s < K, T.dt s = T'.dt s

end Trajopt.Spec
