import Verif.Spec.Rounding
import Verif.Spec.Trajectory

/-!
# Specification: the optimal control problem with double constants
-/

set_option autoImplicit false

namespace Trajopt.Spec

variable {A : Arith}

/-- A module whose data are doubles, read as real numbers. -/
def moduleVal (m : SwerveModule (Doubles A)) : SwerveModule ℝ where
  translation := ⟨m.translation.x.val, m.translation.y.val⟩
  wheelRadius := m.wheelRadius.val
  wheelMaxAngularVelocity := m.wheelMaxAngularVelocity.val
  wheelMaxTorque := m.wheelMaxTorque.val

/-- A drivetrain whose data are doubles, read as real numbers. -/
def robotVal (dr : SwerveDrivetrain (Doubles A)) : SwerveDrivetrain ℝ where
  mass := dr.mass.val
  moi := dr.moi.val
  modules := dr.modules.map moduleVal

/-- `Dynamics`, where `lim` says how large the square of a speed or force may be for a given
limit. -/
structure DynamicsD (lim : ℝ → ℝ) (dr : SwerveDrivetrain ℝ) (s : State) (F : ℕ → ℂ) : Prop where
  force : ∑ j : Fin dr.modules.length, F j = dr.mass * s.acc
  torque : ∑ j : Fin dr.modules.length, torque (lever s dr.modules[j]) (F j) = dr.moi * s.alpha
  speed : ∀ m ∈ dr.modules, ‖wheelVelocity s m‖ ^ 2 ≤ lim (maxSpeed m)
  limit : ∀ j : Fin dr.modules.length, ‖F j‖ ^ 2 ≤ lim (maxForce dr.modules[j])

/-- The square of a limit, computed with rounding, is at most this. -/
def looseSq (A : Arith) (x : ℝ) : ℝ := (1 + A.u) * ((1 + A.u) * x + A.η) ^ 2 + A.η

/-- The square of a limit, computed with rounding, is at least this. -/
def tightSq (A : Arith) (x : ℝ) : ℝ := (1 - A.u) * max 0 ((1 - A.u) * x - A.η) ^ 2 - A.η

/-- What the step cap guarantees: no wheel at full speed travels further than a gap (larger than
the absolute rounding error), loosened by rounding. -/
def StepGuaranteed (A : Arith) (dr : SwerveDrivetrain ℝ) (dt : ℝ) : Prop :=
  ∀ m ∈ dr.modules, ∀ g, Gap dr g → A.η < (1 - A.u) * g →
    dt * m.wheelRadius * m.wheelMaxAngularVelocity ≤ (1 + A.u) * g + A.η

/-- What is enough for the step cap. -/
def StepEnough (A : Arith) (dr : SwerveDrivetrain ℝ) (dt : ℝ) : Prop :=
  ∀ m ∈ dr.modules, ∀ g, Gap dr g →
    dt * m.wheelRadius * m.wheelMaxAngularVelocity ≤ (1 - A.u) * g - A.η

/-- `Obeys`, with the meaning of step caps, dynamics and constraints as parameters. -/
structure ObeysWith {D : Type} (t : PathTable D) (step : ℝ → Prop) (dyn : State → (ℕ → ℂ) → Prop)
    (means : Constraint D → State → Prop) (T : Traj) : Prop where
  interval : ∀ s < t.counts.length, ∀ n ∈ segmentSamples t.counts s,
    Interval (T.dt s) (T.state (n - 1)) (T.state n)
  dynamics : ∀ n < sampleCount t.counts, dyn (T.state n) (T.force n)
  time : ∀ s < t.counts.length, 0 ≤ T.dt s
  stepCap : ∀ s < t.counts.length, step (T.dt s)
  instant : ∀ w ≤ t.counts.length, ∀ c ∈ t.instant w,
    means c (T.state (waypointSample t.counts w))
  continuous : ∀ s < t.counts.length, ∀ c ∈ t.continuous s, ∀ n ∈ segmentSamples t.counts s,
    means c (T.state n)

/-- What a solution of the problem with double constants guarantees. -/
def ObeysLoosely (t : PathTable (Doubles A)) (dr : SwerveDrivetrain (Doubles A)) (T : Traj) : Prop :=
  ObeysWith t (StepGuaranteed A (robotVal dr)) (DynamicsD (looseSq A) (robotVal dr)) Guaranteed T

/-- What is enough for a solution of the problem with double constants. -/
def ObeysTightly (t : PathTable (Doubles A)) (dr : SwerveDrivetrain (Doubles A)) (T : Traj) : Prop :=
  ObeysWith t (StepEnough A (robotVal dr)) (DynamicsD (tightSq A) (robotVal dr)) Enough T

end Trajopt.Spec
