import Verif.Spec.Trajectory
import Mathlib.Analysis.Calculus.Deriv.Basic
import Mathlib.Analysis.Complex.Basic

/-!
# Specification: motion in continuous time
-/

set_option autoImplicit false

namespace Trajopt.Spec

/-- `τ n` is the time of sample `n`: control intervals take as long as the trajectory says. -/
def Clock (N : List ℕ) (T : Traj) (τ : ℕ → ℝ) : Prop :=
  ∀ s < N.length, ∀ n ∈ segmentSamples N s, τ n = τ (n - 1) + T.dt s

/-- A rigid body that moves in the plane. -/
structure Motion where
  /-- position -/
  pos : ℝ → ℂ
  /-- velocity -/
  vel : ℝ → ℂ
  /-- heading vector -/
  heading : ℝ → ℂ
  /-- angular velocity -/
  omega : ℝ → ℝ

/-- From time `a` to time `b` the body has the acceleration and the angular acceleration of `s`. -/
structure Motion.Leg (x : Motion) (s : State) (a b : ℝ) : Prop where
  pos : ∀ t ∈ Set.Icc a b, HasDerivWithinAt x.pos (x.vel t) (Set.Icc a b) t
  vel : ∀ t ∈ Set.Icc a b, HasDerivWithinAt x.vel s.acc (Set.Icc a b) t
  heading : ∀ t ∈ Set.Icc a b, HasDerivWithinAt x.heading (Complex.I * x.omega t * x.heading t) (Set.Icc a b) t
  omega : ∀ t ∈ Set.Icc a b, HasDerivWithinAt x.omega s.alpha (Set.Icc a b) t

/-- The body starts as the first sample says, and during the control interval before sample `n` it has the
accelerations of sample `n`. -/
structure Motion.Follows (x : Motion) (N : List ℕ) (T : Traj) (τ : ℕ → ℝ) : Prop where
  pos₀ : x.pos (τ 0) = (T.state 0).pos
  vel₀ : x.vel (τ 0) = (T.state 0).vel
  heading₀ : x.heading (τ 0) = (T.state 0).heading
  omega₀ : x.omega (τ 0) = (T.state 0).omega
  leg : ∀ s < N.length, ∀ n ∈ segmentSamples N s, x.Leg (T.state n) (τ (n - 1)) (τ n)

end Trajopt.Spec
