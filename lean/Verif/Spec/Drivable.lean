import Verif.Spec.Trajectory
import Mathlib.Analysis.Calculus.Deriv.Basic

/-!
# Specification: slow motion along curves
-/

set_option autoImplicit false

namespace Trajopt.Spec

/-- The constraint holds for a robot that moves, with speeds and accelerations of at most `δ`, along the
curve `γ` while its heading turns as `φ` says. -/
def Tolerates (c : Constraint ℝ) (δ : ℝ) (γ : ℝ → ℂ) (φ : ℝ → ℝ) : Prop :=
  ∀ u ∈ Set.Icc (0 : ℝ) 1, ∀ s : State, s.pos = γ u → s.heading = unitVec (φ u) →
    ‖s.vel‖ ≤ δ → |s.omega| ≤ δ → ‖s.acc‖ ≤ δ → |s.alpha| ≤ δ → Meaning c s

/-- `f` has, on the unit interval, a derivative of norm at most `L` that changes by at most `M` per unit. -/
def Smooth {E : Type} [NormedAddCommGroup E] [NormedSpace ℝ E] (f : ℝ → E) (L M : ℝ) : Prop :=
  ∃ f' : ℝ → E, ∀ u ∈ Set.Icc (0 : ℝ) 1, HasDerivWithinAt f (f' u) (Set.Icc 0 1) u ∧ ‖f' u‖ ≤ L ∧
    ∀ v ∈ Set.Icc (0 : ℝ) 1, ‖f' u - f' v‖ ≤ M * |u - v|

/-- The straight line from `p` to `q`. -/
def straight {E : Type} [NormedAddCommGroup E] [NormedSpace ℝ E] (p q : E) (u : ℝ) : E :=
  p + u • (q - p)

/-- The constraint holds for a robot that stands at `p` with heading `θ`, or is about to stop or
start there with accelerations of at most `δ`. -/
def AllowsStop (c : Constraint ℝ) (δ : ℝ) (p : ℂ) (θ : ℝ) : Prop :=
  ∀ s : State, s.pos = p → s.heading = unitVec θ → s.vel = 0 → s.omega = 0 →
    ‖s.acc‖ ≤ δ → |s.alpha| ≤ δ → Meaning c s

/-- The robot can push and turn itself: its modules are not all in one place, and every wheel has some
speed and some torque. -/
structure Capable (dr : SwerveDrivetrain ℝ) : Prop where
  apart : ∃ m₁ ∈ dr.modules, ∃ m₂ ∈ dr.modules, m₁.translation ≠ m₂.translation
  speed : ∀ m ∈ dr.modules, m.wheelRadius ≠ 0 ∧ m.wheelMaxAngularVelocity ≠ 0
  torque : ∀ m ∈ dr.modules, m.wheelMaxTorque ≠ 0

/-- With speeds and accelerations of at most `δ` the wheels are within their limits. -/
def Manages (dr : SwerveDrivetrain ℝ) (δ : ℝ) : Prop :=
  ∀ s : State, ‖s.heading‖ = 1 → ‖s.vel‖ ≤ δ → |s.omega| ≤ δ → ‖s.acc‖ ≤ δ → |s.alpha| ≤ δ →
    ∃ F, Dynamics dr s F

/-- A control interval of `τ` is not too long: in it no wheel at full speed travels further than any gap
between modules. -/
def Brief (dr : SwerveDrivetrain ℝ) (τ : ℝ) : Prop :=
  ∀ m ∈ dr.modules, ∀ g, Gap dr g → τ * m.wheelRadius * m.wheelMaxAngularVelocity ≤ g

end Trajopt.Spec
