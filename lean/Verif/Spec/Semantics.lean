import Verif.Model.Real
import Verif.Model.Constraint
import Verif.Spec.Geometry
import Mathlib.Analysis.Convex.Segment

/-!
# Specification: what expressions and constraints mean

Values of expressions over the reals, and when a constraint is satisfied by an assignment `σ` of the
decision variables.  "Not a number" is represented by `Expr.Defined` being false; a comparison
with it is false.
-/

set_option autoImplicit false

namespace Trajopt

/-- Value of an expression. -/
noncomputable def Expr.eval (σ : ℕ → ℝ) : Expr ℝ → ℝ
  | .const d => d
  | .var i => σ i
  | .add a b => a.eval σ + b.eval σ
  | .sub a b => a.eval σ - b.eval σ
  | .mul a b => a.eval σ * b.eval σ
  | .div a b => a.eval σ / b.eval σ
  | .neg a => -a.eval σ
  | .sin a => Real.sin (a.eval σ)
  | .cos a => Real.cos (a.eval σ)
  | .atan2 a b => Num.atan2 (a.eval σ) (b.eval σ)
  | .hypot a b => Num.hypot (a.eval σ) (b.eval σ)
  | .sign a => Num.sign (a.eval σ)

/-- The expression has a value: no division by zero.  (The only division between variables in the
code is LinePointDistance.hpp:29, where a zero denominator comes with a zero numerator, so the
result is NaN and not an infinity.) -/
def Expr.Defined (σ : ℕ → ℝ) : Expr ℝ → Prop
  | .const _ => True
  | .var _ => True
  | .add a b => a.Defined σ ∧ b.Defined σ
  | .sub a b => a.Defined σ ∧ b.Defined σ
  | .mul a b => a.Defined σ ∧ b.Defined σ
  | .div a b => a.Defined σ ∧ b.Defined σ ∧ b.eval σ ≠ 0
  | .neg a => a.Defined σ
  | .sin a => a.Defined σ
  | .cos a => a.Defined σ
  | .atan2 a b => a.Defined σ ∧ b.Defined σ
  | .hypot a b => a.Defined σ ∧ b.Defined σ
  | .sign a => a.Defined σ

/-- The assignment satisfies the constraint exactly. -/
def Con.Holds (σ : ℕ → ℝ) : Con ℝ → Prop
  | .eq a b => a.Defined σ ∧ b.Defined σ ∧ a.eval σ = b.eval σ
  | .le a b => a.Defined σ ∧ b.Defined σ ∧ a.eval σ ≤ b.eval σ
  | .ge a b => a.Defined σ ∧ b.Defined σ ∧ a.eval σ ≥ b.eval σ
  | .leInf a => a.Defined σ

/-- The assignment satisfies all constraints of the problem. -/
def Problem.Feasible (p : Problem ℝ) (σ : ℕ → ℝ) : Prop := ∀ c ∈ p.cons, c.Holds σ

namespace Spec

/-- State of the robot at a sample. -/
structure State where
  /-- field position -/
  pos : ℂ
  /-- heading vector -/
  heading : ℂ
  /-- linear velocity, field frame -/
  vel : ℂ
  /-- linear acceleration, field frame -/
  acc : ℂ
  /-- angular velocity -/
  omega : ℝ
  /-- angular acceleration -/
  alpha : ℝ

/-- A vector of two expressions, evaluated. -/
noncomputable def evalVec (σ : ℕ → ℝ) (x y : Expr ℝ) : ℂ := ⟨x.eval σ, y.eval σ⟩

/-- The state a sample's variables encode. -/
noncomputable def decodeSample (σ : ℕ → ℝ) (s : SampleVars ℝ) : State where
  pos := evalVec σ s.pose.translation.x s.pose.translation.y
  heading := evalVec σ s.pose.rotation.cos s.pose.rotation.sin
  vel := evalVec σ s.linearVelocity.x s.linearVelocity.y
  acc := evalVec σ s.linearAcceleration.x s.linearAcceleration.y
  omega := s.angularVelocity.eval σ
  alpha := s.angularAcceleration.eval σ

/-- All components of the sample are numbers (always so for decision variables). -/
def DefinedSample (σ : ℕ → ℝ) (s : SampleVars ℝ) : Prop :=
  (s.pose.translation.x.Defined σ ∧ s.pose.translation.y.Defined σ) ∧
  (s.pose.rotation.cos.Defined σ ∧ s.pose.rotation.sin.Defined σ) ∧
  (s.linearVelocity.x.Defined σ ∧ s.linearVelocity.y.Defined σ) ∧
  (s.linearAcceleration.x.Defined σ ∧ s.linearAcceleration.y.Defined σ) ∧
  s.angularVelocity.Defined σ ∧ s.angularAcceleration.Defined σ

/-- The assignment satisfies what `Apply` generates for the sample. -/
def Satisfies (σ : ℕ → ℝ) (c : Constraint ℝ) (s : SampleVars ℝ) : Prop :=
  ∀ k ∈ c.apply s, k.Holds σ

/-- Field position of the robot point `r` (given in the robot frame). -/
noncomputable def State.onRobot (s : State) (r : Translation2 ℝ) : ℂ := s.pos + vec r * s.heading

/-- Unit vector at angle `a`. -/
noncomputable def unitVec (a : ℝ) : ℂ := Complex.exp (a * Complex.I)

/-- What the constraint classes are documented to require. -/
def Intended (c : Constraint ℝ) (s : State) : Prop :=
  match c with
  | .angularVelocityMaxMagnitude m => |s.omega| ≤ m
  | .linearAccelerationMaxMagnitude m => ‖s.acc‖ ≤ m
  | .linearVelocityMaxMagnitude m => ‖s.vel‖ ≤ m
  | .linearVelocityDirection a => ∃ t : ℝ, 0 ≤ t ∧ s.vel = t * unitVec a
  | .pointAt p tol => s.pos = vec p ∨ |Complex.arg ((vec p - s.pos) / s.heading)| ≤ tol
  | .linePoint a b p d => ∀ q ∈ segment ℝ (s.onRobot a) (s.onRobot b), d ≤ dist q (vec p)
  | .pointLine r a b d => ∀ q ∈ segment ℝ (vec a) (vec b), d ≤ dist q (s.onRobot r)
  | .pointPoint r p d => d ≤ dist (s.onRobot r) (vec p)
  | .poseEquality x y h => s.pos = vec ⟨x, y⟩ ∧ s.heading = unitVec h
  | .translationEquality t => s.pos = vec t

/-- What the generated constraints actually require. -/
def Meaning (c : Constraint ℝ) (s : State) : Prop :=
  match c with
  | .angularVelocityMaxMagnitude m => |s.omega| ≤ m
  | .linearAccelerationMaxMagnitude m => ‖s.acc‖ ≤ |m|
  | .linearVelocityMaxMagnitude m => ‖s.vel‖ ≤ |m|
  | .linearVelocityDirection a => ∃ t : ℝ, s.vel = t * unitVec a
  | .pointAt p tol =>
    Real.cos tol * dist s.pos (vec p) ≤ ((vec p - s.pos) * (starRingEnd ℂ) s.heading).re
  | .linePoint a b p d => s.onRobot a ≠ s.onRobot b ∧
      ∀ q ∈ segment ℝ (s.onRobot a) (s.onRobot b), |d| ≤ dist q (vec p) ^ 2
  | .pointLine r a b d => vec a ≠ vec b ∧
      ∀ q ∈ segment ℝ (vec a) (vec b), |d| ≤ dist q (s.onRobot r) ^ 2
  | .pointPoint r p d => |d| ≤ dist (s.onRobot r) (vec p)
  | .poseEquality x y h => s.pos = vec ⟨x, y⟩ ∧ (s.heading = unitVec h ∨ s.heading = -unitVec h)
  | .translationEquality t => s.pos = vec t

end Spec

end Trajopt
