import Verif.Spec.Semantics
import Verif.Model.Double

/-!
# Specification: constraints whose constants are doubles

The constants of a constraint are rounded when it is constructed and applied; the expressions are then
read exactly.  (How Sleipnir evaluates them is not modelled.)
-/

set_option autoImplicit false

namespace Trajopt

/-- Replace the constants of an expression. -/
def Expr.map {D E : Type} (f : D → E) : Expr D → Expr E
  | .const d => .const (f d)
  | .var i => .var i
  | .add a b => .add (a.map f) (b.map f)
  | .sub a b => .sub (a.map f) (b.map f)
  | .mul a b => .mul (a.map f) (b.map f)
  | .div a b => .div (a.map f) (b.map f)
  | .neg a => .neg (a.map f)
  | .sin a => .sin (a.map f)
  | .cos a => .cos (a.map f)
  | .atan2 a b => .atan2 (a.map f) (b.map f)
  | .hypot a b => .hypot (a.map f) (b.map f)
  | .sign a => .sign (a.map f)

/-- Replace the constants of a constraint. -/
def Con.map {D E : Type} (f : D → E) : Con D → Con E
  | .eq a b => .eq (a.map f) (b.map f)
  | .le a b => .le (a.map f) (b.map f)
  | .ge a b => .ge (a.map f) (b.map f)
  | .leInf a => .leInf (a.map f)

namespace Spec

variable {A : Arith}

/-- The decision variables of a sample: pose, velocities, accelerations in the order of
`Constraint.apply`'s arguments. -/
structure VarIds where
  x : ℕ
  y : ℕ
  cos : ℕ
  sin : ℕ
  vx : ℕ
  vy : ℕ
  omega : ℕ
  ax : ℕ
  ay : ℕ
  alpha : ℕ

/-- The sample handed to `Apply`. -/
def VarIds.sample {D : Type} (i : VarIds) : SampleVars D where
  pose := ⟨⟨.var i.x, .var i.y⟩, ⟨.var i.cos, .var i.sin⟩⟩
  linearVelocity := ⟨.var i.vx, .var i.vy⟩
  angularVelocity := .var i.omega
  linearAcceleration := ⟨.var i.ax, .var i.ay⟩
  angularAcceleration := .var i.alpha

/-- The state the assignment gives them. -/
def VarIds.state (i : VarIds) (σ : ℕ → ℝ) : State where
  pos := ⟨σ i.x, σ i.y⟩
  heading := ⟨σ i.cos, σ i.sin⟩
  vel := ⟨σ i.vx, σ i.vy⟩
  acc := ⟨σ i.ax, σ i.ay⟩
  omega := σ i.omega
  alpha := σ i.alpha

/-- The assignment satisfies what `Apply` generates for the sample, with the constants that
double arithmetic gives. -/
def SatisfiesD (σ : ℕ → ℝ) (c : Constraint (Doubles A)) (i : VarIds) : Prop :=
  ∀ k ∈ c.apply i.sample, (k.map Doubles.val).Holds σ

/-- A field or robot point given in doubles. -/
def vecD (t : Translation2 (Doubles A)) : ℂ := ⟨t.x.val, t.y.val⟩

/-- Field position of a robot point given in doubles. -/
noncomputable def State.onRobotD (s : State) (r : Translation2 (Doubles A)) : ℂ :=
  s.pos + vecD r * s.heading

/-- What a satisfied constraint guarantees: its meaning, loosened by the rounding of its
constants. -/
def Guaranteed (c : Constraint (Doubles A)) (s : State) : Prop :=
  match c with
  | .angularVelocityMaxMagnitude m => |s.omega| ≤ m.val
  | .linearAccelerationMaxMagnitude m => ‖s.acc‖ ^ 2 ≤ (1 + A.u) * m.val ^ 2 + A.η
  | .linearVelocityMaxMagnitude m => ‖s.vel‖ ^ 2 ≤ (1 + A.u) * m.val ^ 2 + A.η
  | .linearVelocityDirection a =>
    ∃ t : ℝ, ‖s.vel - t * unitVec a.val‖ ≤ 3 * Real.sqrt A.ε * ‖s.vel‖
  | .pointAt p tol => (Real.cos tol.val - A.ε) * dist s.pos (vecD p) ≤
      ((vecD p - s.pos) * (starRingEnd ℂ) s.heading).re
  | .linePoint a b p d => s.onRobotD a ≠ s.onRobotD b ∧
      ∀ q ∈ segment ℝ (s.onRobotD a) (s.onRobotD b),
        (1 - A.u) * d.val ^ 2 - A.η ≤ dist q (vecD p) ^ 4
  | .pointLine r a b d => vecD a ≠ vecD b ∧
      ∀ q ∈ segment ℝ (vecD a) (vecD b), (1 - A.u) * d.val ^ 2 - A.η ≤ dist q (s.onRobotD r) ^ 4
  | .pointPoint r p d => (1 - A.u) * d.val ^ 2 - A.η ≤ dist (s.onRobotD r) (vecD p) ^ 2
  | .poseEquality x y h => s.pos = ⟨x.val, y.val⟩ ∧ ‖s.heading‖ = 1 ∧
      (‖s.heading - unitVec h.val‖ ≤ 3 * A.ε ∨ ‖s.heading + unitVec h.val‖ ≤ 3 * A.ε)
  | .translationEquality t => s.pos = vecD t

/-- What is enough to satisfy a constraint: its meaning, tightened by the rounding of its
constants.  Nothing is enough for a direction other than standing still. -/
def Enough (c : Constraint (Doubles A)) (s : State) : Prop :=
  match c with
  | .angularVelocityMaxMagnitude m => |s.omega| ≤ m.val
  | .linearAccelerationMaxMagnitude m => s.acc = 0 ∨ ‖s.acc‖ ^ 2 ≤ (1 - A.u) * m.val ^ 2 - A.η
  | .linearVelocityMaxMagnitude m => s.vel = 0 ∨ ‖s.vel‖ ^ 2 ≤ (1 - A.u) * m.val ^ 2 - A.η
  | .linearVelocityDirection _ => s.vel = 0
  | .pointAt p tol => (Real.cos tol.val + A.ε) * dist s.pos (vecD p) ≤
      ((vecD p - s.pos) * (starRingEnd ℂ) s.heading).re
  | .linePoint a b p d => s.onRobotD a ≠ s.onRobotD b ∧
      ∀ q ∈ segment ℝ (s.onRobotD a) (s.onRobotD b),
        (1 + A.u) * d.val ^ 2 + A.η ≤ dist q (vecD p) ^ 4
  | .pointLine r a b d => vecD a ≠ vecD b ∧
      ∀ q ∈ segment ℝ (vecD a) (vecD b), (1 + A.u) * d.val ^ 2 + A.η ≤ dist q (s.onRobotD r) ^ 4
  | .pointPoint r p d => (1 + A.u) * d.val ^ 2 + A.η ≤ dist (s.onRobotD r) (vecD p) ^ 2
  | .poseEquality x y h => s.pos = ⟨x.val, y.val⟩ ∧
      ∃ t : ℝ, ‖s.heading‖ = 1 ∧ s.heading = t * ⟨A.rnd (A.cos h.val), A.rnd (A.sin h.val)⟩
  | .translationEquality t => s.pos = vecD t

end Spec

end Trajopt
