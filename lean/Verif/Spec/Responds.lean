import Verif.Spec.Gradient
import Verif.Spec.Trajectory

/-!
# Specification: limits that answer

Solvers keep a point inside its limits by following the limits' gradients.  A limit whose gradient is zero where the limit is
reached gives no direction to turn to.
-/

set_option autoImplicit false

namespace Trajopt.Spec

/-- If the limit is reached, moving the variables in some direction changes the difference of its two sides at a rate other
than zero. -/
def Responds (σ : ℕ → ℝ) : Con ℝ → Prop
  | .eq _ _ => True
  | .le a b => a.eval σ = b.eval σ → ∃ d v, v ≠ 0 ∧ Rate a b σ d v
  | .ge a b => a.eval σ = b.eval σ → ∃ d v, v ≠ 0 ∧ Rate a b σ d v
  | .leInf _ => True

/-- The limit is reached, and in whatever direction the variables move, the difference of its two sides changes at no rate
other than zero. -/
def Mute (σ : ℕ → ℝ) (c : Con ℝ) : Prop :=
  ∃ a b, (c = .le a b ∨ c = .ge a b) ∧ a.eval σ = b.eval σ ∧ ∀ d v, Rate a b σ d v → v = 0

/-- A distance of zero to be kept; a robot that is on the point it has to face. -/
def Blunt (c : Constraint ℝ) (s : State) : Prop :=
  match c with
  | .pointAt p _ => s.pos = vec p
  | .linePoint _ _ _ d => d = 0
  | .pointLine _ _ _ d => d = 0
  | .pointPoint _ _ d => d = 0
  | _ => False

/-- A distance of zero is to be kept, and robot and obstacle touch. -/
def Touches (c : Constraint ℝ) (s : State) : Prop :=
  match c with
  | .pointPoint r p d => d = 0 ∧ s.onRobot r = vec p
  | .pointLine r a b d => d = 0 ∧ s.onRobot r ∈ segment ℝ (vec a) (vec b)
  | .linePoint a b p d => d = 0 ∧ vec p ∈ segment ℝ (s.onRobot a) (s.onRobot b)
  | _ => False

end Trajopt.Spec
