import Verif.Spec.Builder
import Mathlib.Algebra.BigOperators.Group.Finset.Basic

/-!
# Specification: how many equations and inequalities
-/

set_option autoImplicit false

namespace Trajopt.Spec

variable {D : Type}

/-- The constraint is an equation. -/
def IsEquation : Con D → Bool
  | .eq _ _ => true
  | _ => false

/-- Equations a constraint of the path amounts to at a sample.  A limit of zero is an equation. -/
def equations [Dbl D] : Constraint D → ℕ
  | .poseEquality _ _ _ => 4
  | .translationEquality _ => 2
  | .linearVelocityDirection _ => 1
  | .linearVelocityMaxMagnitude m | .linearAccelerationMaxMagnitude m => if Dbl.eq m (Num.lit 0) then 2 else 0
  | .angularVelocityMaxMagnitude m => if Dbl.eq m (Num.lit 0) then 1 else 0
  | .pointAt _ _ | .pointPoint _ _ _ | .pointLine _ _ _ _ | .linePoint _ _ _ _ => 0

/-- Inequalities a constraint of the path amounts to at a sample. -/
def inequalities [Dbl D] : Constraint D → ℕ
  | .poseEquality _ _ _ | .translationEquality _ | .linearVelocityDirection _ => 0
  | .linearVelocityMaxMagnitude m | .linearAccelerationMaxMagnitude m => if Dbl.eq m (Num.lit 0) then 0 else 1
  | .angularVelocityMaxMagnitude m => if Dbl.eq m (Num.lit 0) then 0 else 2
  | .pointAt _ _ | .pointPoint _ _ _ | .pointLine _ _ _ _ | .linePoint _ _ _ _ => 1

/-- A quantity of the path's constraints, added up over all samples at which they are imposed: those of a
waypoint once, those of a segment at each of its samples. -/
def imposed (rows : Constraint D → ℕ) (t : PathTable D) : ℕ :=
  (∑ w ∈ Finset.range (1 + t.counts.length), ((t.instant w).map rows).sum) +
  ∑ s ∈ Finset.range t.counts.length, t.counts.getD s 0 * ((t.continuous s).map rows).sum

end Trajopt.Spec
