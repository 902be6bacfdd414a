import Verif.Model.Constraint
import Mathlib.Data.Real.Basic
import Mathlib.Data.List.Perm.Subperm

/-!
# Specification: waypoints at which the robot stops or passes, among limits
-/

set_option autoImplicit false

namespace Trajopt.Spec

/-- Constraints that ask for no equation. -/
def Limiting : Constraint ℝ → Prop
  | .angularVelocityMaxMagnitude m | .linearAccelerationMaxMagnitude m | .linearVelocityMaxMagnitude m => m ≠ 0
  | .pointAt _ _ | .linePoint _ _ _ _ | .pointLine _ _ _ _ | .pointPoint _ _ _ => True
  | .linearVelocityDirection _ | .poseEquality _ _ _ | .translationEquality _ => False

/-- In any order: `place`, standing still and not turning, each at most once, and any number of limits. -/
def Stop (place : Constraint ℝ) (cs : List (Constraint ℝ)) : Prop :=
  ∃ limits : List (Constraint ℝ), (∀ c ∈ limits, Limiting c) ∧
    cs.Subperm (limits ++ [place, .linearVelocityMaxMagnitude 0, .angularVelocityMaxMagnitude 0])

end Trajopt.Spec
