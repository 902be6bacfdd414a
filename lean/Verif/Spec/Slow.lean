import Verif.Spec.Drivable

/-!
# Specification: the same motion, more slowly
-/

set_option autoImplicit false

namespace Trajopt.Spec

/-- The same place and heading, passed `k` times as slowly. -/
noncomputable def State.slower (k : ℝ) (s : State) : State :=
  { s with vel := s.vel / k, acc := s.acc / k ^ 2, omega := s.omega / k, alpha := s.alpha / k ^ 2 }

/-- The same motion, taking `k` times as long. -/
noncomputable def Traj.slower (k : ℝ) (T : Traj) : Traj where
  state n := (T.state n).slower k
  force n j := T.force n j / k ^ 2
  dt s := k * T.dt s

end Trajopt.Spec
