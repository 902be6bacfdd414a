import Verif.Model.Generator
import Mathlib.Data.Nat.Notation

/-!
# Specification: which variables a constraint involves
-/

set_option autoImplicit false

namespace Trajopt.Spec

variable {D : Type}

/-- The expression contains the variable. -/
def Mentions (i : ℕ) : Expr D → Prop
  | .const _ => False
  | .var j => j = i
  | .add a b | .sub a b | .mul a b | .div a b | .atan2 a b | .hypot a b => Mentions i a ∨ Mentions i b
  | .neg a | .sin a | .cos a | .sign a => Mentions i a

/-- The constraint contains the variable. -/
def Involves (c : Con D) (i : ℕ) : Prop :=
  match c with
  | .eq a b | .le a b | .ge a b => Mentions i a ∨ Mentions i b
  | .leInf a => Mentions i a

/-- The variable is one of sample `n`: of its pose, velocities, accelerations or forces. -/
def OfSample (vs : Vars) (n i : ℕ) : Prop :=
  vs.x[n]? = some i ∨ vs.y[n]? = some i ∨ vs.thetacos[n]? = some i ∨ vs.thetasin[n]? = some i ∨
  vs.vx[n]? = some i ∨ vs.vy[n]? = some i ∨ vs.omega[n]? = some i ∨
  vs.ax[n]? = some i ∨ vs.ay[n]? = some i ∨ vs.alpha[n]? = some i ∨
  (∃ l, vs.Fx[n]? = some l ∧ i ∈ l) ∨ ∃ l, vs.Fy[n]? = some l ∧ i ∈ l

/-- The variable is the time step of segment `s`. -/
def OfSegment (vs : Vars) (s i : ℕ) : Prop := vs.dt[s]? = some i

end Trajopt.Spec
