import Verif.Spec.Smooth
import Verif.Spec.Stable

/-!
# Specification: the problem at the values that solving starts from
-/

set_option autoImplicit false

namespace Trajopt.Spec

/-- Both sides of the constraint have values. -/
def HasValue (σ : ℕ → ℝ) : Con ℝ → Prop
  | .eq a b => a.Defined σ ∧ b.Defined σ
  | .le a b => a.Defined σ ∧ b.Defined σ
  | .ge a b => a.Defined σ ∧ b.Defined σ
  | .leInf a => a.Defined σ

/-- The start values, as a vector. -/
def startVec (p : Problem ℝ) : Fin p.nvars → ℝ := fun i => p.values i

end Trajopt.Spec
