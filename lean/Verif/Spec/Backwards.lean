import Verif.Spec.Trajectory

/-!
# Specification: a path driven backwards
-/

set_option autoImplicit false

namespace Trajopt.Spec

variable {D : Type}

/-- The same waypoints and segments in reverse order. -/
structure Backwards (t t' : PathTable D) : Prop where
  counts : t'.counts = t.counts.reverse
  instant : ∀ w ≤ t.counts.length, t'.instant w = t.instant (t.counts.length - w)
  continuous : ∀ s < t.counts.length, t'.continuous s = t.continuous (t.counts.length - 1 - s)

end Trajopt.Spec
