import Verif.Spec.Split

/-!
# Specification: dividing a segment by one more waypoint
-/

set_option autoImplicit false

namespace Trajopt.Spec

/-- `t'` is `t` with one more waypoint, on segment `k` after `a` of its control intervals.  Both parts of the segment
require what the segment requires, and the new waypoint requires nothing else. -/
structure DividedAt (k a : ℕ) (t t' : PathTable ℝ) : Prop where
  lt : k < t.counts.length
  le : a ≤ t.counts.getD k 0
  counts : t'.counts = t.counts.take k ++ a :: (t.counts.getD k 0 - a) :: t.counts.drop (k + 1)
  instant_before : ∀ w ≤ k, ∀ c, c ∈ t'.instant w ↔ c ∈ t.instant w
  instant_new : ∀ c, c ∈ t'.instant (k + 1) ↔ c ∈ t.continuous k
  instant_after : ∀ w, k < w → w ≤ t.counts.length → ∀ c, c ∈ t'.instant (w + 1) ↔ c ∈ t.instant w
  continuous_before : ∀ s < k, ∀ c, c ∈ t'.continuous s ↔ c ∈ t.continuous s
  continuous_first : ∀ c, c ∈ t'.continuous k ↔ c ∈ t.continuous k
  continuous_after : ∀ s, k ≤ s → s < t.counts.length → ∀ c, c ∈ t'.continuous (s + 1) ↔ c ∈ t.continuous s

/-- The same trajectory, with equal time steps in both parts of segment `k`. -/
def Traj.divided (k : ℕ) (T : Traj) : Traj where
  state := T.state
  force := T.force
  dt s := if s ≤ k then T.dt s else T.dt (s - 1)

end Trajopt.Spec
