import Mathlib.Data.Finset.Interval
import Mathlib.Order.Interval.Finset.Nat

/-!
# Specification: how samples are laid out

Counts `N₀, N₁, …` of control intervals per segment.
-/

set_option autoImplicit false

namespace Trajopt.Spec

/-- Sample at which waypoint `w` sits: all control intervals of the earlier segments. -/
def waypointSample (N : List ℕ) (w : ℕ) : ℕ := (N.take w).sum

/-- Samples that belong to segment `s`: after waypoint `s`, up to and including waypoint `s+1`. -/
def segmentSamples (N : List ℕ) (s : ℕ) : Finset ℕ :=
  Finset.Ioc (waypointSample N s) (waypointSample N (s + 1))

/-- Number of samples of the whole trajectory. -/
def sampleCount (N : List ℕ) : ℕ := 1 + N.sum

end Trajopt.Spec
