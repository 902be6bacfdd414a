import Verif.Spec.Trajectory

/-!
# Specification: cutting a path in two at a waypoint, and joining the parts again
-/

set_option autoImplicit false

namespace Trajopt.Spec

/-- `t₁` is `t` up to waypoint `K` and `t₂` is `t` from waypoint `K` on: the same control intervals,
and the same constraints, in any order and however often repeated. -/
structure CutAt (K : ℕ) (t t₁ t₂ : PathTable ℝ) : Prop where
  le : K ≤ t.counts.length
  counts₁ : t₁.counts = t.counts.take K
  counts₂ : t₂.counts = t.counts.drop K
  instant₁ : ∀ w ≤ K, ∀ c, c ∈ t₁.instant w ↔ c ∈ t.instant w
  instant₂ : ∀ w, K + w ≤ t.counts.length → ∀ c, c ∈ t₂.instant w ↔ c ∈ t.instant (K + w)
  continuous₁ : ∀ s < K, ∀ c, c ∈ t₁.continuous s ↔ c ∈ t.continuous s
  continuous₂ : ∀ s, K + s < t.counts.length → ∀ c, c ∈ t₂.continuous s ↔ c ∈ t.continuous (K + s)

/-- The trajectory from sample `S` on, where segment `K` begins. -/
def Traj.from (S K : ℕ) (T : Traj) : Traj where
  state n := T.state (S + n)
  force n := T.force (S + n)
  dt s := T.dt (K + s)

/-- `T₁` up to sample `S`, where segment `K` begins, and `T₂` after that. -/
def Traj.join (S K : ℕ) (T₁ T₂ : Traj) : Traj where
  state n := if n ≤ S then T₁.state n else T₂.state (n - S)
  force n := if n ≤ S then T₁.force n else T₂.force (n - S)
  dt s := if s < K then T₁.dt s else T₂.dt (s - K)

/-- How long the trajectory takes. -/
noncomputable def timeTaken (N : List ℕ) (T : Traj) : ℝ :=
  ∑ s ∈ Finset.range N.length, (N.getD s 0 : ℝ) * T.dt s

end Trajopt.Spec
