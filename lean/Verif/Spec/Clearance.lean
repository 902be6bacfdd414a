import Verif.Spec.Trajectory
import Verif.Spec.Obstacle
import Mathlib.Topology.Connected.Basic
import Mathlib.Topology.Instances.Complex

/-!
# Specification: outlines, insides, and robots between samples
-/

set_option autoImplicit false

namespace Trajopt.Spec

/-- The outline of a shape with corners `ps`, placed on the field by `f`. -/
def outline (f : Translation2 ℝ → ℂ) (ps : List (Translation2 ℝ)) : Set ℂ :=
  {z | (∃ p ∈ ps, z = f p) ∨ ∃ e ∈ edges ps, z ∈ segment ℝ (f e.1) (f e.2)}

/-- No edge of one shape meets an edge of the other. -/
def NoCrossing (f g : Translation2 ℝ → ℂ) (ps qs : List (Translation2 ℝ)) : Prop :=
  ∀ e ∈ edges ps, ∀ e' ∈ edges qs, ∀ z ∈ segment ℝ (f e.1) (f e.2), z ∉ segment ℝ (g e'.1) (g e'.2)

/-- A shape placed on the field by `f`, then by `f'`: where its corners are when a fraction `t` of the
move is done, each moving straight. -/
noncomputable def blend (f f' : Translation2 ℝ → ℂ) (t : ℝ) (p : Translation2 ℝ) : ℂ :=
  (1 - t : ℝ) * f p + (t : ℝ) * f' p

/-- The field point `z` as the robot sees it. -/
noncomputable def State.view (s : State) (z : ℂ) : ℂ := (starRingEnd ℂ) s.heading * (z - s.pos)

/-- `R` is the shape with corners `ps`, inside included: in one piece, and bordered by the outline. -/
structure Fills (ps : List (Translation2 ℝ)) (R : Set ℂ) : Prop where
  border : frontier R ⊆ outline vec ps
  corners : ∀ p ∈ ps, vec p ∈ R
  connected : IsPreconnected R

/-- All of `cs` is required from waypoint `i` to waypoint `j`. -/
structure PathTable.Requires (t : PathTable ℝ) (i j : ℕ) (cs : List (Constraint ℝ)) : Prop where
  instant : ∀ c ∈ cs, c ∈ t.instant i
  continuous : ∀ s, i ≤ s → s < j → ∀ c ∈ cs, c ∈ t.continuous s

end Trajopt.Spec
