import Verif.Spec.Builder
import Verif.Spec.Layout
import Verif.Spec.Trajectory

/-!
# Specification for C129: a trajectory as the guess
-/

set_option autoImplicit false

namespace Trajopt.Spec

/-- Where the robot is. -/
def poseOf (s : State) : Pose2 ℝ := ⟨⟨s.pos.re, s.pos.im⟩, ⟨s.heading.re, s.heading.im⟩⟩

/-- The guess consists of the poses at the samples of a trajectory: that of the first sample for the first waypoint, and for each
segment those of the samples after its first waypoint, up to and including that of its last one. -/
structure GivenBack (t : PathTable ℝ) (T : Traj) : Prop where
  first : t.guess 0 = [poseOf (T.state 0)]
  rest : ∀ (s : ℕ) (hs : s < t.counts.length), t.guess (s + 1) =
    (List.range t.counts[s]).map fun j => poseOf (T.state (waypointSample t.counts s + 1 + j))

end Trajopt.Spec
