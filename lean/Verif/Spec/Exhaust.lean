import Verif.Model.Exhaust
import Verif.Spec.Builder

/-!
# Specification: calls that are refused memory
-/

set_option autoImplicit false

namespace Trajopt.Spec

variable {D : Type}

/-- How many of the calls ended because they were refused memory. -/
def refusals (os : List (Option Stop)) : ℕ := os.count (some .badAlloc)

/-- Every waypoint that the call names exists, if there are `n`. -/
def Op.Known (n : ℕ) : Op D → Prop
  | .setDrivetrain _ | .addBumpers _ | .controlIntervalCounts _ | .addIntermediateCallback _ => True
  | .poseWpt i _ _ _ | .translationWpt i _ _ _ | .wptInitialGuessPoint i _ | .wptConstraint i _ | .wptObstacle i _ =>
    i < n
  | .sgmtInitialGuessPoints i _ => i + 1 < n
  | .sgmtConstraint i j _ | .sgmtObstacle i j _ => i < n ∧ j < n

/-- The call records at most one constraint, at one waypoint. -/
def Op.Single : Op D → Prop
  | .wptObstacle _ _ | .sgmtObstacle _ _ _ | .sgmtConstraint _ _ _ => False
  | _ => True

/-- There is a list of guesses for every waypoint and a count for every segment. -/
structure Complete (b : Builder D) : Prop where
  guess : b.initialGuessPoints.length = b.path.waypoints.length
  counts : b.controlIntervalCounts.length = b.path.waypoints.length - 1

end Trajopt.Spec
