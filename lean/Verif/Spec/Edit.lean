import Verif.Model.Edit
import Verif.Spec.Builder

/-!
# Specification for C77: builders whose path was changed through `GetPath()`
-/

set_option autoImplicit false

namespace Trajopt.Spec

variable {D : Type}

/-- Builders that some history of calls and of changes made through `GetPath()` leads to. -/
def Edited [Dbl D] (b : Builder D) : Prop :=
  ∃ (asserts : Bool) (as : List (Act D)), b = runActs asserts as Builder.new

/-- The edit `path.waypoints.clear()`. -/
def clearWaypoints (p : SwervePath D) : SwervePath D := { p with waypoints := [] }

/-- The edit `path.waypoints.at(i).waypointConstraints.push_back(c)`, where waypoint `i` exists. -/
def addInstant (i : ℕ) (c : Constraint D) (p : SwervePath D) : SwervePath D :=
  { p with waypoints := p.waypoints.zipIdx.map fun (w, k) =>
      if k = i then { w with waypointConstraints := w.waypointConstraints ++ [c] } else w }

end Trajopt.Spec
