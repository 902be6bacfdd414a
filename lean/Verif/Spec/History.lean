import Verif.Spec.Obstacle

/-!
# Specification: what a history of calls means

Call by call, in terms of the path alone.
-/

set_option autoImplicit false

namespace Trajopt.Spec

variable {D : Type} [Dbl D]

namespace PathTable

/-- The path before any call. -/
def empty : PathTable D where
  waypoints := 0
  instant _ := []
  continuous _ := []
  guess _ := [originPose]
  counts := []
  drivetrain := none
  callbacks := []
  bumpers := []

variable (t : PathTable D)

/-- The path after one more call. -/
def after : Op D → PathTable D
  | .setDrivetrain d => { t with drivetrain := some d }
  | .poseWpt i x y h =>
    ((t.reach i).requireAt i (.poseEquality x y h)).guessAt i (.ofXYHeading x y h)
  | .translationWpt i x y h =>
    ((t.reach i).requireAt i (.translationEquality ⟨x, y⟩)).guessAt i (.ofXYHeading x y h)
  | .wptInitialGuessPoint i p => (t.reach i).guessAt i p
  | .sgmtInitialGuessPoints i ps => (t.reach (i + 1)).guessAlong i ps
  | .addBumpers o => { t with bumpers := t.bumpers ++ [o] }
  | .wptObstacle i o => t.requireAllAt i (t.bumpers.flatMap (keepOuts o))
  | .sgmtObstacle i j o => t.requireAllAlong i j (t.bumpers.flatMap (keepOuts o))
  | .wptConstraint i c => (t.reach i).requireAt i c
  | .sgmtConstraint i j c => (t.reach j).requireAlong i j c
  | .controlIntervalCounts cs => { t with counts := cs }
  | .addIntermediateCallback k => { t with callbacks := t.callbacks ++ [k] }

/-- An obstacle that goes with the bumpers: neither is without corners; from three corners on all have
the same number of corners; no one-point bumper but the last meets a one-point obstacle; safety distances
are not negative in sum (if that is asserted). -/
def Suits (asserts : Bool) (o : Obstacle D) : Prop :=
  t.bumpers ≠ [] → o.points ≠ [] ∧ o.points.length < 2 ^ 64 ∧ (∀ bum ∈ t.bumpers, bum.points ≠ []) ∧
    (3 ≤ o.points.length → ∀ bum ∈ t.bumpers, bum.points.length = o.points.length) ∧
    (o.points.length = 1 → ∀ bum ∈ t.bumpers.dropLast, bum.points.length ≠ 1) ∧
    (asserts = true → ∀ bum ∈ t.bumpers,
      Dbl.le (Num.lit 0) (bum.safetyDistance + o.safetyDistance) = true)

/-- Calls that are in order: indices below 2^63, segments with a first and a later last waypoint, obstacles
that go with the bumpers. -/
def Accepts (asserts : Bool) : Op D → Prop
  | .setDrivetrain _ | .addBumpers _ | .controlIntervalCounts _ | .addIntermediateCallback _ => True
  | .poseWpt i _ _ _ | .translationWpt i _ _ _ | .wptInitialGuessPoint i _ | .wptConstraint i _ =>
    i < 2 ^ 63
  | .sgmtInitialGuessPoints i _ => i + 1 < 2 ^ 63
  | .sgmtConstraint i j _ => i < j ∧ j < 2 ^ 63
  | .wptObstacle i o => i < 2 ^ 63 ∧ t.Suits asserts o
  | .sgmtObstacle i j o => (i < j ∧ j < 2 ^ 63) ∧ t.Suits asserts o

/-- The path after a history of calls. -/
def afterAll (t : PathTable D) : List (Op D) → PathTable D
  | [] => t
  | op :: ops => (t.after op).afterAll ops

/-- Every call of the history is in order when it is made. -/
def AcceptsAll (asserts : Bool) (t : PathTable D) : List (Op D) → Prop
  | [] => True
  | op :: ops => t.Accepts asserts op ∧ AcceptsAll asserts (t.after op) ops

end PathTable

end Trajopt.Spec
