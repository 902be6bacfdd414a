import Verif.Spec.History

/-!
# Specification: what any call does, in order or not

As `Spec/History`, but for every call that a program can make: what is thrown or asserted, and what has been changed
by then.
-/

set_option autoImplicit false

namespace Trajopt.Spec

variable {D : Type} [Dbl D]

/-- A constraint that keeps distance `d`; that it is not negative may be asserted. -/
def checked (asserts : Bool) (d : D) (c : Constraint D) : Except Fault (Constraint D) :=
  if asserts && !Dbl.le (Num.lit 0) d then .error .assertFailed else .ok c

/-- The constraints that are made, one after the other, for a bumper and an obstacle: every obstacle corner with
the edges of the bumper, then every bumper corner with the edges of the obstacle.  The closing edge of an obstacle
begins at the corner whose number is that of the bumper's last corner; there may be none. -/
def pairAttempts (asserts : Bool) (obs bum : Obstacle D) : List (Except Fault (Constraint D)) :=
  let d := bum.safetyDistance + obs.safetyDistance
  obs.points.flatMap (fun p =>
    if bum.points = [] then [.error .outOfRange]
    else (edges bum.points).map fun (s, e) => checked asserts d (.linePoint s e p d)) ++
  bum.points.flatMap (fun r =>
    match obs.points with
    | [] => [.error .outOfRange]
    | [p] => [checked asserts d (.pointPoint r p d)]
    | [p, q] => [checked asserts d (.pointLine r p q d)]
    | p :: ps =>
      ((p :: ps).zip ps).map (fun (s, e) => checked asserts d (.pointLine r s e d)) ++
      [match (p :: ps)[bum.points.length - 1]? with
        | some s => checked asserts d (.pointLine r s p d)
        | none => .error .outOfRange])

/-- The same for all bumpers, until two points meet. -/
def attempts (asserts : Bool) (obs : Obstacle D) : List (Obstacle D) → List (Except Fault (Constraint D))
  | [] => []
  | bum :: rest =>
    pairAttempts asserts obs bum ++
      if bum.points.length = 1 ∧ obs.points.length = 1 then [] else attempts asserts obs rest

namespace PathTable

/-- The path after a call, and why the call did not return, if it did not. -/
abbrev Response (D : Type) := PathTable D × Option Fault

/-- Require the constraints one after the other, until something goes wrong. -/
def requireEach (require : Constraint D → PathTable D → Response D) :
    List (Except Fault (Constraint D)) → PathTable D → Response D
  | [], t => (t, none)
  | .error e :: _, t => (t, some e)
  | .ok c :: rest, t =>
    match require c t with
    | (t', none) => requireEach require rest t'
    | (t', some e) => (t', some e)

/-- `WptConstraint`: waypoints have numbers below 2^63. -/
def respondWpt (i : ℕ) (c : Constraint D) (t : PathTable D) : Response D :=
  if i < 2 ^ 63 then ((t.reach i).requireAt i c, none) else (t, some .outOfRange)

/-- `SgmtConstraint`.  A segment in the wrong order, if not asserted against, is a waypoint that must exist or come to
exist; a segment with an end that cannot be is followed as far as there are waypoints. -/
def respondSgmt (asserts : Bool) (i j : ℕ) (c : Constraint D) (t : PathTable D) : Response D :=
  if i < j then
    if j < 2 ^ 63 then ((t.reach j).requireAlong i j c, none)
    else if i < t.waypoints then (t.requireAlong i (t.waypoints - 1) c, some .outOfRange)
    else (t, some .outOfRange)
  else if asserts then (t, some .assertFailed)
  else
    let t' := if j < 2 ^ 63 then t.reach j else t
    if i < t'.waypoints then (t'.requireAt i c, none) else (t', some .outOfRange)

/-- What any call does. -/
def respond (asserts : Bool) (op : Op D) (t : PathTable D) : Response D :=
  match op with
  | .setDrivetrain _ | .addBumpers _ | .controlIntervalCounts _ | .addIntermediateCallback _ => (t.after op, none)
  | .poseWpt i _ _ _ | .translationWpt i _ _ _ | .wptInitialGuessPoint i _ =>
    if i < 2 ^ 63 then (t.after op, none) else (t, some .outOfRange)
  | .sgmtInitialGuessPoints i ps =>
    if i + 1 = 2 ^ 64 then
      ({ t.reach 0 with guess := fun w => if w = 0 then ps ++ t.guess w else t.guess w }, none)
    else if i + 1 < 2 ^ 63 then (t.after op, none)
    else (t, some .outOfRange)
  | .wptConstraint i c => t.respondWpt i c
  | .sgmtConstraint i j c => t.respondSgmt asserts i j c
  | .wptObstacle i o => t.requireEach (fun c t => t.respondWpt i c) (attempts asserts o t.bumpers)
  | .sgmtObstacle i j o => t.requireEach (fun c t => t.respondSgmt asserts i j c) (attempts asserts o t.bumpers)

/-- The path after a history of calls in which exceptions are caught. -/
def respondAll (asserts : Bool) (ops : List (Op D)) (t : PathTable D) : PathTable D :=
  ops.foldl (fun t op => (t.respond asserts op).1) t

end PathTable

/-- Indices are of type `size_t`, and bumpers fit in memory. -/
def Sized : Op D → Prop
  | .setDrivetrain _ | .controlIntervalCounts _ | .addIntermediateCallback _ => True
  | .poseWpt i _ _ _ | .translationWpt i _ _ _ | .wptInitialGuessPoint i _ | .sgmtInitialGuessPoints i _
  | .wptConstraint i _ | .wptObstacle i _ => i < 2 ^ 64
  | .sgmtConstraint i j _ | .sgmtObstacle i j _ => i < 2 ^ 64 ∧ j < 2 ^ 64
  | .addBumpers o => o.points.length < 2 ^ 64

end Trajopt.Spec
