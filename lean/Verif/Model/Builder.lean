import Verif.Model.Constraint
import Verif.Model.InitialGuess

/-!
# Paths and `SwervePathBuilder`
(/repo/include/trajopt/path, /repo/src/path/SwervePathBuilder.cpp)
-/

namespace Trajopt

variable {D : Type}

/-- `SwerveModule` (/repo/include/trajopt/drivetrain/SwerveModule.hpp:17-29). -/
structure SwerveModule (D : Type) where
  translation : Translation2 D
  wheelRadius : D
  wheelMaxAngularVelocity : D
  wheelMaxTorque : D
  deriving Repr, DecidableEq

/-- `SwerveDrivetrain` (/repo/include/trajopt/drivetrain/SwerveDrivetrain.hpp:18-26). -/
structure SwerveDrivetrain (D : Type) where
  mass : D
  moi : D
  modules : List (SwerveModule D)
  deriving Repr, DecidableEq

/-- `Obstacle`, also `Bumpers` (/repo/include/trajopt/obstacle/Obstacle.hpp:18-24,
Bumpers.hpp:9). -/
structure Obstacle (D : Type) where
  safetyDistance : D
  points : List (Translation2 D)
  deriving Repr, DecidableEq

/-- `Waypoint` (/repo/include/trajopt/path/Path.hpp:21-27). -/
structure Waypoint (D : Type) where
  waypointConstraints : List (Constraint D) := []
  segmentConstraints : List (Constraint D) := []
  deriving Repr, DecidableEq

/-- `SwervePath` (Path.hpp:32-42).  `drivetrain` is `none` until it is set: the `double`
members `mass` and `moi` of a default-initialised `SwervePath` are indeterminate.  Callbacks are
`std::function` objects; the model names them by numbers. -/
structure SwervePath (D : Type) where
  waypoints : List (Waypoint D) := []
  drivetrain : Option (SwerveDrivetrain D) := none
  callbacks : List Nat := []
  deriving Repr, DecidableEq

/-- `path.drivetrain.modules` (default-constructed: empty). -/
def SwervePath.modules (p : SwervePath D) : List (SwerveModule D) :=
  match p.drivetrain with
  | none => []
  | some d => d.modules

/-- Reading `path.drivetrain.mass`; undefined if indeterminate. -/
def SwervePath.mass (p : SwervePath D) : Res D :=
  match p.drivetrain with
  | none => .error .ub
  | some d => .ok d.mass

/-- Reading `path.drivetrain.moi`; undefined if indeterminate. -/
def SwervePath.moi (p : SwervePath D) : Res D :=
  match p.drivetrain with
  | none => .error .ub
  | some d => .ok d.moi

/-- `SwervePathBuilder`'s data members (/repo/include/trajopt/path/SwervePathBuilder.hpp:185-190). -/
structure Builder (D : Type) where
  path : SwervePath D := {}
  bumpers : List (Obstacle D) := []
  initialGuessPoints : List (List (Pose2 D)) := []
  controlIntervalCounts : List Nat := []
  deriving Repr, DecidableEq

/-- Outcome of a builder call: the state it leaves and, if it did not return, why. -/
abbrev Out (D : Type) := Builder D × Option Fault

namespace Builder

/-- Sequencing of statements: stop at the first fault, keeping the state. -/
def andThen (o : Out D) (f : Builder D → Out D) : Out D :=
  match o with
  | (b, none) => f b
  | (b, some e) => (b, some e)

/-- `SetDrivetrain` (SwervePathBuilder.cpp:23-25). -/
def setDrivetrain (d : SwerveDrivetrain D) (b : Builder D) : Builder D :=
  { b with path := { b.path with drivetrain := some d } }

/-- `for (int64_t i = …; i <= targetIndex; ++i)` of `NewWpts` (SwervePathBuilder.cpp:205-211) with
`n` iterations left, the next being `i`. -/
def newWptsLoop [Dbl D] : (n : Nat) → (i : Int) → Builder D → Builder D
  | 0, _, b => b
  | n + 1, i, b =>
    newWptsLoop n (i + 1)
      { b with
        path := { b.path with waypoints := b.path.waypoints ++ [{}] }
        initialGuessPoints := b.initialGuessPoints ++
          [[.ofXYHeading (Num.lit 0) (Num.lit 0) (Num.lit 0)]]
        controlIntervalCounts :=
          if i ≠ 0 then b.controlIntervalCounts ++ [40] else b.controlIntervalCounts }

/-- `NewWpts` (SwervePathBuilder.cpp:201-213), with the conversions to `int64_t`. -/
def newWpts [Dbl D] (finalIndex : Nat) (b : Builder D) : Builder D :=
  let targetIndex := toInt64 finalIndex
  let greatestIndex := toInt64 (wsub b.path.waypoints.length 1)
  if targetIndex > greatestIndex then
    newWptsLoop (targetIndex - greatestIndex).toNat (greatestIndex + 1) b
  else b

/-- `path.waypoints.at(i)` modified in place by `f`. -/
def modifyWpt (i : Nat) (f : Waypoint D → Waypoint D) (b : Builder D) : Out D :=
  if i < b.path.waypoints.length then
    ({ b with path := { b.path with waypoints := b.path.waypoints.modify i f } }, none)
  else (b, some .outOfRange)

/-- `waypointConstraints.push_back(c)`. -/
def pushWpt (c : Constraint D) (w : Waypoint D) : Waypoint D :=
  { w with waypointConstraints := w.waypointConstraints ++ [c] }

/-- `segmentConstraints.push_back(c)`. -/
def pushSgmt (c : Constraint D) (w : Waypoint D) : Waypoint D :=
  { w with segmentConstraints := w.segmentConstraints ++ [c] }

/-- `WptConstraint` (SwervePathBuilder.hpp:124-127). -/
def wptConstraint [Dbl D] (index : Nat) (c : Constraint D) (b : Builder D) : Out D :=
  (b.newWpts index).modifyWpt index (pushWpt c)

/-- The loop of `SgmtConstraint` (SwervePathBuilder.hpp:143-146), `n` iterations left. -/
def sgmtLoop (c : Constraint D) : (n index : Nat) → Builder D → Out D
  | 0, _, b => (b, none)
  | n + 1, index, b =>
    andThen (b.modifyWpt index (pushWpt c)) fun b =>
    andThen (b.modifyWpt index (pushSgmt c)) fun b =>
    sgmtLoop c n (index + 1) b

/-- `SgmtConstraint` (SwervePathBuilder.hpp:137-147).  The loop runs `toIndex - fromIndex` times
or until `at` throws; `fromIndex + 1` cannot wrap here because `at(fromIndex)` returned. -/
def sgmtConstraint [Dbl D] (asserts : Bool) (fromIndex toIndex : Nat) (c : Constraint D)
    (b : Builder D) : Out D :=
  if asserts && !decide (fromIndex < toIndex) then (b, some .assertFailed)
  else
    andThen ((b.newWpts toIndex).modifyWpt fromIndex (pushWpt c)) fun b =>
    sgmtLoop c (toIndex - fromIndex) (fromIndex + 1) b

/-- `WptInitialGuessPoint` (SwervePathBuilder.cpp:39-43). -/
def wptInitialGuessPoint [Dbl D] (wptIndex : Nat) (poseGuess : Pose2 D) (b : Builder D) : Out D :=
  let b := b.newWpts wptIndex
  match b.initialGuessPoints[wptIndex]? with
  | none => (b, some .outOfRange)
  | some [] => (b, some .ub)
  | some (p :: ps) =>
    ({ b with initialGuessPoints :=
        b.initialGuessPoints.set wptIndex ((p :: ps).dropLast ++ [poseGuess]) }, none)

/-- `SgmtInitialGuessPoints` (SwervePathBuilder.cpp:45-52). -/
def sgmtInitialGuessPoints [Dbl D] (fromIndex : Nat) (sgmtPoseGuess : List (Pose2 D))
    (b : Builder D) : Out D :=
  let toIndex := wadd fromIndex 1
  let b := b.newWpts toIndex
  match b.initialGuessPoints[toIndex]? with
  | none => (b, some .outOfRange)
  | some ps =>
    ({ b with initialGuessPoints :=
        b.initialGuessPoints.set toIndex (sgmtPoseGuess ++ ps) }, none)

/-- `PoseWpt` (SwervePathBuilder.cpp:27-31). -/
def poseWpt [Dbl D] (index : Nat) (x y heading : D) (b : Builder D) : Out D :=
  andThen (b.wptConstraint index (.mkPoseEquality x y heading)) fun b =>
  b.wptInitialGuessPoint index (.ofXYHeading x y heading)

/-- `TranslationWpt` (SwervePathBuilder.cpp:33-37). -/
def translationWpt [Dbl D] (index : Nat) (x y headingGuess : D) (b : Builder D) : Out D :=
  andThen (b.wptConstraint index (.mkTranslationEquality x y)) fun b =>
  b.wptInitialGuessPoint index (.ofXYHeading x y headingGuess)

/-- `AddBumpers` (SwervePathBuilder.cpp:54-56). -/
def addBumpers (newBumpers : Obstacle D) (b : Builder D) : Builder D :=
  { b with bumpers := b.bumpers ++ [newBumpers] }

/-- The constraint objects created, in order, for one obstacle corner
(SwervePathBuilder.cpp:75-89, same at 137-152).  With no bumper corner `bumperCornerCount - 1`
wraps, so the first `at(0)` throws. -/
def bumperEdges [Dbl D] (asserts : Bool) (bum : List (Translation2 D)) (minDistance : D)
    (obstaclePoint : Translation2 D) : List (Res (Constraint D)) :=
  if bum.length = 0 then [.error .outOfRange]
  else
    (List.range (bum.length - 1)).map (fun i => do
      let s ← vat bum i
      let e ← vat bum (i + 1)
      Constraint.mkLinePoint asserts s e obstaclePoint minDistance)
    ++ (if bum.length ≥ 3 then
        [do let s ← vat bum (bum.length - 1)
            let e ← vat bum 0
            Constraint.mkLinePoint asserts s e obstaclePoint minDistance]
       else [])

/-- The constraint objects created, in order, for one bumper corner
(SwervePathBuilder.cpp:94-114, same at 157-178).  Line 107 (171) indexes the obstacle's points
with the *bumper's* corner count. -/
def obstacleEdges [Dbl D] (asserts : Bool) (bumperCornerCount : Nat) (obs : List (Translation2 D))
    (minDistance : D) (bumperCorner : Translation2 D) : List (Res (Constraint D)) :=
  if obs.length > 1 then
    (List.range (obs.length - 1)).map (fun i => do
      let s ← vat obs i
      let e ← vat obs (i + 1)
      Constraint.mkPointLine asserts bumperCorner s e minDistance)
    ++ (if obs.length ≥ 3 then
        [do let s ← vat obs (wsub bumperCornerCount 1)
            let e ← vat obs 0
            Constraint.mkPointLine asserts bumperCorner s e minDistance]
       else [])
  else
    [do let p ← vat obs 0
        Constraint.mkPointPoint asserts bumperCorner p minDistance]

/-- The constraint objects created by `WptObstacle` / `SgmtObstacle`, in order, up to the early
`return` (SwervePathBuilder.cpp:59-116, same at 121-180).  Each is created immediately before
the `WptConstraint` / `SgmtConstraint` call that records it. -/
def obstacleConstraints [Dbl D] (asserts : Bool) (obs : Obstacle D) :
    List (Obstacle D) → List (Res (Constraint D))
  | [] => []
  | bum :: rest =>
    let minDistance := bum.safetyDistance + obs.safetyDistance
    if bum.points.length = 1 ∧ obs.points.length = 1 then
      -- followed by `return`: the remaining bumpers are not looked at
      [do let r ← vat bum.points 0
          let p ← vat obs.points 0
          Constraint.mkPointPoint asserts r p minDistance]
    else
      (obs.points.map (bumperEdges asserts bum.points minDistance)).flatten
      ++ (bum.points.map
          (obstacleEdges asserts bum.points.length obs.points minDistance)).flatten
      ++ obstacleConstraints asserts obs rest

/-- Create and record constraints one after the other, stopping at the first fault. -/
def recordAll (record : Constraint D → Builder D → Out D) :
    List (Res (Constraint D)) → Builder D → Out D
  | [], b => (b, none)
  | .error e :: _, b => (b, some e)
  | .ok c :: rest, b => andThen (record c b) (recordAll record rest)

/-- `WptObstacle` (SwervePathBuilder.cpp:58-117). -/
def wptObstacle [Dbl D] (asserts : Bool) (index : Nat) (obs : Obstacle D) (b : Builder D) :
    Out D :=
  recordAll (fun c b => b.wptConstraint index c) (obstacleConstraints asserts obs b.bumpers) b

/-- `SgmtObstacle` (SwervePathBuilder.cpp:119-181). -/
def sgmtObstacle [Dbl D] (asserts : Bool) (fromIndex toIndex : Nat) (obs : Obstacle D)
    (b : Builder D) : Out D :=
  recordAll (fun c b => b.sgmtConstraint asserts fromIndex toIndex c)
    (obstacleConstraints asserts obs b.bumpers) b

/-- `ControlIntervalCounts` (SwervePathBuilder.cpp:183-185). -/
def setControlIntervalCounts (counts : List Nat) (b : Builder D) : Builder D :=
  { b with controlIntervalCounts := counts }

/-- `CalculateInitialGuess` (SwervePathBuilder.cpp:191-194). -/
def calculateInitialGuess [Dbl D] (b : Builder D) : Res (SwerveSolution D) :=
  generateLinearInitialGuess b.initialGuessPoints b.controlIntervalCounts

/-- `AddIntermediateCallback` (SwervePathBuilder.cpp:196-199). -/
def addIntermediateCallback (callback : Nat) (b : Builder D) : Builder D :=
  { b with path := { b.path with callbacks := b.path.callbacks ++ [callback] } }

end Builder

/-- The public, state-changing calls of `SwervePathBuilder` (SwervePathBuilder.hpp:41-182).
`GetPath()` hands out a mutable reference; changes made through it are in `Model/Edit.lean`. -/
inductive Op (D : Type) where
  | setDrivetrain (d : SwerveDrivetrain D)
  | poseWpt (index : Nat) (x y heading : D)
  | translationWpt (index : Nat) (x y headingGuess : D)
  | wptInitialGuessPoint (wptIndex : Nat) (poseGuess : Pose2 D)
  | sgmtInitialGuessPoints (fromIndex : Nat) (sgmtPoseGuess : List (Pose2 D))
  | addBumpers (newBumpers : Obstacle D)
  | wptObstacle (index : Nat) (obstacle : Obstacle D)
  | sgmtObstacle (fromIndex toIndex : Nat) (obstacle : Obstacle D)
  | wptConstraint (index : Nat) (c : Constraint D)
  | sgmtConstraint (fromIndex toIndex : Nat) (c : Constraint D)
  | controlIntervalCounts (counts : List Nat)
  | addIntermediateCallback (callback : Nat)

/-- Execution of one call. -/
def Op.exec [Dbl D] (asserts : Bool) (op : Op D) (b : Builder D) : Out D :=
  match op with
  | .setDrivetrain d => (b.setDrivetrain d, none)
  | .poseWpt i x y h => b.poseWpt i x y h
  | .translationWpt i x y h => b.translationWpt i x y h
  | .wptInitialGuessPoint i p => b.wptInitialGuessPoint i p
  | .sgmtInitialGuessPoints i ps => b.sgmtInitialGuessPoints i ps
  | .addBumpers o => (b.addBumpers o, none)
  | .wptObstacle i o => b.wptObstacle asserts i o
  | .sgmtObstacle i j o => b.sgmtObstacle asserts i j o
  | .wptConstraint i c => b.wptConstraint i c
  | .sgmtConstraint i j c => b.sgmtConstraint asserts i j c
  | .controlIntervalCounts cs => (b.setControlIntervalCounts cs, none)
  | .addIntermediateCallback k => (b.addIntermediateCallback k, none)

/-- A history of calls in which exceptions are caught and the builder is used further.  (After an
assert failure or undefined behaviour nothing further happens in reality; the model goes on, which
only adds histories.) -/
def run [Dbl D] (asserts : Bool) (ops : List (Op D)) (b : Builder D) : Builder D :=
  ops.foldl (fun b op => (op.exec asserts b).1) b

/-- A freshly constructed `SwervePathBuilder`. -/
def Builder.new : Builder D := {}

end Trajopt
