import Verif.Model.Builder

/-!
# `SwervePathBuilder` when memory runs out
(/repo/include/trajopt/path/SwervePathBuilder.hpp, /repo/src/path/SwervePathBuilder.cpp)

`Model/Builder`, statement by statement, with every point at which a `std::vector` or a `std::function` may ask for
memory and be refused it (`std::bad_alloc`).  A vector that is refused memory stays as it is (strong guarantee of
`push_back` and `emplace_back`; `insert` asks for memory before it moves anything, and `Pose2d` is copied without
throwing).  Whether a vector needs memory at all depends on its capacity, which is not modelled here (it is in
`Model/Alias`): a request that is granted also stands for one that is not made.  Copies that the caller makes of the
arguments are made before the call.
-/

namespace Trajopt

variable {D : Type}

/-- Why a call did not return. -/
inductive Stop where
  | fault (e : Fault)
  | badAlloc
  deriving DecidableEq, Repr

/-- A builder and the fate of the requests for memory to come: `true` is refused; after the end of the list, all are
granted. -/
structure Scarce (D : Type) where
  builder : Builder D
  refused : List Bool := []

/-- Outcome of a call. -/
abbrev ScarceOut (D : Type) := Scarce D × Option Stop

namespace Scarce

/-- Sequencing of statements: stop at the first exception, keeping the state. -/
def andThen (o : ScarceOut D) (f : Scarce D → ScarceOut D) : ScarceOut D :=
  match o with
  | (s, none) => f s
  | (s, some e) => (s, some e)

/-- A request for memory. -/
def request (s : Scarce D) : ScarceOut D :=
  match s.refused with
  | [] => (s, none)
  | r :: rest => ({ s with refused := rest }, if r then some .badAlloc else none)

/-- A change that needs memory. -/
def change (f : Builder D → Builder D) (s : Scarce D) : ScarceOut D :=
  andThen s.request fun s => ({ s with builder := f s.builder }, none)

/-- `path.waypoints.emplace_back()` (SwervePathBuilder.cpp:206). -/
def emplaceWaypoint (b : Builder D) : Builder D :=
  { b with path := { b.path with waypoints := b.path.waypoints ++ [{}] } }

/-- `initialGuessPoints.emplace_back(…)` (SwervePathBuilder.cpp:207). -/
def emplaceGuess [Dbl D] (b : Builder D) : Builder D :=
  { b with initialGuessPoints := b.initialGuessPoints ++ [[.ofXYHeading (Num.lit 0) (Num.lit 0) (Num.lit 0)]] }

/-- `controlIntervalCounts.push_back(40)` (SwervePathBuilder.cpp:209). -/
def pushCount (b : Builder D) : Builder D :=
  { b with controlIntervalCounts := b.controlIntervalCounts ++ [40] }

/-- The loop of `NewWpts` (SwervePathBuilder.cpp:205-211).  Line 207 asks for memory twice: for the temporary vector of
one pose, and for appending it. -/
def newWptsLoop [Dbl D] : (n : Nat) → (i : Int) → Scarce D → ScarceOut D
  | 0, _, s => (s, none)
  | n + 1, i, s =>
    andThen (s.change emplaceWaypoint) fun s =>
    andThen s.request fun s =>
    andThen (s.change emplaceGuess) fun s =>
    andThen (if i ≠ 0 then s.change pushCount else (s, none)) fun s =>
    newWptsLoop n (i + 1) s

/-- `NewWpts` (SwervePathBuilder.cpp:201-213). -/
def newWpts [Dbl D] (finalIndex : Nat) (s : Scarce D) : ScarceOut D :=
  let targetIndex := toInt64 finalIndex
  let greatestIndex := toInt64 (wsub s.builder.path.waypoints.length 1)
  if targetIndex > greatestIndex then
    newWptsLoop (targetIndex - greatestIndex).toNat (greatestIndex + 1) s
  else (s, none)

/-- `path.waypoints.at(i)…push_back(…)`: `at` throws before memory is asked for. -/
def pushAt (i : Nat) (f : Waypoint D → Waypoint D) (s : Scarce D) : ScarceOut D :=
  if i < s.builder.path.waypoints.length then
    s.change fun b => { b with path := { b.path with waypoints := b.path.waypoints.modify i f } }
  else (s, some (.fault .outOfRange))

/-- `WptConstraint` (SwervePathBuilder.hpp:124-127). -/
def wptConstraint [Dbl D] (index : Nat) (c : Constraint D) (s : Scarce D) : ScarceOut D :=
  andThen (s.newWpts index) fun s => s.pushAt index (Builder.pushWpt c)

/-- The loop of `SgmtConstraint` (SwervePathBuilder.hpp:143-146), `n` iterations left. -/
def sgmtLoop (c : Constraint D) : (n index : Nat) → Scarce D → ScarceOut D
  | 0, _, s => (s, none)
  | n + 1, index, s =>
    andThen (s.pushAt index (Builder.pushWpt c)) fun s =>
    andThen (s.pushAt index (Builder.pushSgmt c)) fun s =>
    sgmtLoop c n (index + 1) s

/-- `SgmtConstraint` (SwervePathBuilder.hpp:137-147). -/
def sgmtConstraint [Dbl D] (asserts : Bool) (fromIndex toIndex : Nat) (c : Constraint D) (s : Scarce D) :
    ScarceOut D :=
  if asserts && !decide (fromIndex < toIndex) then (s, some (.fault .assertFailed))
  else
    andThen (s.newWpts toIndex) fun s =>
    andThen (s.pushAt fromIndex (Builder.pushWpt c)) fun s =>
    sgmtLoop c (toIndex - fromIndex) (fromIndex + 1) s

/-- `WptInitialGuessPoint` (SwervePathBuilder.cpp:39-43): the assignment needs no memory. -/
def wptInitialGuessPoint [Dbl D] (wptIndex : Nat) (poseGuess : Pose2 D) (s : Scarce D) : ScarceOut D :=
  andThen (s.newWpts wptIndex) fun s =>
  match s.builder.initialGuessPoints[wptIndex]? with
  | none => (s, some (.fault .outOfRange))
  | some [] => (s, some (.fault .ub))
  | some (p :: ps) =>
    let guess := s.builder.initialGuessPoints.set wptIndex ((p :: ps).dropLast ++ [poseGuess])
    ({ s with builder := { s.builder with initialGuessPoints := guess } }, none)

/-- `SgmtInitialGuessPoints` (SwervePathBuilder.cpp:45-52). -/
def sgmtInitialGuessPoints [Dbl D] (fromIndex : Nat) (sgmtPoseGuess : List (Pose2 D)) (s : Scarce D) :
    ScarceOut D :=
  let toIndex := wadd fromIndex 1
  andThen (s.newWpts toIndex) fun s =>
  match s.builder.initialGuessPoints[toIndex]? with
  | none => (s, some (.fault .outOfRange))
  | some ps =>
    s.change fun b => { b with initialGuessPoints := b.initialGuessPoints.set toIndex (sgmtPoseGuess ++ ps) }

/-- `PoseWpt` (SwervePathBuilder.cpp:27-31). -/
def poseWpt [Dbl D] (index : Nat) (x y heading : D) (s : Scarce D) : ScarceOut D :=
  andThen (s.wptConstraint index (.mkPoseEquality x y heading)) fun s =>
  s.wptInitialGuessPoint index (.ofXYHeading x y heading)

/-- `TranslationWpt` (SwervePathBuilder.cpp:33-37). -/
def translationWpt [Dbl D] (index : Nat) (x y headingGuess : D) (s : Scarce D) : ScarceOut D :=
  andThen (s.wptConstraint index (.mkTranslationEquality x y)) fun s =>
  s.wptInitialGuessPoint index (.ofXYHeading x y headingGuess)

/-- Create and record constraints one after the other, stopping at the first exception (`Builder.recordAll`; creating
one needs no memory). -/
def recordAll (record : Constraint D → Scarce D → ScarceOut D) :
    List (Res (Constraint D)) → Scarce D → ScarceOut D
  | [], s => (s, none)
  | .error e :: _, s => (s, some (.fault e))
  | .ok c :: rest, s => andThen (record c s) (recordAll record rest)

/-- `WptObstacle` (SwervePathBuilder.cpp:58-117). -/
def wptObstacle [Dbl D] (asserts : Bool) (index : Nat) (obs : Obstacle D) (s : Scarce D) : ScarceOut D :=
  recordAll (fun c s => s.wptConstraint index c) (Builder.obstacleConstraints asserts obs s.builder.bumpers) s

/-- `SgmtObstacle` (SwervePathBuilder.cpp:119-181). -/
def sgmtObstacle [Dbl D] (asserts : Bool) (fromIndex toIndex : Nat) (obs : Obstacle D) (s : Scarce D) :
    ScarceOut D :=
  recordAll (fun c s => s.sgmtConstraint asserts fromIndex toIndex c)
    (Builder.obstacleConstraints asserts obs s.builder.bumpers) s

end Scarce

/-- Execution of one call (SwervePathBuilder.cpp:23-199).  `SetDrivetrain` and `ControlIntervalCounts` move their
argument and need no memory; `AddBumpers` and `AddIntermediateCallback` append to a vector. -/
def Op.execScarce [Dbl D] (asserts : Bool) (op : Op D) (s : Scarce D) : ScarceOut D :=
  match op with
  | .setDrivetrain d => ({ s with builder := s.builder.setDrivetrain d }, none)
  | .poseWpt i x y h => s.poseWpt i x y h
  | .translationWpt i x y h => s.translationWpt i x y h
  | .wptInitialGuessPoint i p => s.wptInitialGuessPoint i p
  | .sgmtInitialGuessPoints i ps => s.sgmtInitialGuessPoints i ps
  | .addBumpers o => s.change (Builder.addBumpers o)
  | .wptObstacle i o => s.wptObstacle asserts i o
  | .sgmtObstacle i j o => s.sgmtObstacle asserts i j o
  | .wptConstraint i c => s.wptConstraint i c
  | .sgmtConstraint i j c => s.sgmtConstraint asserts i j c
  | .controlIntervalCounts cs => ({ s with builder := s.builder.setControlIntervalCounts cs }, none)
  | .addIntermediateCallback k => s.change (Builder.addIntermediateCallback k)

/-- A history of calls in which exceptions are caught and the builder is used further, with the outcome of each. -/
def runScarce [Dbl D] (asserts : Bool) : List (Op D) → Scarce D → Scarce D × List (Option Stop)
  | [], s => (s, [])
  | op :: ops, s =>
    let o := op.execScarce asserts s
    let r := runScarce asserts ops o.1
    (r.1, o.2 :: r.2)

end Trajopt
