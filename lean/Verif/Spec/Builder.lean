import Verif.Model.Builder
import Mathlib.Data.Nat.Notation

/-!
# Specification: what a path under construction is

A path as a user thinks of it: waypoints, what is required at each waypoint and along each segment,
what is guessed, and how finely each segment is sampled.  `table` reads this off a builder.
-/

set_option autoImplicit false

namespace Trajopt.Spec

variable {D : Type}

/-- The pose guessed for a waypoint nobody has said anything about. -/
def originPose [Dbl D] : Pose2 D := .ofXYHeading (Num.lit 0) (Num.lit 0) (Num.lit 0)

/-- A path under construction. -/
@[ext] structure PathTable (D : Type) where
  /-- number of waypoints -/
  waypoints : ℕ
  /-- constraints required at waypoint `w` -/
  instant : ℕ → List (Constraint D)
  /-- constraints required along segment `s` (from waypoint `s` to waypoint `s + 1`) -/
  continuous : ℕ → List (Constraint D)
  /-- guess poses on the way to waypoint `w`, the last one being the guess at `w` itself -/
  guess : ℕ → List (Pose2 D)
  /-- control interval counts -/
  counts : List ℕ
  drivetrain : Option (SwerveDrivetrain D)
  callbacks : List ℕ
  bumpers : List (Obstacle D)

/-- What a builder holds.  Waypoints that do not exist yet are unconstrained and guessed at the
origin. -/
def table [Dbl D] (b : Builder D) : PathTable D where
  waypoints := b.path.waypoints.length
  instant w := (b.path.waypoints.getD w {}).waypointConstraints
  continuous s := (b.path.waypoints.getD (s + 1) {}).segmentConstraints
  guess w := b.initialGuessPoints.getD w [originPose]
  counts := b.controlIntervalCounts
  drivetrain := b.path.drivetrain
  callbacks := b.path.callbacks
  bumpers := b.bumpers

/-- Builders that some history of calls leads to, exceptions caught, asserts compiled in or out. -/
def Reachable [Dbl D] (b : Builder D) : Prop :=
  ∃ (asserts : Bool) (ops : List (Op D)), b = run asserts ops Builder.new

namespace PathTable

variable (t : PathTable D)

/-- Waypoints `0, …, k` exist; every new segment gets 40 control intervals. -/
def reach (k : ℕ) : PathTable D :=
  { t with
    waypoints := max t.waypoints (k + 1)
    counts := t.counts ++ List.replicate (max t.waypoints (k + 1) - max t.waypoints 1) 40 }

/-- Require `c` at waypoint `i`. -/
def requireAt (i : ℕ) (c : Constraint D) : PathTable D :=
  { t with instant := fun w => if w = i then t.instant w ++ [c] else t.instant w }

/-- Require `c` from waypoint `i` to waypoint `j`: at each waypoint and along each segment. -/
def requireAlong (i j : ℕ) (c : Constraint D) : PathTable D :=
  { t with
    instant := fun w => if i ≤ w ∧ w ≤ j then t.instant w ++ [c] else t.instant w
    continuous := fun s => if i ≤ s ∧ s < j then t.continuous s ++ [c] else t.continuous s }

/-- Guess `p` at waypoint `i`, keeping the guesses on the way to it. -/
def guessAt (i : ℕ) (p : Pose2 D) : PathTable D :=
  { t with guess := fun w => if w = i then (t.guess w).dropLast ++ [p] else t.guess w }

/-- Guess `ps` on the way from waypoint `i` to waypoint `i + 1`, before all earlier guesses. -/
def guessAlong (i : ℕ) (ps : List (Pose2 D)) : PathTable D :=
  { t with guess := fun w => if w = i + 1 then ps ++ t.guess w else t.guess w }

end PathTable

end Trajopt.Spec
