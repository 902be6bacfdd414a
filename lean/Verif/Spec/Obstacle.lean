import Verif.Spec.Builder
import Mathlib.Data.Nat.Notation

/-!
# Specification: keeping bumpers and obstacles apart
-/

set_option autoImplicit false

namespace Trajopt.Spec

variable {D : Type}

/-- The edges of an outline given by its corners: consecutive corners and, from three corners on, the
closing edge from the last corner to the first. -/
def edges : List (Translation2 D) → List (Translation2 D × Translation2 D)
  | [] => []
  | [_] => []
  | [a, b] => [(a, b)]
  | a :: b :: c :: rest =>
    (a :: b :: c :: rest).zip (b :: c :: rest) ++ [((c :: rest).getLast (by simp), a)]

/-- The documented keep-out constraints between one bumper and one obstacle: every bumper edge with
every obstacle corner, every obstacle edge with every bumper corner, and every bumper corner with a
one-point obstacle. -/
def keepOuts [Dbl D] (obs bum : Obstacle D) : List (Constraint D) :=
  let d := bum.safetyDistance + obs.safetyDistance
  obs.points.flatMap (fun p => (edges bum.points).map fun (s, e) => .linePoint s e p d) ++
  bum.points.flatMap (fun r => (edges obs.points).map fun (s, e) => .pointLine r s e d) ++
  match obs.points with
  | [p] => bum.points.map fun r => .pointPoint r p d
  | _ => []

/-- Require all of `cs` at waypoint `i`; with nothing to require nothing happens. -/
def PathTable.requireAllAt (t : PathTable D) (i : ℕ) (cs : List (Constraint D)) : PathTable D :=
  if cs = [] then t else
    { t.reach i with
      instant := fun w => if w = i then t.instant w ++ cs else t.instant w }

/-- Require all of `cs` from waypoint `i` to waypoint `j`; with nothing to require nothing
happens. -/
def PathTable.requireAllAlong (t : PathTable D) (i j : ℕ) (cs : List (Constraint D)) : PathTable D :=
  if cs = [] then t else
    { t.reach j with
      instant := fun w => if i ≤ w ∧ w ≤ j then t.instant w ++ cs else t.instant w
      continuous := fun s => if i ≤ s ∧ s < j then t.continuous s ++ cs else t.continuous s }

/-- The bumpers registered in a history. -/
def bumpersOf : List (Op D) → List (Obstacle D)
  | [] => []
  | .addBumpers o :: ops => o :: bumpersOf ops
  | _ :: ops => bumpersOf ops

end Trajopt.Spec
