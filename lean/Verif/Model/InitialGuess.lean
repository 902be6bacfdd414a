import Verif.Model.Geometry
import Verif.Model.Util

/-!
# /repo/include/trajopt/util/GenerateLinearInitialGuess.hpp
-/

namespace Trajopt

/-- `SwerveSolution` (/repo/include/trajopt/solution/SwerveSolution.hpp:14-53). -/
structure SwerveSolution (D : Type) where
  dt : List D := []
  x : List D := []
  y : List D := []
  thetacos : List D := []
  thetasin : List D := []
  vx : List D := []
  vy : List D := []
  omega : List D := []
  ax : List D := []
  ay : List D := []
  alpha : List D := []
  moduleFX : List (List D) := []
  moduleFY : List (List D) := []
  deriving Repr, DecidableEq

variable {D : Type} [Dbl D]

/-- One `append_vector(initialGuess.x, Linspace(…))`, `append_vector(initialGuess.y, Linspace(…))`,
`AngleLinspace(…)` + cos/sin loop, from pose `p` to pose `q` with `n` samples
(GenerateLinearInitialGuess.hpp:48-63, 66-88 and 92-112 repeat this pattern).  The result is
the list of appended `(x, y, cos θ, sin θ)`; the C++ appends to four vectors. -/
def guessPiece (p q : Pose2 D) (n : Nat) : List D × List D × List D × List D :=
  let thetas := angleLinspace p.rotation.radians q.rotation.radians n
  (linspace p.x q.x n, linspace p.y q.y n, thetas.map Num.cos, thetas.map Num.sin)

/-- The body of the loop over `wptIndex` (GenerateLinearInitialGuess.hpp:44-114): all pieces
appended for one segment, in order. -/
def guessSegment (initialGuessPoints : List (List (Pose2 D))) (controlIntervalCounts : List Nat)
    (wptIndex : Nat) : Res (List (List D × List D × List D × List D)) := do
  let nSgmt ← vat controlIntervalCounts (wptIndex - 1)
  let cur ← vat initialGuessPoints wptIndex
  let guessPointCount := cur.length
  -- `N_sgmt / guessPointCount`: division by zero is undefined
  if guessPointCount = 0 then throw .ub
  let nGuessSgmt := nSgmt / guessPointCount
  let prev ← vat initialGuessPoints (wptIndex - 1)
  let prevBack ← vback prev
  let curFront ← vfront cur
  let first := guessPiece prevBack curFront nGuessSgmt
  let middle ← (List.range' 1 (guessPointCount - 2)).mapM fun guessPointIndex => do
    let p ← vat cur (guessPointIndex - 1)
    let q ← vat cur guessPointIndex
    return guessPiece p q nGuessSgmt
  if guessPointCount > 1 then
    let nLastGuessSgmt := nSgmt - (guessPointCount - 1) * nGuessSgmt
    let p ← vat cur (guessPointCount - 2)
    let q ← vback cur
    return first :: middle ++ [guessPiece p q nLastGuessSgmt]
  else
    return first :: middle

/-- `GenerateLinearInitialGuess<SwerveSolution>` (GenerateLinearInitialGuess.hpp:18-117).
`reserve` calls are omitted. -/
def generateLinearInitialGuess (initialGuessPoints : List (List (Pose2 D)))
    (controlIntervalCounts : List Nat) : Res (SwerveSolution D) := do
  let wptCnt := controlIntervalCounts.length + 1
  let sampTot ← getIndex controlIntervalCounts wptCnt 0
  let p0 ← vfront (← vfront initialGuessPoints)
  let dt : List D :=
    List.replicate sampTot ((Dbl.ofNat wptCnt * Num.lit 5) / Dbl.ofNat sampTot)
  let segs ← (List.range' 1 (wptCnt - 1)).mapM
    (guessSegment initialGuessPoints controlIntervalCounts)
  let pieces := segs.flatten
  return {
    dt := dt
    x := p0.x :: (pieces.map (·.1)).flatten
    y := p0.y :: (pieces.map (·.2.1)).flatten
    thetacos := p0.rotation.cos :: (pieces.map (·.2.2.1)).flatten
    thetasin := p0.rotation.sin :: (pieces.map (·.2.2.2)).flatten }

end Trajopt
