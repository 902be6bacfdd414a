import Verif.Model.InitialGuess

/-!
# `HolonomicTrajectory` (/repo/include/trajopt/trajectory)
-/

namespace Trajopt

variable {D : Type}

/-- `HolonomicTrajectorySample`
(/repo/include/trajopt/trajectory/HolonomicTrajectorySample.hpp:15-95). -/
structure TrajSample (D : Type) where
  timestamp : D
  x : D
  y : D
  heading : D
  velocityX : D
  velocityY : D
  angularVelocity : D
  moduleForcesX : List D
  moduleForcesY : List D
  deriving Repr, DecidableEq

/-- The loop of `HolonomicTrajectory(const SwerveSolution&)`
(/repo/include/trajopt/trajectory/HolonomicTrajectory.hpp:39-49): `n` samples left, next index
`samp`, running time `ts`. -/
def trajectoryLoop [Dbl D] (sol : SwerveSolution D) :
    (n samp : Nat) → (ts : D) → Res (List (TrajSample D))
  | 0, _, _ => .ok []
  | n + 1, samp, ts => do
    let ts ← if samp ≠ 0 then do
        let d ← vidx sol.dt (samp - 1)
        pure (ts + d)
      else pure ts
    let x ← vidx sol.x samp
    let y ← vidx sol.y samp
    let thetasin ← vidx sol.thetasin samp
    let thetacos ← vidx sol.thetacos samp
    let vx ← vidx sol.vx samp
    let vy ← vidx sol.vy samp
    let omega ← vidx sol.omega samp
    let fx ← vidx sol.moduleFX samp
    let fy ← vidx sol.moduleFY samp
    let rest ← trajectoryLoop sol n (samp + 1) ts
    return ⟨ts, x, y, Num.atan2 thetasin thetacos, vx, vy, omega, fx, fy⟩ :: rest

/-- `HolonomicTrajectory(const SwerveSolution&)`: its `samples` (HolonomicTrajectory.hpp:38-50). -/
def holonomicTrajectory [Dbl D] (sol : SwerveSolution D) : Res (List (TrajSample D)) :=
  trajectoryLoop sol sol.x.length 0 (Num.lit 0)

end Trajopt
