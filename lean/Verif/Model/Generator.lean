import Verif.Model.Builder

/-!
# `SwerveTrajectoryGenerator` (/repo/src/SwerveTrajectoryGenerator.cpp)

The constructor, `ApplyInitialGuess` and `ConstructSwerveSolution`.  `Generate` is in
`Verif/Model/Runtime.lean`.  `reserve` calls are omitted.
-/

namespace Trajopt

variable {D : Type}

/-- The vectors of decision variables (/repo/include/trajopt/SwerveTrajectoryGenerator.hpp:51-67).
A variable is represented by its number. -/
structure Vars where
  x : List Nat := []
  y : List Nat := []
  thetacos : List Nat := []
  thetasin : List Nat := []
  vx : List Nat := []
  vy : List Nat := []
  omega : List Nat := []
  ax : List Nat := []
  ay : List Nat := []
  alpha : List Nat := []
  Fx : List (List Nat) := []
  Fy : List (List Nat) := []
  dt : List Nat := []
  deriving Repr, DecidableEq

/-- The data members of `SwerveTrajectoryGenerator` (SwerveTrajectoryGenerator.hpp:46-73).
`handle` is captured by the callback (SwerveTrajectoryGenerator.cpp:45). -/
structure Generator (D : Type) where
  path : SwervePath D
  vars : Vars
  N : List Nat
  problem : Problem D
  handle : Int

/-- The inner loop over modules (SwerveTrajectoryGenerator.cpp:102-105): `n` modules left, returns
the variables appended to `Fx.at(index)` and `Fy.at(index)`. -/
def allocModules [Dbl D] : (n : Nat) → Problem D → (List Nat × List Nat) × Problem D
  | 0, p => (([], []), p)
  | n + 1, p =>
    let (fx, p) := p.decisionVariable
    let (fy, p) := p.decisionVariable
    let ((fxs, fys), p) := allocModules n p
    ((fx :: fxs, fy :: fys), p)

/-- The allocation loop over samples (SwerveTrajectoryGenerator.cpp:81-106), `n` samples left. -/
def allocSamples [Dbl D] (moduleCnt : Nat) : (n : Nat) → Vars → Problem D → Vars × Problem D
  | 0, vs, p => (vs, p)
  | n + 1, vs, p =>
    let (x, p) := p.decisionVariable
    let (y, p) := p.decisionVariable
    let (thetacos, p) := p.decisionVariable
    let (thetasin, p) := p.decisionVariable
    let (vx, p) := p.decisionVariable
    let (vy, p) := p.decisionVariable
    let (omega, p) := p.decisionVariable
    let (ax, p) := p.decisionVariable
    let (ay, p) := p.decisionVariable
    let (alpha, p) := p.decisionVariable
    let ((fx, fy), p) := allocModules moduleCnt p
    allocSamples moduleCnt n
      { vs with
        x := vs.x ++ [x]
        y := vs.y ++ [y]
        thetacos := vs.thetacos ++ [thetacos]
        thetasin := vs.thetasin ++ [thetasin]
        vx := vs.vx ++ [vx]
        vy := vs.vy ++ [vy]
        omega := vs.omega ++ [omega]
        ax := vs.ax ++ [ax]
        ay := vs.ay ++ [ay]
        alpha := vs.alpha ++ [alpha]
        Fx := vs.Fx ++ [fx]
        Fy := vs.Fy ++ [fy] } p

/-- `std::min(minWidth, v)` where `none` is `INFINITY` (SwerveTrajectoryGenerator.cpp:108,112,118):
`v` replaces infinity since a difference of (finite) coordinates is finite. -/
def minWidthStep [Dbl D] (w : Option D) (v : D) : Option D :=
  match w with
  | none => some v
  | some w => some (Dbl.min w v)

/-- The loop computing `minWidth` (SwerveTrajectoryGenerator.cpp:108-122); `.at(i - 1)` and `.at(i)`
run over consecutive modules. -/
def minWidthLoop [Dbl D] (w : Option D) : List (SwerveModule D) → Option D
  | a :: b :: rest =>
    let gapX := Dbl.abs (a.translation.x - b.translation.x)
    let gapY := Dbl.abs (a.translation.y - b.translation.y)
    let w := if !Dbl.eq gapX (Num.lit 0) then minWidthStep w gapX else w
    let w := if !Dbl.eq gapY (Num.lit 0) then minWidthStep w gapY else w
    minWidthLoop w (b :: rest)
  | _ => w

/-- `minWidth` (SwerveTrajectoryGenerator.cpp:108-122), `none` for `INFINITY`. -/
def minWidth [Dbl D] (modules : List (SwerveModule D)) : Option D := minWidthLoop none modules

/-- `dt.at(sgmtIndex) * module.wheelRadius * module.wheelMaxAngularVelocity <= minWidth`
(SwerveTrajectoryGenerator.cpp:127-129). -/
def stepCap [Dbl D] (w : Option D) (dt : Nat) (m : SwerveModule D) : Con D :=
  let lhs : Expr D := .var dt * .const m.wheelRadius * .const m.wheelMaxAngularVelocity
  match w with
  | none => .leInf lhs
  | some w => .le lhs (.const w)

/-- The loop allocating `dt` (SwerveTrajectoryGenerator.cpp:124-131), `n` segments left. -/
def allocDts [Dbl D] (modules : List (SwerveModule D)) (w : Option D) :
    (n : Nat) → List Nat → Problem D → List Nat × Problem D
  | 0, dts, p => (dts, p)
  | n + 1, dts, p =>
    let (dt, p) := p.decisionVariable
    allocDts modules w n (dts ++ [dt]) (p.subjectTo (modules.map (stepCap w dt)))

/-- The loop accumulating `T_tot` (SwerveTrajectoryGenerator.cpp:134-143), over the pairs
`(dt.at(i), N.at(i))`. -/
def totalTime [Dbl D] : List (Nat × Nat) → Expr D → Problem D → Expr D × Problem D
  | [], tTot, p => (tTot, p)
  | (dt, n) :: rest, tTot, p =>
    let tTot := tTot + .var dt * .const (Dbl.ofInt (toInt32 n))
    totalTime rest tTot
      ((p.subjectTo [.ge (.var dt) (Num.lit 0)]).setValue dt (Num.lit 5 / Dbl.ofNat n))

/-- `Translation2v{xs.at(i), ys.at(i)}`, e.g. SwerveTrajectoryGenerator.cpp:154. -/
def transAt (xs ys : List Nat) (i : Nat) : Res (Translation2 (Expr D)) := do
  let x ← vat xs i
  let y ← vat ys i
  return ⟨.var x, .var y⟩

/-- `Rotation2v{thetacos.at(i), thetasin.at(i)}`, e.g. SwerveTrajectoryGenerator.cpp:157. -/
def rotAt (vs : Vars) (i : Nat) : Res (Rotation2 (Expr D)) := do
  let c ← vat vs.thetacos i
  let s ← vat vs.thetasin i
  return ⟨.var c, .var s⟩

/-- `omega.at(i)` etc. -/
def varAt (xs : List Nat) (i : Nat) : Res (Expr D) := do
  return .var (← vat xs i)

/-- Body of the kinematics loop (SwerveTrajectoryGenerator.cpp:154-172). `index ≥ 1`, so
`index - 1` does not wrap. -/
def kinematicsAt [Dbl D] (vs : Vars) (dtSgmt : Expr D) (index : Nat) : Res (List (Con D)) := do
  let x_n ← transAt vs.x vs.y index
  let x_n_1 ← transAt vs.x vs.y (index - 1)
  let theta_n : Rotation2 (Expr D) ← rotAt vs index
  let theta_n_1 ← rotAt vs (index - 1)
  let v_n ← transAt vs.vx vs.vy index
  let v_n_1 ← transAt vs.vx vs.vy (index - 1)
  let omega_n ← varAt vs.omega index
  let omega_n_1 ← varAt vs.omega (index - 1)
  let a_n ← transAt vs.ax vs.ay index
  let alpha_n ← varAt vs.alpha index
  return (x_n_1.add (v_n.smul dtSgmt)).eqCons x_n
    ++ Rotation2.eqCons true true (theta_n.sub theta_n_1) (.ofAngle (omega_n * dtSgmt))
    ++ (v_n_1.add (a_n.smul dtSgmt)).eqCons v_n
    ++ [.eq (omega_n_1 + alpha_n * dtSgmt) omega_n]

/-- The kinematics loops (SwerveTrajectoryGenerator.cpp:147-174). -/
def kinematics [Dbl D] (N : List Nat) (vs : Vars) : Res (List (Con D)) := do
  let css ← (List.range' 1 N.length).mapM fun wptIndex => do
    let nSgmt ← vat N (wptIndex - 1)
    let dtSgmt ← varAt vs.dt (wptIndex - 1)
    let css ← (List.range nSgmt).mapM fun sampIndex => do
      let index ← getIndex N wptIndex sampIndex
      kinematicsAt vs dtSgmt index
    return css.flatten
  return css.flatten

/-- `std::accumulate(F.begin(), F.end(), Variable{0.0})` (SwerveTrajectoryGenerator.cpp:181-184). -/
def accumulate [Dbl D] (F : List Nat) : Expr D :=
  F.foldl (fun acc f => acc + .var f) (Num.lit 0)

/-- The torque loop (SwerveTrajectoryGenerator.cpp:187-198): modules left, next module index. -/
def netTorque [Dbl D] (theta : Rotation2 (Expr D)) (Fx Fy : List Nat) :
    List (SwerveModule D) → (moduleIndex : Nat) → (tau : Expr D) → Res (Expr D)
  | [], _, tau => .ok tau
  | m :: rest, i, tau => do
    let r := m.translation.toV.rotateBy theta
    let F ← transAt Fx Fy i
    netTorque theta Fx Fy rest (i + 1) (tau + r.cross F)

/-- The module power loop (SwerveTrajectoryGenerator.cpp:202-218). -/
def modulePower [Dbl D] (vWrtRobot : Translation2 (Expr D)) (omega : Expr D) (Fx Fy : List Nat) :
    List (SwerveModule D) → (moduleIndex : Nat) → Res (List (Con D))
  | [], _ => .ok []
  | m :: rest, i => do
    let vWheelWrtRobot : Translation2 (Expr D) :=
      ⟨vWrtRobot.x - .const m.translation.y * omega, vWrtRobot.y + .const m.translation.x * omega⟩
    let maxWheelVelocity := m.wheelRadius * m.wheelMaxAngularVelocity
    let moduleF ← transAt Fx Fy i
    let maxForce := m.wheelMaxTorque / m.wheelRadius
    let cs ← modulePower vWrtRobot omega Fx Fy rest (i + 1)
    return .le vWheelWrtRobot.squaredNorm (.const (maxWheelVelocity * maxWheelVelocity))
      :: .le moduleF.squaredNorm (.const (maxForce * maxForce)) :: cs

/-- Body of the dynamics loop (SwerveTrajectoryGenerator.cpp:176-224). -/
def dynamicsAt [Dbl D] (path : SwervePath D) (vs : Vars) (index : Nat) : Res (List (Con D)) := do
  let theta : Rotation2 (Expr D) ← rotAt vs index
  let v ← transAt vs.vx vs.vy index
  let Fx ← vat vs.Fx index
  let Fy ← vat vs.Fy index
  let FxNet := accumulate Fx
  let FyNet := accumulate Fy
  let tauNet ← netTorque theta Fx Fy path.modules 0 (Num.lit 0)
  let vWrtRobot := v.rotateBy theta.neg
  let omega ← varAt vs.omega index
  let power ← modulePower vWrtRobot omega Fx Fy path.modules 0
  let mass ← path.mass
  let moi ← path.moi
  let ax ← varAt vs.ax index
  let ay ← varAt vs.ay index
  let alpha ← varAt vs.alpha index
  return power ++ [.eq FxNet (.const mass * ax), .eq FyNet (.const mass * ay),
    .eq tauNet (.const moi * alpha)]

/-- The five arguments of `Apply` at a sample (SwerveTrajectoryGenerator.cpp:231-236 and
254-259). -/
def sampleAt (vs : Vars) (index : Nat) : Res (SampleVars D) := do
  let t ← transAt vs.x vs.y index
  let r ← rotAt vs index
  let v ← transAt vs.vx vs.vy index
  let omega ← varAt vs.omega index
  let a ← transAt vs.ax vs.ay index
  let alpha ← varAt vs.alpha index
  return ⟨⟨t, r⟩, v, omega, a, alpha⟩

/-- The waypoint constraint loop (SwerveTrajectoryGenerator.cpp:226-245).
`GetIndex(N, wptIndex + 1, 0) - 1` is `size_t` subtraction. -/
def waypointCons [Dbl D] (path : SwervePath D) (N : List Nat) (vs : Vars) :
    Res (List (Con D)) := do
  let css ← (List.range (1 + N.length)).mapM fun wptIndex => do
    let w ← vat path.waypoints wptIndex
    let css ← w.waypointConstraints.mapM fun c => do
      let next ← getIndex N (wptIndex + 1) 0
      let s ← sampleAt vs (wsub next 1)
      return c.apply s
    return css.flatten
  return css.flatten

/-- The segment constraint loop (SwerveTrajectoryGenerator.cpp:247-269). -/
def segmentCons [Dbl D] (path : SwervePath D) (N : List Nat) (vs : Vars) :
    Res (List (Con D)) := do
  let css ← (List.range N.length).mapM fun sgmtIndex => do
    let w ← vat path.waypoints (sgmtIndex + 1)
    let css ← w.segmentConstraints.mapM fun c => do
      let startIndex ← getIndex N (sgmtIndex + 1) 0
      let endIndex ← getIndex N (sgmtIndex + 2) 0
      let css ← (List.range' startIndex (endIndex - startIndex)).mapM fun index => do
        let s ← sampleAt vs index
        return c.apply s
      return css.flatten
    return css.flatten
  return css.flatten

/-- `vars[i].SetValue(v)` with unchecked indexing. -/
def setAt (vars : List Nat) (i : Nat) (v : D) (p : Problem D) : Res (Problem D) := do
  let id ← vidx vars i
  return p.setValue id v

/-- `vars[i].Value()` of a decision variable, with unchecked indexing. -/
def valueAt (vars : List Nat) (i : Nat) (p : Problem D) : Res D := do
  let id ← vidx vars i
  return p.values id

/-- First loop body of `ApplyInitialGuess` (SwerveTrajectoryGenerator.cpp:299-304). -/
def guessPosition (vs : Vars) (sol : SwerveSolution D) (p : Problem D) (i : Nat) :
    Res (Problem D) := do
  let p ← setAt vs.x i (← vidx sol.x i) p
  let p ← setAt vs.y i (← vidx sol.y i) p
  let p ← setAt vs.thetacos i (← vidx sol.thetacos i) p
  setAt vs.thetasin i (← vidx sol.thetasin i) p

/-- Second loop body of `ApplyInitialGuess` (SwerveTrajectoryGenerator.cpp:313-341). -/
def guessMotion [Dbl D] (vs : Vars) (sol : SwerveSolution D) (p : Problem D) (i : Nat) :
    Res (Problem D) := do
  let dt ← vidx sol.dt i
  let p ← setAt vs.vx i (((← vidx sol.x i) - (← vidx sol.x (i - 1))) / dt) p
  let p ← setAt vs.vy i (((← vidx sol.y i) - (← vidx sol.y (i - 1))) / dt) p
  let thetacos ← vidx sol.thetacos i
  let thetasin ← vidx sol.thetasin i
  let lastThetacos ← vidx sol.thetacos (i - 1)
  let lastThetasin ← vidx sol.thetasin (i - 1)
  let turn := (Rotation2.mk thetacos thetasin).rotateBy (Rotation2.mk lastThetacos lastThetasin).neg
  let p ← setAt vs.omega i (turn.radians / dt) p
  let p ← setAt vs.ax i (((← valueAt vs.vx i p) - (← valueAt vs.vx (i - 1) p)) / dt) p
  let p ← setAt vs.ay i (((← valueAt vs.vy i p) - (← valueAt vs.vy (i - 1) p)) / dt) p
  setAt vs.alpha i (((← valueAt vs.omega i p) - (← valueAt vs.omega (i - 1) p)) / dt) p

/-- `ApplyInitialGuess` (SwerveTrajectoryGenerator.cpp:296-342). -/
def applyInitialGuess [Dbl D] (vs : Vars) (sol : SwerveSolution D) (p : Problem D) :
    Res (Problem D) := do
  let sampleTotal := vs.x.length
  let p ← (List.range sampleTotal).foldlM (guessPosition vs sol) p
  let p ← setAt vs.vx 0 (Num.lit 0) p
  let p ← setAt vs.vy 0 (Num.lit 0) p
  let p ← setAt vs.omega 0 (Num.lit 0) p
  let p ← setAt vs.ax 0 (Num.lit 0) p
  let p ← setAt vs.ay 0 (Num.lit 0) p
  let p ← setAt vs.alpha 0 (Num.lit 0) p
  (List.range' 1 (sampleTotal - 1)).foldlM (guessMotion vs sol) p

/-- The constructor `SwerveTrajectoryGenerator(SwervePathBuilder, int64_t)`
(SwerveTrajectoryGenerator.cpp:40-272).  `wptCnt = 1 + N.size()` does not wrap (`N` is in
memory). -/
def Generator.construct [Dbl D] (b : Builder D) (handle : Int) : Res (Generator D) := do
  let path := b.path
  let N := b.controlIntervalCounts
  let initialGuess ← b.calculateInitialGuess
  let wptCnt := 1 + N.length
  let sgmtCnt := N.length
  let sampTot ← getIndex N wptCnt 0
  let moduleCnt := path.modules.length
  let (vs, p) := allocSamples moduleCnt sampTot {} Problem.empty
  let (dts, p) := allocDts path.modules (minWidth path.modules) sgmtCnt [] p
  let vs := { vs with dt := dts }
  let (tTot, p) := totalTime (dts.zip N) (Num.lit 0) p
  let p := p.minimize tTot
  let p := p.subjectTo (← kinematics N vs)
  let dyn ← (List.range sampTot).mapM (dynamicsAt path vs)
  let p := p.subjectTo dyn.flatten
  let p := p.subjectTo (← waypointCons path N vs)
  let p := p.subjectTo (← segmentCons path N vs)
  let p ← applyInitialGuess vs initialGuess p
  return { path := path, vars := vs, N := N, problem := p, handle := handle }

/-- `RowSolutionValue` (SwerveTrajectoryGenerator.cpp:20-28). -/
def rowSolutionValue (values : Nat → D) (row : List Nat) : List D := row.map values

/-- `MatrixSolutionValue` (SwerveTrajectoryGenerator.cpp:30-38). -/
def matrixSolutionValue (values : Nat → D) (matrix : List (List Nat)) : List (List D) :=
  matrix.map (rowSolutionValue values)

/-- `ConstructSwerveSolution` (SwerveTrajectoryGenerator.cpp:344-368). -/
def Generator.constructSwerveSolution (g : Generator D) : Res (SwerveSolution D) := do
  let dts ← (List.range g.N.length).mapM fun sgmtIndex => do
    let nSgmt ← vat g.N sgmtIndex
    let dt ← vat g.vars.dt sgmtIndex
    return List.replicate nSgmt (g.problem.values dt)
  return {
    dt := dts.flatten
    x := rowSolutionValue g.problem.values g.vars.x
    y := rowSolutionValue g.problem.values g.vars.y
    thetacos := rowSolutionValue g.problem.values g.vars.thetacos
    thetasin := rowSolutionValue g.problem.values g.vars.thetasin
    vx := rowSolutionValue g.problem.values g.vars.vx
    vy := rowSolutionValue g.problem.values g.vars.vy
    omega := rowSolutionValue g.problem.values g.vars.omega
    ax := rowSolutionValue g.problem.values g.vars.ax
    ay := rowSolutionValue g.problem.values g.vars.ay
    alpha := rowSolutionValue g.problem.values g.vars.alpha
    moduleFX := matrixSolutionValue g.problem.values g.vars.Fx
    moduleFY := matrixSolutionValue g.problem.values g.vars.Fy }

end Trajopt
