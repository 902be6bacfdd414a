import Verif.Model.Generator
import Verif.Lemmas.Util
import Verif.Lemmas.InitialGuess
import Mathlib.Tactic.IntervalCases

/-! # Closed form of the generator's constructor (any scalar arithmetic) -/

set_option autoImplicit false

namespace Trajopt

variable {D : Type}

/-- Decision variables per sample, with `m` modules. -/
def stride (m : ℕ) : ℕ := 10 + 2 * m

/-- All variable vectors in closed form: `m` modules, `S` samples. -/
def closedVars (m S : ℕ) (dts : List ℕ) : Vars where
  x := (List.range S).map fun n => n * stride m
  y := (List.range S).map fun n => n * stride m + 1
  thetacos := (List.range S).map fun n => n * stride m + 2
  thetasin := (List.range S).map fun n => n * stride m + 3
  vx := (List.range S).map fun n => n * stride m + 4
  vy := (List.range S).map fun n => n * stride m + 5
  omega := (List.range S).map fun n => n * stride m + 6
  ax := (List.range S).map fun n => n * stride m + 7
  ay := (List.range S).map fun n => n * stride m + 8
  alpha := (List.range S).map fun n => n * stride m + 9
  Fx := (List.range S).map fun n => (List.range m).map fun j => n * stride m + 10 + 2 * j
  Fy := (List.range S).map fun n => (List.range m).map fun j => n * stride m + 11 + 2 * j
  dt := dts

section
variable [Dbl D]

/-- A problem with `n` variables, all zero. -/
def zeroProblem (n : ℕ) (cs : List (Con D)) : Problem D := ⟨n, fun _ => Num.lit 0, cs, none⟩

theorem decisionVariable_zero (n : ℕ) (cs : List (Con D)) :
    (zeroProblem n cs).decisionVariable = (n, zeroProblem (n + 1) cs) := by
  simp only [zeroProblem, Problem.decisionVariable, Prod.mk.injEq, Problem.mk.injEq, true_and, and_true]
  funext i; exact ite_self _

theorem allocModules_eq (m k : ℕ) (cs : List (Con D)) :
    allocModules m (zeroProblem k cs) =
      (((List.range m).map fun j => k + 2 * j, (List.range m).map fun j => k + 1 + 2 * j),
        zeroProblem (k + 2 * m) cs) := by
  induction m generalizing k with
  | zero => rfl
  | succ m ih =>
    simp only [allocModules, decisionVariable_zero, ih]
    rw [List.range_succ_eq_map]
    simp only [List.map_cons, List.map_map, Prod.mk.injEq, List.cons.injEq]
    refine ⟨⟨⟨by omega, ?_⟩, trivial, ?_⟩, by rw [show k + 1 + 1 + 2 * m = k + 2 * (m + 1) by omega]⟩
    · apply List.map_congr_left; intro j _; simp only [Function.comp]; omega
    · apply List.map_congr_left; intro j _; simp only [Function.comp]; omega

/-- Append two blocks of variable vectors. -/
def Vars.append (a b : Vars) : Vars where
  x := a.x ++ b.x
  y := a.y ++ b.y
  thetacos := a.thetacos ++ b.thetacos
  thetasin := a.thetasin ++ b.thetasin
  vx := a.vx ++ b.vx
  vy := a.vy ++ b.vy
  omega := a.omega ++ b.omega
  ax := a.ax ++ b.ax
  ay := a.ay ++ b.ay
  alpha := a.alpha ++ b.alpha
  Fx := a.Fx ++ b.Fx
  Fy := a.Fy ++ b.Fy
  dt := a.dt

theorem range'_map_cons {α : Type} (f : ℕ → α) (i n : ℕ) :
    (List.range' i (n + 1)).map f = f i :: (List.range' (i + 1) n).map f := by
  rw [List.range'_succ]; rfl

theorem allocSamples_from (m n i : ℕ) (vs : Vars) :
    allocSamples m n vs (zeroProblem (D := D) (i * stride m) []) =
      (vs.append {
        x := (List.range' i n).map fun n => n * stride m
        y := (List.range' i n).map fun n => n * stride m + 1
        thetacos := (List.range' i n).map fun n => n * stride m + 2
        thetasin := (List.range' i n).map fun n => n * stride m + 3
        vx := (List.range' i n).map fun n => n * stride m + 4
        vy := (List.range' i n).map fun n => n * stride m + 5
        omega := (List.range' i n).map fun n => n * stride m + 6
        ax := (List.range' i n).map fun n => n * stride m + 7
        ay := (List.range' i n).map fun n => n * stride m + 8
        alpha := (List.range' i n).map fun n => n * stride m + 9
        Fx := (List.range' i n).map fun n => (List.range m).map fun j => n * stride m + 10 + 2 * j
        Fy := (List.range' i n).map fun n => (List.range m).map fun j => n * stride m + 11 + 2 * j
        dt := [] }, zeroProblem ((i + n) * stride m) []) := by
  induction n generalizing i vs with
  | zero => simp [allocSamples, Vars.append]
  | succ n ih =>
    simp only [allocSamples, decisionVariable_zero, allocModules_eq]
    rw [show i * stride m + 1 + 1 + 1 + 1 + 1 + 1 + 1 + 1 + 1 + 1 + 2 * m = (i + 1) * stride m by
      simp only [stride]; ring, ih]
    simp only [Vars.append, range'_map_cons, List.append_assoc, List.singleton_append]
    rw [show i + 1 + n = i + (n + 1) by omega]

theorem allocSamples_eq (m S : ℕ) :
    allocSamples m S {} (Problem.empty : Problem D) =
      (closedVars m S [], zeroProblem (S * stride m) []) := by
  have := allocSamples_from (D := D) m S 0 {}
  simp only [Nat.zero_mul, Nat.zero_add] at this
  rw [show (Problem.empty : Problem D) = zeroProblem 0 [] from rfl, this]
  simp only [Vars.append, List.nil_append, closedVars, List.range_eq_range']

theorem allocDts_eq (modules : List (SwerveModule D)) (w : Option D) (n k : ℕ) (dts : List ℕ)
    (cs : List (Con D)) :
    allocDts modules w n dts (zeroProblem k cs) =
      (dts ++ List.range' k n, zeroProblem (k + n)
        (cs ++ (List.range' k n).flatMap fun dt => modules.map (stepCap w dt))) := by
  induction n generalizing k dts cs with
  | zero => simp [allocDts]
  | succ n ih =>
    simp only [allocDts, decisionVariable_zero]
    rw [show (zeroProblem (k + 1) cs).subjectTo (modules.map (stepCap w k)) =
      zeroProblem (k + 1) (cs ++ modules.map (stepCap w k)) from rfl, ih, List.range'_succ]
    simp only [List.append_assoc, List.singleton_append, List.flatMap_cons]
    rw [show k + 1 + n = k + (n + 1) by omega]

/-- `T_tot` in closed form. -/
def totalTimeExpr (dts : List (ℕ × ℕ)) (acc : Expr D) : Expr D :=
  dts.foldl (fun t x => t + .var x.1 * .const (Dbl.ofInt (toInt32 x.2))) acc

/-- The values `dt_sgmt.SetValue(5.0 / N_sgmt)` leaves. -/
def dtValues (dts : List (ℕ × ℕ)) (v : ℕ → D) : ℕ → D :=
  dts.foldl (fun v x => fun j => if j = x.1 then Num.lit 5 / Dbl.ofNat x.2 else v j) v

theorem totalTime_eq (dts : List (ℕ × ℕ)) (acc : Expr D) (p : Problem D) :
    totalTime dts acc p = (totalTimeExpr dts acc,
      { p with
        cons := p.cons ++ dts.map (fun x => .ge (.var x.1) (Num.lit 0))
        values := dtValues dts p.values }) := by
  induction dts generalizing acc p with
  | nil => simp [totalTime, totalTimeExpr, dtValues]
  | cons x dts ih =>
    obtain ⟨dt, n⟩ := x
    simp only [totalTime, ih, totalTimeExpr, List.foldl_cons, Problem.subjectTo, Problem.setValue,
      dtValues, List.map_cons, List.append_assoc, List.singleton_append]

/-- The variables of sample `n`. -/
def sampleVars (m n : ℕ) : SampleVars D where
  pose := ⟨⟨.var (n * stride m), .var (n * stride m + 1)⟩,
    ⟨.var (n * stride m + 2), .var (n * stride m + 3)⟩⟩
  linearVelocity := ⟨.var (n * stride m + 4), .var (n * stride m + 5)⟩
  angularVelocity := .var (n * stride m + 6)
  linearAcceleration := ⟨.var (n * stride m + 7), .var (n * stride m + 8)⟩
  angularAcceleration := .var (n * stride m + 9)

theorem vat_map_range {α : Type} {S n : ℕ} (h : n < S) (f : ℕ → α) :
    vat ((List.range S).map f) n = .ok (f n) := by
  rw [vat_ok (by simpa using h)]; simp

omit [Dbl D] in
theorem sampleAt_eq {m S n : ℕ} (dts : List ℕ) (h : n < S) :
    sampleAt (closedVars m S dts) n = .ok (sampleVars m n : SampleVars D) := by
  simp only [sampleAt, transAt, rotAt, varAt, closedVars, vat_map_range h, Except.ok_bind]
  rfl

/-- Kinematics constraints of one interval. -/
def kinCons (prev cur : SampleVars D) (dt : Expr D) : List (Con D) :=
  (prev.pose.translation.add (cur.linearVelocity.smul dt)).eqCons cur.pose.translation
    ++ Rotation2.eqCons true true (cur.pose.rotation.sub prev.pose.rotation)
      (.ofAngle (cur.angularVelocity * dt))
    ++ (prev.linearVelocity.add (cur.linearAcceleration.smul dt)).eqCons cur.linearVelocity
    ++ [.eq (prev.angularVelocity + cur.angularAcceleration * dt) cur.angularVelocity]

theorem kinematicsAt_eq {m S n : ℕ} (dts : List ℕ) (dt : Expr D) (h : n < S) :
    kinematicsAt (closedVars m S dts) dt n = .ok (kinCons (sampleVars m (n - 1)) (sampleVars m n) dt) := by
  have h' : n - 1 < S := by omega
  simp only [kinematicsAt, transAt, rotAt, varAt, closedVars, vat_map_range h, vat_map_range h',
    Except.ok_bind]
  rfl

/-- The force variables of module `j` at sample `n`. -/
def forceVars (m n j : ℕ) : Translation2 (Expr D) :=
  ⟨.var (n * stride m + 10 + 2 * j), .var (n * stride m + 11 + 2 * j)⟩

/-- Net torque in closed form. -/
def torqueExpr (m n : ℕ) : List (SwerveModule D) → ℕ → Expr D → Expr D
  | [], _, tau => tau
  | md :: rest, i, tau => torqueExpr m n rest (i + 1)
      (tau + (md.translation.toV.rotateBy (sampleVars m n).pose.rotation).cross (forceVars m n i))

/-- Constraints on one module at a sample. -/
def powerCons (s : SampleVars D) (F : Translation2 (Expr D)) (md : SwerveModule D) : List (Con D) :=
  let v := s.linearVelocity.rotateBy s.pose.rotation.neg
  let w : Translation2 (Expr D) :=
    ⟨v.x - .const md.translation.y * s.angularVelocity, v.y + .const md.translation.x * s.angularVelocity⟩
  let maxV := md.wheelRadius * md.wheelMaxAngularVelocity
  let maxF := md.wheelMaxTorque / md.wheelRadius
  [.le w.squaredNorm (.const (maxV * maxV)), .le F.squaredNorm (.const (maxF * maxF))]

/-- Module constraints at a sample. -/
def powerList (m n : ℕ) : List (SwerveModule D) → ℕ → List (Con D)
  | [], _ => []
  | md :: rest, i => powerCons (sampleVars m n) (forceVars m n i) md ++ powerList m n rest (i + 1)

omit [Dbl D] in
theorem transAt_force {m n j : ℕ} (h : j < m) :
    transAt ((List.range m).map fun j => n * stride m + 10 + 2 * j)
      ((List.range m).map fun j => n * stride m + 11 + 2 * j) j =
      .ok (forceVars m n j : Translation2 (Expr D)) := by
  simp only [transAt, vat_map_range h, Except.ok_bind]
  rfl

theorem netTorque_eq (m n : ℕ) (mods : List (SwerveModule D)) (i : ℕ) (tau : Expr D)
    (h : i + mods.length ≤ m) :
    netTorque (sampleVars m n).pose.rotation
      ((List.range m).map fun j => n * stride m + 10 + 2 * j)
      ((List.range m).map fun j => n * stride m + 11 + 2 * j) mods i tau =
      .ok (torqueExpr m n mods i tau) := by
  induction mods generalizing i tau with
  | nil => rfl
  | cons md rest ih =>
    simp only [List.length_cons] at h
    rw [netTorque, transAt_force (by omega), Except.ok_bind, ih _ _ (by omega)]
    rfl

theorem modulePower_eq (m n : ℕ) (mods : List (SwerveModule D)) (i : ℕ)
    (h : i + mods.length ≤ m) :
    modulePower ((sampleVars m n : SampleVars D).linearVelocity.rotateBy
        (sampleVars m n).pose.rotation.neg) (sampleVars m n).angularVelocity
      ((List.range m).map fun j => n * stride m + 10 + 2 * j)
      ((List.range m).map fun j => n * stride m + 11 + 2 * j) mods i =
      .ok (powerList m n mods i) := by
  induction mods generalizing i with
  | nil => rfl
  | cons md rest ih =>
    simp only [List.length_cons] at h
    rw [modulePower]
    simp only [transAt_force (D := D) (n := n) (show i < m by omega), Except.ok_bind,
      ih (i + 1) (by omega)]
    rfl

/-- Dynamics constraints of one sample. -/
def dynCons (dr : SwerveDrivetrain D) (n : ℕ) : List (Con D) :=
  let m := dr.modules.length
  let s : SampleVars D := sampleVars m n
  powerList m n dr.modules 0 ++
    [.eq (accumulate ((List.range m).map fun j => n * stride m + 10 + 2 * j))
        (.const dr.mass * s.linearAcceleration.x),
     .eq (accumulate ((List.range m).map fun j => n * stride m + 11 + 2 * j))
        (.const dr.mass * s.linearAcceleration.y),
     .eq (torqueExpr m n dr.modules 0 (Num.lit 0)) (.const dr.moi * s.angularAcceleration)]

theorem dynamicsAt_eq {path : SwervePath D} {dr : SwerveDrivetrain D} (hd : path.drivetrain = some dr)
    {S n : ℕ} (dts : List ℕ) (h : n < S) :
    dynamicsAt path (closedVars dr.modules.length S dts) n = .ok (dynCons dr n) := by
  have hm : path.modules = dr.modules := by simp [SwervePath.modules, hd]
  have h1 : path.mass = .ok dr.mass := by simp [SwervePath.mass, hd]
  have h2 : path.moi = .ok dr.moi := by simp [SwervePath.moi, hd]
  have t1 := netTorque_eq dr.modules.length n dr.modules 0 (Num.lit 0) (by simp)
  have t2 := modulePower_eq dr.modules.length n dr.modules 0 (by simp)
  simp only [sampleVars] at t1 t2
  simp only [dynamicsAt, transAt, rotAt, varAt, closedVars, vat_map_range h, Except.ok_bind, hm, h1, h2,
    pure, Except.pure]
  rw [t1, Except.ok_bind, t2, Except.ok_bind]
  rfl

theorem dynamicsAt_ub {path : SwervePath D} (hd : path.drivetrain = none)
    {S n : ℕ} (dts : List ℕ) (h : n < S) :
    dynamicsAt path (closedVars 0 S dts) n = .error .ub := by
  have hm : path.modules = [] := by simp [SwervePath.modules, hd]
  have h1 : path.mass = .error .ub := by simp [SwervePath.mass, hd]
  simp only [dynamicsAt, transAt, rotAt, varAt, closedVars, vat_map_range h, Except.ok_bind, hm, h1,
    pure, Except.pure, netTorque, modulePower, Except.error_bind]

/-- All kinematics constraints. -/
def kinList (m : ℕ) (N dts : List ℕ) : List (Con D) :=
  (List.range N.length).flatMap fun s => (List.range (N.getD s 0)).flatMap fun k =>
    kinCons (sampleVars m ((N.take s).sum + k)) (sampleVars m ((N.take s).sum + 1 + k))
      (.var (dts.getD s 0))

theorem kinematics_eq (m : ℕ) (N dts : List ℕ) (hN : 1 + N.sum < 2 ^ 64)
    (hd : dts.length = N.length) :
    kinematics N (closedVars m (1 + N.sum) dts) = .ok (kinList (D := D) m N dts) := by
  unfold kinematics
  have inner : ∀ w ∈ List.range' 1 N.length, (do
      let nSgmt ← vat N (w - 1)
      let dtSgmt ← varAt (closedVars m (1 + N.sum) dts).dt (w - 1)
      let css ← (List.range nSgmt).mapM fun sampIndex => do
        let index ← getIndex N w sampIndex
        kinematicsAt (D := D) (closedVars m (1 + N.sum) dts) dtSgmt index
      return css.flatten : Res (List (Con D))) =
      .ok ((List.range (N.getD (w - 1) 0)).flatMap fun k =>
        kinCons (sampleVars m ((N.take (w - 1)).sum + k)) (sampleVars m ((N.take (w - 1)).sum + 1 + k))
          (.var (dts.getD (w - 1) 0))) := by
    intro w hw
    rw [List.mem_range'_1] at hw
    obtain ⟨s, rfl⟩ : ∃ s, w = s + 1 := ⟨w - 1, by omega⟩
    have hs : s < N.length := by omega
    have hle := sum_take_le N (s + 1)
    have hsucc := sum_take_succ N hs
    simp only [Nat.add_sub_cancel]
    rw [vat_ok hs, Except.ok_bind, varAt, show (closedVars m (1 + N.sum) dts).dt = dts from rfl,
      vat_ok (by omega), Except.ok_bind]
    simp only [pure, Except.pure, Except.ok_bind]
    rw [mapM_ok (g := fun k => kinCons (sampleVars m ((N.take s).sum + k))
      (sampleVars m ((N.take s).sum + 1 + k)) (.var (dts.getD s 0)))]
    · simp only [Except.ok_bind, getD_lt hs]
      rw [List.flatMap_def]
    · intro k hk
      rw [List.mem_range] at hk
      rw [getIndex_succ N s k (by omega) (by omega), Except.ok_bind]
      have := kinematicsAt_eq (D := D) (m := m) (S := 1 + N.sum) (n := 1 + (N.take s).sum + k) dts
        (.var dts[s]) (by omega)
      rw [this, show 1 + (N.take s).sum + k - 1 = (N.take s).sum + k by omega,
        show 1 + (N.take s).sum + k = (N.take s).sum + 1 + k by omega, getD_lt]
  rw [mapM_ok inner]
  simp only [Except.ok_bind, pure, Except.pure, kinList, List.flatMap_def]
  congr 2
  apply List.ext_getElem
  · simp
  · intro i h1 h2
    simp only [List.getElem_map, List.getElem_range', List.getElem_range]
    congr 2
    all_goals (simp; try rfl)

/-- All waypoint constraints. -/
def wptList (m : ℕ) (path : SwervePath D) (N : List ℕ) : List (Con D) :=
  (List.range (1 + N.length)).flatMap fun w =>
    (path.waypoints.getD w {}).waypointConstraints.flatMap fun c =>
      c.apply (sampleVars m (N.take w).sum)

theorem waypointCons_eq (m : ℕ) (path : SwervePath D) (N dts : List ℕ) (hN : 1 + N.sum < 2 ^ 64)
    (hw : N.length < path.waypoints.length) :
    waypointCons path N (closedVars m (1 + N.sum) dts) = .ok (wptList m path N) := by
  unfold waypointCons
  have inner : ∀ w ∈ List.range (1 + N.length), (do
      let wp ← vat path.waypoints w
      let css ← wp.waypointConstraints.mapM fun c => do
        let next ← getIndex N (w + 1) 0
        let s ← sampleAt (closedVars m (1 + N.sum) dts) (wsub next 1)
        return c.apply s
      return css.flatten : Res (List (Con D))) =
      .ok ((path.waypoints.getD w {}).waypointConstraints.flatMap fun c =>
        c.apply (sampleVars m (N.take w).sum)) := by
    intro w hw'
    rw [List.mem_range] at hw'
    have hle := sum_take_le N w
    rw [vat_ok (by omega), Except.ok_bind,
      mapM_ok (g := fun c => c.apply (sampleVars m (N.take w).sum))]
    · simp only [Except.ok_bind, getD_lt (show w < path.waypoints.length by omega)]
      rw [List.flatMap_def]
      rfl
    · intro c _
      rw [getIndex_succ N w 0 (by omega) (by omega), Except.ok_bind,
        wsub_eq (by omega) (by omega), show 1 + (N.take w).sum + 0 - 1 = (N.take w).sum by omega,
        sampleAt_eq _ (by omega)]
      rfl
  rw [mapM_ok inner]
  simp only [Except.ok_bind, pure, Except.pure, wptList, List.flatMap_def]

/-- All segment constraints. -/
def sgmtList (m : ℕ) (path : SwervePath D) (N : List ℕ) : List (Con D) :=
  (List.range N.length).flatMap fun s =>
    (path.waypoints.getD (s + 1) {}).segmentConstraints.flatMap fun c =>
      (List.range' (1 + (N.take s).sum) (N.getD s 0)).flatMap fun n => c.apply (sampleVars m n)

theorem segmentCons_eq (m : ℕ) (path : SwervePath D) (N dts : List ℕ) (hN : 1 + N.sum < 2 ^ 64)
    (hw : N.length < path.waypoints.length) :
    segmentCons path N (closedVars m (1 + N.sum) dts) = .ok (sgmtList m path N) := by
  unfold segmentCons
  have inner : ∀ s ∈ List.range N.length, (do
      let wp ← vat path.waypoints (s + 1)
      let css ← wp.segmentConstraints.mapM fun c => do
        let startIndex ← getIndex N (s + 1) 0
        let endIndex ← getIndex N (s + 2) 0
        let css ← (List.range' startIndex (endIndex - startIndex)).mapM fun index => do
          let sv ← sampleAt (closedVars m (1 + N.sum) dts) index
          return c.apply sv
        return css.flatten
      return css.flatten : Res (List (Con D))) =
      .ok ((path.waypoints.getD (s + 1) {}).segmentConstraints.flatMap fun c =>
        (List.range' (1 + (N.take s).sum) (N.getD s 0)).flatMap fun n =>
          c.apply (sampleVars m n)) := by
    intro s hs
    rw [List.mem_range] at hs
    have hle := sum_take_le N (s + 1)
    have hsucc := sum_take_succ N hs
    rw [vat_ok (by omega), Except.ok_bind, mapM_ok (g := fun c =>
      (List.range' (1 + (N.take s).sum) (N.getD s 0)).flatMap fun n => c.apply (sampleVars m n))]
    · simp only [Except.ok_bind, getD_lt (show s + 1 < path.waypoints.length by omega)]
      rw [List.flatMap_def]
      rfl
    · intro c _
      rw [getIndex_succ N s 0 (by omega) (by omega), Except.ok_bind,
        getIndex_succ N (s + 1) 0 (by omega) (by omega), Except.ok_bind,
        show 1 + (N.take (s + 1)).sum + 0 - (1 + (N.take s).sum + 0) = N[s] by omega,
        mapM_ok (g := fun n => c.apply (sampleVars m n))]
      · simp only [Except.ok_bind, getD_lt hs, Nat.add_zero]
        rw [List.flatMap_def]
        rfl
      · intro n hn
        rw [List.mem_range'_1] at hn
        rw [sampleAt_eq _ (by omega)]
        rfl
  rw [mapM_ok inner]
  simp only [Except.ok_bind, pure, Except.pure, sgmtList, List.flatMap_def]

theorem var_div_mod {m n c : ℕ} (h : c < stride m) :
    (n * stride m + c) / stride m = n ∧ (n * stride m + c) % stride m = c := by
  have hp : 0 < stride m := by simp [stride]
  constructor
  · rw [Nat.mul_comm, Nat.mul_add_div hp, Nat.div_eq_of_lt h, Nat.add_zero]
  · rw [Nat.mul_comm, Nat.mul_add_mod, Nat.mod_eq_of_lt h]

theorem var_inj {m n c n' c' : ℕ} (h : c < stride m) (h' : c' < stride m) :
    n * stride m + c = n' * stride m + c' ↔ n = n' ∧ c = c' := by
  constructor
  · intro e
    have h1 := var_div_mod (n := n) h
    rw [e] at h1
    have h2 := var_div_mod (n := n') h'
    exact ⟨h1.1.symm.trans h2.1, h1.2.symm.trans h2.2⟩
  · rintro ⟨rfl, rfl⟩; rfl

/-- Guessed velocities: backward differences, zero at sample 0. -/
def guessDiff (f : ℕ → D) (dt : List D) : ℕ → D
  | 0 => Num.lit 0
  | n + 1 => (f (n + 1) - f n) / dt.getD (n + 1) (Num.lit 0)

/-- Guessed angular velocity. -/
def guessOmega (sol : SwerveSolution D) : ℕ → D
  | 0 => Num.lit 0
  | n + 1 => ((Rotation2.mk (sol.thetacos.getD (n + 1) (Num.lit 0))
      (sol.thetasin.getD (n + 1) (Num.lit 0))).rotateBy
      (Rotation2.mk (sol.thetacos.getD n (Num.lit 0)) (sol.thetasin.getD n (Num.lit 0))).neg).radians
      / sol.dt.getD (n + 1) (Num.lit 0)

/-- The value `ApplyInitialGuess` gives variable `c` of sample `n`. -/
def guessComp (sol : SwerveSolution D) (n : ℕ) : ℕ → D
  | 0 => sol.x.getD n (Num.lit 0)
  | 1 => sol.y.getD n (Num.lit 0)
  | 2 => sol.thetacos.getD n (Num.lit 0)
  | 3 => sol.thetasin.getD n (Num.lit 0)
  | 4 => guessDiff (fun n => sol.x.getD n (Num.lit 0)) sol.dt n
  | 5 => guessDiff (fun n => sol.y.getD n (Num.lit 0)) sol.dt n
  | 6 => guessOmega sol n
  | 7 => guessDiff (guessDiff (fun n => sol.x.getD n (Num.lit 0)) sol.dt) sol.dt n
  | 8 => guessDiff (guessDiff (fun n => sol.y.getD n (Num.lit 0)) sol.dt) sol.dt n
  | 9 => guessDiff (guessOmega sol) sol.dt n
  | _ => Num.lit 0

/-- Values after the positions of the first `k` and the motions of the first `j` samples. -/
def guessValues (m : ℕ) (sol : SwerveSolution D) (old : ℕ → D) (k j v : ℕ) : D :=
  if (v % stride m < 4 ∧ v / stride m < k) ∨
      (4 ≤ v % stride m ∧ v % stride m < 10 ∧ v / stride m < j) then
    guessComp sol (v / stride m) (v % stride m)
  else old v

theorem guessValues_at {m n c : ℕ} (h : c < stride m) (sol : SwerveSolution D) (old : ℕ → D)
    (k j : ℕ) : guessValues m sol old k j (n * stride m + c) =
      if (c < 4 ∧ n < k) ∨ (4 ≤ c ∧ c < 10 ∧ n < j) then guessComp sol n c
      else old (n * stride m + c) := by
  simp only [guessValues, var_div_mod h]

theorem vidx_map_range {α : Type} {S n : ℕ} (h : n < S) (f : ℕ → α) :
    vidx ((List.range S).map f) n = .ok (f n) := by
  rw [vidx_ok (by simpa using h)]; simp

theorem vidx_getD {l : List D} {n : ℕ} (h : n < l.length) :
    vidx l n = .ok (l.getD n (Num.lit 0)) := by
  rw [vidx_ok h, getD_lt h]

/-- A guess with one entry per sample in each column read. -/
structure GuessSized (sol : SwerveSolution D) (S : ℕ) : Prop where
  x : sol.x.length = S
  y : sol.y.length = S
  c : sol.thetacos.length = S
  s : sol.thetasin.length = S
  dt : sol.dt.length = S

theorem guessPosition_eq {m S k : ℕ} {sol : SwerveSolution D} (hs : GuessSized sol S) (hk : k < S)
    (dts : List ℕ) (p : Problem D) (old : ℕ → D) :
    guessPosition (closedVars m S dts) sol { p with values := guessValues m sol old k 0 } k =
      .ok { p with values := guessValues m sol old (k + 1) 0 } := by
  simp only [guessPosition, setAt, closedVars, vidx_map_range hk, vidx_getD (hs.x ▸ hk),
    vidx_getD (hs.y ▸ hk), vidx_getD (hs.c ▸ hk), vidx_getD (hs.s ▸ hk), Except.ok_bind, pure,
    Except.pure, Problem.setValue]
  congr 2
  funext v
  have hpos : 0 < stride m := by simp [stride]
  have hst : 10 ≤ stride m := by simp [stride]
  obtain ⟨n, c, rfl, hc⟩ : ∃ n c, v = n * stride m + c ∧ c < stride m :=
    ⟨v / stride m, v % stride m, (Nat.div_add_mod' v (stride m)).symm, Nat.mod_lt _ hpos⟩
  have e0 := var_inj (n := n) (n' := k) (c' := 0) hc (by omega)
  rw [Nat.add_zero] at e0
  simp only [e0, var_inj (n := n) (n' := k) (c' := 1) hc (by omega),
    var_inj (n := n) (n' := k) (c' := 2) hc (by omega),
    var_inj (n := n) (n' := k) (c' := 3) hc (by omega), guessValues_at hc]
  by_cases hn : n = k
  · subst hn
    by_cases hc4 : c < 4
    · interval_cases c <;> simp [guessComp]
    · have h0 : c ≠ 0 := by omega
      have h1 : c ≠ 1 := by omega
      have h2 : c ≠ 2 := by omega
      have h3 : c ≠ 3 := by omega
      simp [h0, h1, h2, h3, hc4]
  · simp only [hn, false_and, if_false]
    have : n < k + 1 ↔ n < k := by omega
    simp only [this]

theorem guessPositions_eq {m S : ℕ} {sol : SwerveSolution D} (hs : GuessSized sol S)
    (dts : List ℕ) (p : Problem D) (old : ℕ → D) (k : ℕ) (hk : k ≤ S) :
    (List.range k).foldlM (guessPosition (closedVars m S dts) sol)
      { p with values := guessValues m sol old 0 0 } =
      .ok { p with values := guessValues m sol old k 0 } := by
  induction k with
  | zero => rfl
  | succ k ih =>
    rw [List.range_succ, List.foldlM_append, ih (by omega), Except.ok_bind, List.foldlM_cons,
      guessPosition_eq hs (by omega), Except.ok_bind]
    rfl

theorem guessMotion_eq {m S k : ℕ} {sol : SwerveSolution D} (hs : GuessSized sol S) (hk : k + 1 < S)
    (dts : List ℕ) (p : Problem D) (old : ℕ → D) :
    guessMotion (closedVars m S dts) sol { p with values := guessValues m sol old S (k + 1) } (k + 1) =
      .ok { p with values := guessValues m sol old S (k + 2) } := by
  have hk' : k < S := by omega
  have hst : 10 ≤ stride m := by simp [stride]
  simp only [guessMotion, setAt, valueAt, closedVars, vidx_map_range hk, vidx_map_range hk',
    Nat.add_sub_cancel, vidx_getD (hs.x ▸ hk), vidx_getD (hs.x ▸ hk'),
    vidx_getD (hs.y ▸ hk), vidx_getD (hs.c ▸ hk), vidx_getD (hs.s ▸ hk), vidx_getD (hs.dt ▸ hk),
    vidx_getD (hs.y ▸ hk'), vidx_getD (hs.c ▸ hk'), vidx_getD (hs.s ▸ hk'),
    Except.ok_bind, pure, Except.pure, Problem.setValue]
  congr 2
  funext v
  have hpos : 0 < stride m := by omega
  obtain ⟨n, c, rfl, hc⟩ : ∃ n c, v = n * stride m + c ∧ c < stride m :=
    ⟨v / stride m, v % stride m, (Nat.div_add_mod' v (stride m)).symm, Nat.mod_lt _ hpos⟩
  simp only [var_inj hc (show 4 < stride m by omega), var_inj hc (show 5 < stride m by omega),
    var_inj hc (show 6 < stride m by omega), var_inj hc (show 7 < stride m by omega),
    var_inj hc (show 8 < stride m by omega), var_inj hc (show 9 < stride m by omega),
    var_inj (show 4 < stride m by omega) (show 4 < stride m by omega),
    var_inj (show 4 < stride m by omega) (show 5 < stride m by omega),
    var_inj (show 4 < stride m by omega) (show 6 < stride m by omega),
    var_inj (show 5 < stride m by omega) (show 4 < stride m by omega),
    var_inj (show 5 < stride m by omega) (show 5 < stride m by omega),
    var_inj (show 5 < stride m by omega) (show 6 < stride m by omega),
    var_inj (show 5 < stride m by omega) (show 7 < stride m by omega),
    var_inj (show 6 < stride m by omega) (show 4 < stride m by omega),
    var_inj (show 6 < stride m by omega) (show 5 < stride m by omega),
    var_inj (show 6 < stride m by omega) (show 6 < stride m by omega),
    var_inj (show 6 < stride m by omega) (show 7 < stride m by omega),
    var_inj (show 6 < stride m by omega) (show 8 < stride m by omega),
    guessValues_at hc, guessValues_at (show 4 < stride m by omega),
    guessValues_at (show 5 < stride m by omega), guessValues_at (show 6 < stride m by omega)]
  by_cases hn : n = k + 1
  · subst hn
    by_cases hc4 : c < 10
    · interval_cases c <;> simp [guessComp, guessDiff, guessOmega]
    · have h4 : c ≠ 4 := by omega
      have h5 : c ≠ 5 := by omega
      have h6 : c ≠ 6 := by omega
      have h7 : c ≠ 7 := by omega
      have h8 : c ≠ 8 := by omega
      have h9 : c ≠ 9 := by omega
      simp [h4, h5, h6, h7, h8, h9, hc4]
  · simp only [hn, false_and, if_false]
    have : n < k + 2 ↔ n < k + 1 := by omega
    simp only [this]

theorem guessMotions_eq {m S : ℕ} {sol : SwerveSolution D} (hs : GuessSized sol S)
    (dts : List ℕ) (p : Problem D) (old : ℕ → D) (k : ℕ) (hk : k + 1 ≤ S) :
    (List.range' 1 k).foldlM (guessMotion (closedVars m S dts) sol)
      { p with values := guessValues m sol old S 1 } =
      .ok { p with values := guessValues m sol old S (k + 1) } := by
  induction k with
  | zero => rfl
  | succ k ih =>
    rw [List.range'_1_concat, List.foldlM_append, ih (by omega), Except.ok_bind, List.foldlM_cons,
      Nat.add_comm 1 k, guessMotion_eq hs (by omega), Except.ok_bind]
    rfl

theorem applyInitialGuess_eq {m S : ℕ} {sol : SwerveSolution D} (hs : GuessSized sol S) (hS : 0 < S)
    (dts : List ℕ) (p : Problem D) :
    applyInitialGuess (closedVars m S dts) sol p =
      .ok { p with values := guessValues m sol p.values S S } := by
  have hlen : (closedVars m S dts).x.length = S := by simp [closedVars]
  have hst : 10 ≤ stride m := by simp [stride]
  have h0 : p = { p with values := guessValues m sol p.values 0 0 } := by
    cases p
    simp only [Problem.mk.injEq, true_and, and_true]
    funext v
    simp [guessValues]
  have h1 := guessPositions_eq (m := m) hs dts p p.values S (Nat.le_refl S)
  rw [← h0] at h1
  have h2 := guessMotions_eq (m := m) hs dts p p.values (S - 1) (by omega)
  rw [show S - 1 + 1 = S by omega] at h2
  rw [applyInitialGuess, hlen, h1, Except.ok_bind, ← h2]
  simp only [setAt, closedVars, vidx_map_range hS, Except.ok_bind, pure, Except.pure,
    Problem.setValue]
  congr 2
  funext v
  obtain ⟨n, c, rfl, hc⟩ : ∃ n c, v = n * stride m + c ∧ c < stride m :=
    ⟨v / stride m, v % stride m, (Nat.div_add_mod' v (stride m)).symm, Nat.mod_lt _ (by omega)⟩
  simp only [var_inj hc (show 4 < stride m by omega), var_inj hc (show 5 < stride m by omega),
    var_inj hc (show 6 < stride m by omega), var_inj hc (show 7 < stride m by omega),
    var_inj hc (show 8 < stride m by omega), var_inj hc (show 9 < stride m by omega),
    guessValues_at hc]
  by_cases hn : n = 0
  · subst hn
    by_cases hc4 : c < 10
    · interval_cases c <;> simp [guessComp, guessDiff, guessOmega]
    · have h4 : c ≠ 4 := by omega
      have h5 : c ≠ 5 := by omega
      have h6 : c ≠ 6 := by omega
      have h7 : c ≠ 7 := by omega
      have h8 : c ≠ 8 := by omega
      have h9 : c ≠ 9 := by omega
      simp [h4, h5, h6, h7, h8, h9, hc4]
  · simp [hn]

/-- The constraints of the whole problem, in order. -/
def allCons (path : SwervePath D) (dr : SwerveDrivetrain D) (N : List ℕ) : List (Con D) :=
  let m := dr.modules.length
  let dts := List.range' ((1 + N.sum) * stride m) N.length
  (dts.flatMap fun dt => dr.modules.map (stepCap (minWidth dr.modules) dt))
    ++ (dts.zip N).map (fun x => .ge (.var x.1) (Num.lit 0))
    ++ kinList m N dts
    ++ (List.range (1 + N.sum)).flatMap (dynCons dr)
    ++ wptList m path N
    ++ sgmtList m path N

/-- The generator built, in closed form. -/
def closedGenerator (path : SwervePath D) (dr : SwerveDrivetrain D) (N : List ℕ)
    (sol : SwerveSolution D) (handle : Int) : Generator D :=
  let m := dr.modules.length
  let dts := List.range' ((1 + N.sum) * stride m) N.length
  { path := path
    vars := closedVars m (1 + N.sum) dts
    N := N
    problem := {
      nvars := (1 + N.sum) * stride m + N.length
      values := guessValues m sol (dtValues (dts.zip N) fun _ => Num.lit 0) (1 + N.sum) (1 + N.sum)
      cons := allCons path dr N
      cost := some (totalTimeExpr (dts.zip N) (Num.lit 0)) }
    handle := handle }

theorem construct_eq {b : Builder D} {dr : SwerveDrivetrain D} {sol : SwerveSolution D} (handle : Int)
    (hd : b.path.drivetrain = some dr) (hN : 1 + b.controlIntervalCounts.sum < 2 ^ 64)
    (hw : b.controlIntervalCounts.length < b.path.waypoints.length)
    (hg : b.calculateInitialGuess = .ok sol)
    (hs : GuessSized sol (1 + b.controlIntervalCounts.sum)) :
    Generator.construct b handle =
      .ok (closedGenerator b.path dr b.controlIntervalCounts sol handle) := by
  have hm : b.path.modules = dr.modules := by simp [SwervePath.modules, hd]
  have hidx : getIndex b.controlIntervalCounts (1 + b.controlIntervalCounts.length) 0 =
      .ok (1 + b.controlIntervalCounts.sum) := by
    rw [Nat.add_comm, getIndex_succ _ _ _ (Nat.le_refl _) (by rw [List.take_length]; omega),
      List.take_length, Nat.add_zero]
  have hdyn : (List.range (1 + b.controlIntervalCounts.sum)).mapM (dynamicsAt b.path
      (closedVars dr.modules.length (1 + b.controlIntervalCounts.sum)
        (List.range' ((1 + b.controlIntervalCounts.sum) * stride dr.modules.length)
          b.controlIntervalCounts.length))) =
      .ok ((List.range (1 + b.controlIntervalCounts.sum)).map (dynCons dr)) := by
    apply mapM_ok
    intro n hn
    exact dynamicsAt_eq hd _ (List.mem_range.mp hn)
  simp only [Generator.construct, hg, Except.ok_bind, hidx, hm, allocSamples_eq, allocDts_eq,
    totalTime_eq, List.nil_append]
  rw [show ∀ dts, ({ closedVars dr.modules.length (1 + b.controlIntervalCounts.sum) [] with
    dt := dts } : Vars) = closedVars dr.modules.length (1 + b.controlIntervalCounts.sum) dts from
    fun _ => rfl, kinematics_eq _ _ _ hN (by simp), Except.ok_bind, hdyn, Except.ok_bind,
    waypointCons_eq _ _ _ _ hN hw, Except.ok_bind, segmentCons_eq _ _ _ _ hN hw, Except.ok_bind,
    applyInitialGuess_eq hs (by omega), Except.ok_bind]
  simp only [pure, Except.pure, closedGenerator, Problem.subjectTo, Problem.minimize, zeroProblem,
    allCons, List.flatMap_def]

end

end Trajopt
