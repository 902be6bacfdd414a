import Verif.Props.Throttle
import Verif.Spec.Energy

/-!
# C89 Momentum and energy (real arithmetic)
-/

set_option autoImplicit false

namespace Trajopt.Props

open Spec Builder

/-- C89: the wheels' forces, summed over time, are the change of momentum; their torques that of angular
momentum. -/
theorem C89_momentum (b : Builder ℝ) (dr : SwerveDrivetrain ℝ) (T : Traj) (h : Solves b dr T)
    (i j : ℕ) (hij : i ≤ j) (hj : j < sampleCount (table b).counts) :
    dr.mass * ((T.state j).vel - (T.state i).vel) =
      ∑ n ∈ Finset.Ioc i j, stepTime (table b).counts T n *
        ∑ k : Fin dr.modules.length, T.force n k ∧
    dr.moi * ((T.state j).omega - (T.state i).omega) =
      ∑ n ∈ Finset.Ioc i j, stepTime (table b).counts T n *
        ∑ k : Fin dr.modules.length, torque (lever (T.state n) dr.modules[k]) (T.force n k) := by
  obtain ⟨-, h2, h3⟩ := C32_integration b dr T h i j hij hj
  rw [h2, h3, Finset.mul_sum, Finset.mul_sum]
  constructor
  · refine Finset.sum_congr rfl fun n hn => ?_
    rw [Finset.mem_Ioc] at hn
    rw [(h.obeys.dynamics n (by omega)).force]
    ring
  · refine Finset.sum_congr rfl fun n hn => ?_
    rw [Finset.mem_Ioc] at hn
    rw [(h.obeys.dynamics n (by omega)).torque]
    ring

/-- The power of the forces is what accelerates and turns the robot. -/
theorem power_eq {dr : SwerveDrivetrain ℝ} {s : State} {F : ℕ → ℂ} (h : Dynamics dr s F) :
    power dr s F = dr.mass * ((starRingEnd ℂ) s.acc * s.vel).re + dr.moi * s.alpha * s.omega := by
  have h1 : power dr s F = ((starRingEnd ℂ) (∑ j : Fin dr.modules.length, F j) * s.vel).re +
      (∑ j : Fin dr.modules.length, torque (lever s dr.modules[j]) (F j)) * s.omega := by
    rw [power, map_sum, Finset.sum_mul, Complex.re_sum, Finset.sum_mul, ← Finset.sum_add_distrib]
    refine Finset.sum_congr rfl fun j _ => ?_
    simp only [mountVelocity, torque, Complex.mul_re, Complex.mul_im, Complex.add_re, Complex.add_im,
      Complex.conj_re, Complex.conj_im, Complex.I_re, Complex.I_im, Complex.ofReal_re,
      Complex.ofReal_im]
    ring
  rw [h1, h.force, h.torque]
  simp only [map_mul, Complex.conj_ofReal, Complex.mul_re, Complex.mul_im, Complex.ofReal_re,
    Complex.ofReal_im]
  ring

/-- C89: in each control interval the wheels' work is the gain in kinetic energy plus what the
discretisation (implicit Euler) loses. -/
theorem C89_balance (b : Builder ℝ) (dr : SwerveDrivetrain ℝ) (T : Traj) (h : Solves b dr T)
    (n : ℕ) (hn : n + 1 < sampleCount (table b).counts) :
    stepTime (table b).counts T (n + 1) * power dr (T.state (n + 1)) (T.force (n + 1)) =
      kinetic dr (T.state (n + 1)) - kinetic dr (T.state n) +
      (dr.mass * ‖(T.state (n + 1)).vel - (T.state n).vel‖ ^ 2 / 2 +
        dr.moi * ((T.state (n + 1)).omega - (T.state n).omega) ^ 2 / 2) := by
  have hI := h.interval (n := n + 1) (by omega) hn
  rw [Nat.add_sub_cancel] at hI
  have ha : (T.state n).vel = (T.state (n + 1)).vel -
      stepTime (table b).counts T (n + 1) * (T.state (n + 1)).acc := by rw [hI.vel]; ring
  have ho : (T.state n).omega = (T.state (n + 1)).omega -
      stepTime (table b).counts T (n + 1) * (T.state (n + 1)).alpha := by rw [hI.omega]; ring
  rw [power_eq (h.obeys.dynamics _ hn), kinetic, kinetic, ha, ho]
  simp only [← Complex.normSq_eq_norm_sq, Complex.normSq_apply, Complex.sub_re, Complex.sub_im, Complex.mul_re,
    Complex.mul_im, Complex.ofReal_re, Complex.ofReal_im, Complex.conj_re, Complex.conj_im]
  ring

/-- C89: the robot gains no more kinetic energy than its wheels' work. -/
theorem C89_work (b : Builder ℝ) (dr : SwerveDrivetrain ℝ) (T : Traj) (h : Solves b dr T)
    (hmass : 0 ≤ dr.mass) (hmoi : 0 ≤ dr.moi)
    (i j : ℕ) (hij : i ≤ j) (hj : j < sampleCount (table b).counts) :
    kinetic dr (T.state j) - kinetic dr (T.state i) ≤
      ∑ n ∈ Finset.Ioc i j, stepTime (table b).counts T n * power dr (T.state n) (T.force n) := by
  induction j, hij using Nat.le_induction with
  | base => simp
  | succ j hij ih =>
    have h1 := ih (by omega)
    have h2 := C89_balance b dr T h j hj
    have h3 : 0 ≤ dr.mass * ‖(T.state (j + 1)).vel - (T.state j).vel‖ ^ 2 / 2 +
        dr.moi * ((T.state (j + 1)).omega - (T.state j).omega) ^ 2 / 2 := by positivity
    rw [Finset.sum_Ioc_succ_top (by omega)]
    linarith

/-- C89: with unit headings the power is bounded by the wheels' forces times their speeds, so that
gaining energy takes time. -/
theorem C89_limit (b : Builder ℝ) (dr : SwerveDrivetrain ℝ) (T : Traj) (h : Solves b dr T)
    (hmass : 0 ≤ dr.mass) (hmoi : 0 ≤ dr.moi)
    (hu : ∀ n < sampleCount (table b).counts, ‖(T.state n).heading‖ = 1)
    (P : ℝ) (hP : (dr.modules.map fun m =>
      |m.wheelMaxTorque / m.wheelRadius| * |m.wheelRadius * m.wheelMaxAngularVelocity|).sum ≤ P) :
    (∀ n < sampleCount (table b).counts, |power dr (T.state n) (T.force n)| ≤ P) ∧
    ∀ i j, i ≤ j → j < sampleCount (table b).counts →
      kinetic dr (T.state j) - kinetic dr (T.state i) ≤ P * duration (table b).counts T i j := by
  have key : ∀ n < sampleCount (table b).counts, |power dr (T.state n) (T.force n)| ≤ P := by
    intro n hn
    have hd := h.obeys.dynamics n hn
    refine le_trans ?_ hP
    rw [← Fin.sum_univ_fun_getElem]
    refine (Finset.abs_sum_le_sum_abs _ _).trans (Finset.sum_le_sum fun j _ => ?_)
    refine (Complex.abs_re_le_norm _).trans ?_
    rw [norm_mul, Complex.norm_conj]
    have e : ‖mountVelocity (T.state n) dr.modules[j]‖ = ‖wheelVelocity (T.state n) dr.modules[j]‖ := by
      have hc : (starRingEnd ℂ) (T.state n).heading * (T.state n).heading = 1 := by
        rw [mul_comm, Complex.mul_conj, Complex.normSq_eq_norm_sq, hu n hn]; simp
      have : mountVelocity (T.state n) dr.modules[j] =
          (T.state n).heading * wheelVelocity (T.state n) dr.modules[j] := by
        rw [mountVelocity, wheelVelocity, lever]
        linear_combination -(T.state n).vel * hc
      rw [this, norm_mul, hu n hn, one_mul]
    rw [e]
    exact mul_le_mul (hd.limit j) (hd.speed _ (List.getElem_mem _)) (norm_nonneg _) (abs_nonneg _)
  refine ⟨key, fun i j hij hj => (C89_work b dr T h hmass hmoi i j hij hj).trans ?_⟩
  rw [duration, Finset.mul_sum]
  refine Finset.sum_le_sum fun n hn => ?_
  rw [Finset.mem_Ioc] at hn
  rw [mul_comm]
  exact mul_le_mul_of_nonneg_right ((le_abs_self _).trans (key n (by omega))) (h.stepTime_nonneg n)

/-- The robot of the examples has 560 W; the first example's drives obey that. -/
example : ∃ T, Solves (run true (Examples.cpp1 (D := ℝ)) Builder.new) shippedRobot T ∧ ∀ n ≤ 40,
    kinetic shippedRobot (T.state n) - kinetic shippedRobot (T.state 0) ≤
      560 * duration (table (run true (Examples.cpp1 (D := ℝ)) Builder.new)).counts T 0 n := by
  obtain ⟨T, hT⟩ := (shipped1 true).2
  obtain ⟨e, -⟩ : table (run true (Examples.cpp1 (D := ℝ)) Builder.new) = PathTable.empty.afterAll Examples.cpp1 ∧
      Ready (run true (Examples.cpp1 (D := ℝ)) Builder.new) shippedRobot := by
    refine ready_of ?_ _ rfl ?_ ?_ ?_ <;>
    simp [Examples.cpp1, PathTable.AcceptsAll, PathTable.Accepts, PathTable.afterAll, PathTable.after,
      PathTable.empty, PathTable.reach, PathTable.requireAt, PathTable.guessAt, examples_robot, sampleCount]
  have hc : (table (run true (Examples.cpp1 (D := ℝ)) Builder.new)).counts = [40] ∧
      (table (run true (Examples.cpp1 (D := ℝ)) Builder.new)).instant 0 =
        [.poseEquality 0 0 0, .linearVelocityMaxMagnitude 0] := by
    rw [e]
    simp [Examples.cpp1, PathTable.afterAll, PathTable.after, Examples.noSpeed,
      PathTable.empty, PathTable.reach, PathTable.requireAt, PathTable.guessAt]
  refine ⟨T, hT.solves, fun n hn => ?_⟩
  refine (C89_limit _ shippedRobot T hT.solves (by norm_num [shippedRobot]) (by norm_num [shippedRobot])
    (C33_pose_partial _ _ T hT.solves 0 (by simp) 0 0 0 (by rw [hc.2]; simp)) 560 ?_).2 0 n (by omega)
    (by rw [hc.1]; simp [sampleCount]; omega)
  simp only [shippedRobot, List.map_cons, List.map_nil, List.sum_cons, List.sum_nil]
  norm_num

end Trajopt.Props
