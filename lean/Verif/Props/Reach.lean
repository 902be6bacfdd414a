import Verif.Props.Physics

/-!
# C65–C68 How fast and how far a feasible trajectory can go (real arithmetic)
-/

set_option autoImplicit false

namespace Trajopt.Props

open Spec Builder

/-! ### C65 Robot speeds -/

/-- The modules' positions average to the robot's origin. -/
def Centred (dr : SwerveDrivetrain ℝ) : Prop := (dr.modules.map fun m => vec m.translation).sum = 0

theorem sum_norm_le {α : Type} (l : List α) (f : α → ℂ) (g : α → ℝ) (h : ∀ a ∈ l, ‖f a‖ ≤ g a) :
    ‖(l.map f).sum‖ ≤ (l.map g).sum := by
  induction l with
  | nil => simp
  | cons a l ih =>
    simp only [List.map_cons, List.sum_cons]
    exact (norm_add_le _ _).trans (add_le_add (h a (by simp)) (ih fun b hb => h b (by simp [hb])))

theorem sum_wheelVelocity (s : State) (l : List (SwerveModule ℝ)) :
    (l.map (wheelVelocity s)).sum = l.length * ((starRingEnd ℂ) s.heading * s.vel) +
      Complex.I * s.omega * (l.map fun m => vec m.translation).sum := by
  induction l with
  | nil => simp
  | cons a l ih =>
    simp only [List.map_cons, List.sum_cons, ih, List.length_cons, wheelVelocity]
    push_cast
    ring

theorem sum_wheelVelocity_lever (s : State) (l : List (SwerveModule ℝ)) :
    (l.map fun m => (starRingEnd ℂ) (vec m.translation) * wheelVelocity s m).sum =
      (starRingEnd ℂ) (l.map fun m => vec m.translation).sum * ((starRingEnd ℂ) s.heading * s.vel) +
      Complex.I * s.omega * ((l.map fun m => ‖vec m.translation‖ ^ 2).sum : ℝ) := by
  induction l with
  | nil => simp
  | cons a l ih =>
    have : (starRingEnd ℂ) (vec a.translation) * vec a.translation =
        ((‖vec a.translation‖ ^ 2 : ℝ) : ℂ) := by
      rw [mul_comm, Complex.mul_conj, Complex.normSq_eq_norm_sq]
    simp only [List.map_cons, List.sum_cons, ih, map_add, Complex.ofReal_add]
    rw [wheelVelocity]
    linear_combination Complex.I * s.omega * this

/-- C65: the robot is no faster than its wheels on average, and turns no faster than its wheels can
turn it. -/
theorem C65_speeds (b : Builder ℝ) (dr : SwerveDrivetrain ℝ) (T : Traj) (h : Solves b dr T)
    (hcentre : Centred dr) (n : ℕ) (hn : n < sampleCount (table b).counts)
    (hu : ‖(T.state n).heading‖ = 1) :
    dr.modules.length * ‖(T.state n).vel‖ ≤
      (dr.modules.map fun m => |m.wheelRadius * m.wheelMaxAngularVelocity|).sum ∧
    (dr.modules.map fun m => ‖vec m.translation‖ ^ 2).sum * |(T.state n).omega| ≤
      (dr.modules.map fun m =>
        ‖vec m.translation‖ * |m.wheelRadius * m.wheelMaxAngularVelocity|).sum := by
  have hspeed := (h.obeys.dynamics n hn).speed
  constructor
  · have h1 := sum_norm_le dr.modules _ _ hspeed
    rw [sum_wheelVelocity, show (dr.modules.map fun m => vec m.translation).sum = 0 from hcentre,
      mul_zero, add_zero, norm_mul, norm_mul, Complex.norm_conj, hu, one_mul,
      Complex.norm_natCast] at h1
    exact h1
  · have h1 := sum_norm_le dr.modules
      (fun m => (starRingEnd ℂ) (vec m.translation) * wheelVelocity (T.state n) m)
      (fun m => ‖vec m.translation‖ * |m.wheelRadius * m.wheelMaxAngularVelocity|) (by
        intro m hm
        rw [norm_mul, Complex.norm_conj]
        exact mul_le_mul_of_nonneg_left (hspeed m hm) (norm_nonneg _))
    have h0 : 0 ≤ (dr.modules.map fun m => ‖vec m.translation‖ ^ 2).sum := by
      apply List.sum_nonneg
      intro x hx
      obtain ⟨m, -, rfl⟩ := List.mem_map.mp hx
      positivity
    rw [sum_wheelVelocity_lever,
      show (dr.modules.map fun m => vec m.translation).sum = 0 from hcentre,
      map_zero, zero_mul, zero_add, norm_mul, norm_mul, Complex.norm_I, one_mul,
      Complex.norm_real, Complex.norm_real, Real.norm_eq_abs, Real.norm_of_nonneg h0] at h1
    linarith

/-! ### C66 Durations -/

/-- Time from sample `i` to sample `j`. -/
noncomputable def duration (N : List ℕ) (T : Traj) (i j : ℕ) : ℝ :=
  ∑ n ∈ Finset.Ioc i j, stepTime N T n

theorem Solves.stepTime_nonneg {b : Builder ℝ} {dr : SwerveDrivetrain ℝ} {T : Traj}
    (h : Solves b dr T) (n : ℕ) : 0 ≤ stepTime (table b).counts T n := by
  apply Finset.sum_nonneg
  intro s hs
  split
  · exact h.obeys.time s (Finset.mem_range.mp hs)
  · exact le_refl _

theorem Solves.duration_nonneg {b : Builder ℝ} {dr : SwerveDrivetrain ℝ} {T : Traj}
    (h : Solves b dr T) (i j : ℕ) : 0 ≤ duration (table b).counts T i j :=
  Finset.sum_nonneg fun n _ => h.stepTime_nonneg n

/-- C66: the time from the first to the last sample is the minimised quantity (C42). -/
theorem C66_total (N : List ℕ) (T : Traj) :
    duration N T 0 (sampleCount N - 1) = ∑ s : Fin N.length, (N[s] : ℝ) * T.dt s := by
  rw [duration, show sampleCount N - 1 = N.sum by simp [sampleCount]]
  simp only [stepTime]
  rw [Finset.sum_comm, Finset.sum_range]
  refine Finset.sum_congr rfl fun s _ => ?_
  rw [← Finset.sum_filter, Finset.sum_const, nsmul_eq_mul]
  congr 2
  have hs := sum_take_succ N s.2
  have hle := sum_take_le N (s + 1)
  have : (Finset.Ioc 0 N.sum).filter (fun n => n ∈ segmentSamples N s) = segmentSamples N s := by
    ext n
    simp only [Finset.mem_filter, segmentSamples, waypointSample, Finset.mem_Ioc]
    omega
  rw [this, segmentSamples, Nat.card_Ioc, waypointSample, waypointSample, hs, Nat.add_sub_cancel_left]
  rfl

/-- C66: between any two samples the robot gets no further than its fastest wheel could roll in
that time. -/
theorem C66_distance (b : Builder ℝ) (dr : SwerveDrivetrain ℝ) (T : Traj) (h : Solves b dr T)
    (hcentre : Centred dr) (hm : dr.modules ≠ [])
    (hu : ∀ n < sampleCount (table b).counts, ‖(T.state n).heading‖ = 1)
    (V : ℝ) (hV : ∀ m ∈ dr.modules, |m.wheelRadius * m.wheelMaxAngularVelocity| ≤ V)
    (i j : ℕ) (hij : i ≤ j) (hj : j < sampleCount (table b).counts) :
    ‖(T.state j).pos - (T.state i).pos‖ ≤ V * duration (table b).counts T i j := by
  rw [(C32_integration b dr T h i j hij hj).1, duration, Finset.mul_sum]
  refine (norm_sum_le _ _).trans (Finset.sum_le_sum fun n hn => ?_)
  rw [Finset.mem_Ioc] at hn
  have hlen : 0 < (dr.modules.length : ℝ) := by
    exact_mod_cast List.length_pos_iff.mpr hm
  have h1 := (C65_speeds b dr T h hcentre n (by omega) (hu n (by omega))).1
  have h2 : (dr.modules.map fun m => |m.wheelRadius * m.wheelMaxAngularVelocity|).sum ≤
      dr.modules.length * V := by
    have := List.sum_le_card_nsmul
      (dr.modules.map fun m => |m.wheelRadius * m.wheelMaxAngularVelocity|) V (by
        intro x hx
        obtain ⟨m, hm, rfl⟩ := List.mem_map.mp hx
        exact hV m hm)
    rwa [nsmul_eq_mul, List.length_map] at this
  have h3 : ‖(T.state n).vel‖ ≤ V := le_of_mul_le_mul_left (h1.trans h2) hlen
  rw [norm_mul, Complex.norm_real, Real.norm_of_nonneg (h.stepTime_nonneg n), mul_comm]
  exact mul_le_mul_of_nonneg_right h3 (h.stepTime_nonneg n)

/-- C66: between any two samples the velocity changes no more than the wheels' forces can change
it in that time; and from standstill the robot gets no further than that acceleration takes it.
(In continuous time half the distance would be the limit; implicit Euler allows up to twice that.) -/
theorem C66_acceleration (b : Builder ℝ) (dr : SwerveDrivetrain ℝ) (T : Traj) (h : Solves b dr T)
    (hmass : 0 < dr.mass) (A : ℝ)
    (hA : (dr.modules.map fun m => |m.wheelMaxTorque / m.wheelRadius|).sum / dr.mass ≤ A)
    (i j : ℕ) (hij : i ≤ j) (hj : j < sampleCount (table b).counts) :
    ‖(T.state j).vel - (T.state i).vel‖ ≤ A * duration (table b).counts T i j ∧
    ((T.state i).vel = 0 →
      ‖(T.state j).pos - (T.state i).pos‖ ≤ A * duration (table b).counts T i j ^ 2) := by
  have hvel : ∀ n, i ≤ n → n ≤ j →
      ‖(T.state n).vel - (T.state i).vel‖ ≤ A * duration (table b).counts T i n := by
    intro n hin hnj
    rw [(C32_integration b dr T h i n hin (by omega)).2.1, duration, Finset.mul_sum]
    refine (norm_sum_le _ _).trans (Finset.sum_le_sum fun k hk => ?_)
    rw [Finset.mem_Ioc] at hk
    have h3 := ((C36_acceleration b dr T h k (by omega)).1 hmass).trans hA
    rw [norm_mul, Complex.norm_real, Real.norm_of_nonneg (h.stepTime_nonneg k), mul_comm]
    exact mul_le_mul_of_nonneg_right h3 (h.stepTime_nonneg k)
  have hA0 : 0 ≤ A := (norm_nonneg _).trans
    (((C36_acceleration b dr T h j hj).1 hmass).trans hA)
  refine ⟨hvel j hij (le_refl _), fun h0 => ?_⟩
  rw [(C32_integration b dr T h i j hij hj).1, sq, ← mul_assoc]
  simp only [duration]
  rw [Finset.mul_sum]
  refine (norm_sum_le _ _).trans (Finset.sum_le_sum fun n hn => ?_)
  rw [Finset.mem_Ioc] at hn
  have h1 := hvel n (by omega) hn.2
  rw [h0, sub_zero] at h1
  have h2 : duration (table b).counts T i n ≤ ∑ n ∈ Finset.Ioc i j, stepTime (table b).counts T n := by
    rw [duration]
    refine Finset.sum_le_sum_of_subset_of_nonneg ?_ fun k _ _ => h.stepTime_nonneg k
    intro k hk
    rw [Finset.mem_Ioc] at hk ⊢
    omega
  rw [norm_mul, Complex.norm_real, Real.norm_of_nonneg (h.stepTime_nonneg n), mul_comm]
  exact mul_le_mul_of_nonneg_right (h1.trans (mul_le_mul_of_nonneg_left h2 hA0))
    (h.stepTime_nonneg n)

theorem unitVec_add (a c : ℝ) : unitVec (a + c) = unitVec a * unitVec c := by
  simp only [unitVec]
  rw [← Complex.exp_add]
  congr 1
  push_cast
  ring

/-- C66: up to half turns (C34), the robot turns between any two samples by an angle that its
wheels can turn it by in that time. -/
theorem C66_turn (b : Builder ℝ) (dr : SwerveDrivetrain ℝ) (T : Traj) (h : Solves b dr T)
    (hcentre : Centred dr)
    (hu : ∀ n < sampleCount (table b).counts, ‖(T.state n).heading‖ = 1)
    (W : ℝ) (hW : (dr.modules.map fun m =>
        ‖vec m.translation‖ * |m.wheelRadius * m.wheelMaxAngularVelocity|).sum ≤
      (dr.modules.map fun m => ‖vec m.translation‖ ^ 2).sum * W)
    (hpos : 0 < (dr.modules.map fun m => ‖vec m.translation‖ ^ 2).sum)
    (i j : ℕ) (hij : i ≤ j) (hj : j < sampleCount (table b).counts) :
    ∃ φ : ℝ, |φ| ≤ W * duration (table b).counts T i j ∧
      ((T.state j).heading = (T.state i).heading * unitVec φ ∨
        (T.state j).heading = -((T.state i).heading * unitVec φ)) := by
  induction j, hij using Nat.le_induction with
  | base => exact ⟨0, by simp [duration], .inl (by simp [unitVec])⟩
  | succ j hij ih =>
    obtain ⟨φ, hφ, hh⟩ := ih (by omega)
    have hw : |(T.state (j + 1)).omega| ≤ W := by
      have := (C65_speeds b dr T h hcentre (j + 1) hj (hu _ hj)).2
      exact le_of_mul_le_mul_left (this.trans hW) hpos
    refine ⟨φ + (T.state (j + 1)).omega * stepTime (table b).counts T (j + 1), ?_, ?_⟩
    · rw [duration, Finset.sum_Ioc_succ_top (by omega), mul_add]
      refine (abs_add_le _ _).trans (add_le_add hφ ?_)
      rw [abs_mul, abs_of_nonneg (h.stepTime_nonneg _)]
      exact mul_le_mul_of_nonneg_right hw (h.stepTime_nonneg _)
    · rw [unitVec_add]
      rcases C34_partial b dr T h j hj (hu j (by omega)) with e | e <;> rcases hh with e' | e' <;>
        rw [e, e']
      · left; ring
      · right; ring
      · right; ring
      · left; ring

/-- No trajectory of the demonstration path, one metre at 2 m/s, takes less than half a second; one
takes a second. -/
example : (∃ T, Solves demoBuilder demoRobot T ∧ duration (table demoBuilder).counts T 0 1 = 1) ∧
    ∀ T, Solves demoBuilder demoRobot T → 1 / 2 ≤ duration (table demoBuilder).counts T 0 1 := by
  obtain ⟨-, h2, -, h4, h5, -⟩ := demo_table
  constructor
  · refine ⟨_, demo_solves_flip 1 (.inl rfl), ?_⟩
    have := C66_total (table demoBuilder).counts (driveTraj 1 1)
    rw [h2] at this ⊢
    simpa [driveTraj, sampleCount] using this
  · intro T h
    have hd := C66_distance demoBuilder demoRobot T h
      (by simp [Centred, demoRobot, vec, Complex.ext_iff]) (by simp [demoRobot])
      (fun n hn => C33_pose_partial demoBuilder demoRobot T h 0 (by rw [h2]; simp) 0 0 0
        (by rw [h4]; simp) n hn) 2 (by
        intro m hm
        simp only [demoRobot, List.mem_cons, List.not_mem_nil, or_false] at hm
        rcases hm with rfl | rfl | rfl | rfl <;> norm_num) 0 1 (by norm_num)
      (by rw [h2]; simp [sampleCount])
    have e0 := (h.obeys.instant 0 (by rw [h2]; simp) (.poseEquality 0 0 0) (by rw [h4]; simp)).1
    have e1 := (h.obeys.instant 1 (by rw [h2]; simp) (.poseEquality 1 0 0) (by rw [h5]; simp)).1
    rw [show waypointSample (table demoBuilder).counts 0 = 0 from rfl] at e0
    rw [show waypointSample (table demoBuilder).counts 1 = 1 by rw [h2]; rfl] at e1
    rw [e0, e1] at hd
    have : ‖vec (⟨1, 0⟩ : Translation2 ℝ) - vec ⟨0, 0⟩‖ = 1 := by
      rw [Complex.norm_eq_sqrt_sq_add_sq]; simp [vec]
    rw [this] at hd
    linarith

/-! ### C67 What can be reached -/

/-- C67: positions further apart than the number of control intervals in between times any gap
between neighbouring modules make a path infeasible. -/
theorem C67_unreachable (b : Builder ℝ) (dr : SwerveDrivetrain ℝ) (T : Traj) (h : Solves b dr T)
    (hcentre : Centred dr)
    (hpos : ∀ m ∈ dr.modules, 0 ≤ m.wheelRadius * m.wheelMaxAngularVelocity)
    (hu : ∀ n < sampleCount (table b).counts, ‖(T.state n).heading‖ = 1)
    (g : ℝ) (hg : Gap dr g) (i j : ℕ) (hij : i ≤ j) (hj : j < sampleCount (table b).counts) :
    ‖(T.state j).pos - (T.state i).pos‖ ≤ (j - i : ℕ) * g := by
  obtain ⟨hg0, a, c, hac, hgap⟩ := hg
  obtain ⟨k, hk, hkeq⟩ := List.mem_iff_getElem.mp hac
  simp only [List.length_zip, List.length_tail] at hk
  simp only [List.getElem_zip, List.getElem_tail, Prod.mk.injEq] at hkeq
  induction j, hij using Nat.le_induction with
  | base => simp
  | succ j hij ih =>
    have h1 := ih (by omega)
    have h2 := C38_step b dr T h j hj (hu _ hj) hcentre hpos k (by omega) g hg0
      (by rw [hkeq.1, hkeq.2]; exact hgap)
    have h3 : (T.state (j + 1)).pos - (T.state i).pos =
        ((T.state (j + 1)).pos - (T.state j).pos) + ((T.state j).pos - (T.state i).pos) := by ring
    rw [h3, Nat.succ_sub hij]
    refine (norm_add_le _ _).trans ?_
    push_cast
    linarith

/-- The constraint fixes the position. -/
def Fixes (c : Constraint ℝ) (p : Translation2 ℝ) : Prop :=
  c = .translationEquality p ∨ ∃ θ, c = .poseEquality p.x p.y θ

/-- C67: a path that fixes two positions too far apart, and a heading anywhere, has no feasible
trajectory. -/
theorem C67_infeasible (b : Builder ℝ) (dr : SwerveDrivetrain ℝ)
    (hcentre : Centred dr)
    (hpos : ∀ m ∈ dr.modules, 0 ≤ m.wheelRadius * m.wheelMaxAngularVelocity)
    (g : ℝ) (hg : Gap dr g) (w w' : ℕ) (hw : w ≤ w') (hw' : w' ≤ (table b).counts.length)
    (p p' : Translation2 ℝ) (hp : ∃ c ∈ (table b).instant w, Fixes c p)
    (hp' : ∃ c ∈ (table b).instant w', Fixes c p')
    (hpose : ∃ v ≤ (table b).counts.length, ∃ x y θ, .poseEquality x y θ ∈ (table b).instant v)
    (hfar : (waypointSample (table b).counts w' - waypointSample (table b).counts w : ℕ) * g <
      dist (vec p) (vec p')) :
    ¬ ∃ T, Solves b dr T := by
  rintro ⟨T, h⟩
  obtain ⟨v, hv, x, y, θ, hc⟩ := hpose
  have hfix : ∀ u ≤ (table b).counts.length, ∀ q, (∃ c ∈ (table b).instant u, Fixes c q) →
      (T.state (waypointSample (table b).counts u)).pos = vec q := by
    rintro u hu q ⟨c, hc, rfl | ⟨θ, rfl⟩⟩
    · exact h.obeys.instant u hu _ hc
    · exact (h.obeys.instant u hu _ hc).1
  have hle : waypointSample (table b).counts w ≤ waypointSample (table b).counts w' :=
    sum_take_mono _ hw
  have hlt : waypointSample (table b).counts w' < sampleCount (table b).counts := by
    have := sum_take_le (table b).counts w'
    simp only [waypointSample, sampleCount]; omega
  have := C67_unreachable b dr T h hcentre hpos
    (fun n hn => C33_pose_partial b dr T h v hv x y θ hc n hn) g hg _ _ hle hlt
  rw [hfix w (by omega) p hp, hfix w' hw' p' hp', ← dist_eq_norm, dist_comm] at this
  linarith

/-- Drive from one pose to another, with `N` control intervals. -/
noncomputable def straightOps (dr : SwerveDrivetrain ℝ) (N : ℕ) (x₀ y₀ x₁ y₁ θ : ℝ) :
    List (Op ℝ) :=
  [.setDrivetrain dr, .poseWpt 0 x₀ y₀ θ, .poseWpt 1 x₁ y₁ θ, .controlIntervalCounts [N]]

theorem straight_table (dr : SwerveDrivetrain ℝ) (N : ℕ) (x₀ y₀ x₁ y₁ θ : ℝ) :
    let t := table (run true (straightOps dr N x₀ y₀ x₁ y₁ θ) Builder.new)
    t.waypoints = 2 ∧ t.counts = [N] ∧ t.drivetrain = some dr ∧
    t.instant 0 = [.poseEquality x₀ y₀ θ] ∧ t.instant 1 = [.poseEquality x₁ y₁ θ] ∧
    t.continuous 0 = [] := by
  have r0 := run_snoc (b := (Builder.new : Builder ℝ)) (asserts := true) (ops := []) rfl
    (op := .setDrivetrain dr) rfl
  generalize ht0 : Builder.setDrivetrain dr (Builder.new : Builder ℝ) = b0 at r0
  obtain ⟨b1, e1, t1⟩ := C12_pose_wpt b0 ⟨_, _, r0⟩ 0 (by norm_num) x₀ y₀ θ
  have r1 := run_snoc r0 (op := .poseWpt 0 x₀ y₀ θ) e1
  obtain ⟨b2, e2, t2⟩ := C12_pose_wpt b1 ⟨_, _, r1⟩ 1 (by norm_num) x₁ y₁ θ
  have r2 := run_snoc r1 (op := .poseWpt 1 x₁ y₁ θ) e2
  have r3 := run_snoc r2 (op := .controlIntervalCounts [N]) rfl
  have hb : run true (straightOps dr N x₀ y₀ x₁ y₁ θ) Builder.new =
      b2.setControlIntervalCounts [N] := r3.symm
  have t3 : table (b2.setControlIntervalCounts [N]) = { table b2 with counts := [N] } := rfl
  rw [hb, t3, t2, t1, ← ht0]
  simp only [PathTable.reach, PathTable.guessAt,
    PathTable.requireAt, table, Builder.setDrivetrain, Builder.new]
  simp

/-- Drive straight ahead at constant velocity. -/
noncomputable def straightTraj (p d : ℂ) (θ dt : ℝ) (N : ℕ) : Traj where
  state n := ⟨p + n * (d / N), unitVec θ, d / (N * dt), 0, 0, 0⟩
  force _ _ := 0
  dt _ := dt

/-- C67: with wheels of equal top speed, centred, the straight path from pose to pose can be driven
exactly if it is no longer than the number of control intervals times the least gap. -/
theorem C67_reach (dr : SwerveDrivetrain ℝ) (hcentre : Centred dr)
    (hradius : ∀ m ∈ dr.modules, m.wheelRadius ≠ 0)
    (V : ℝ) (hV0 : 0 < V) (hV : ∀ m ∈ dr.modules, m.wheelRadius * m.wheelMaxAngularVelocity = V)
    (N : ℕ) (hN0 : 0 < N) (hN : N + 1 < 2 ^ 64) (x₀ y₀ x₁ y₁ θ : ℝ) :
    (∃ T, Solves (run true (straightOps dr N x₀ y₀ x₁ y₁ θ) Builder.new) dr T) ↔
      ∀ g, Gap dr g → √((x₁ - x₀) ^ 2 + (y₁ - y₀) ^ 2) ≤ N * g := by
  obtain ⟨h1, h2, h3, h4, h5, h6⟩ := straight_table dr N x₀ y₀ x₁ y₁ θ
  set b := run true (straightOps dr N x₀ y₀ x₁ y₁ θ) Builder.new with hb
  have hreach : Reachable b := ⟨true, _, hb⟩
  have hr : Ready b dr := ⟨h3, by rw [h1, h2]; simp, by rw [h2]; simp [sampleCount]; omega⟩
  have hdist : √((x₁ - x₀) ^ 2 + (y₁ - y₀) ^ 2) = ‖vec (⟨x₁, y₁⟩ : Translation2 ℝ) - vec ⟨x₀, y₀⟩‖ := by
    rw [Complex.norm_eq_sqrt_sq_add_sq]
    simp [vec]
  have hw0 : waypointSample (table b).counts 0 = 0 := rfl
  have hw1 : waypointSample (table b).counts 1 = N := by rw [h2]; simp [waypointSample]
  have huv : ∀ a, ‖unitVec a‖ = 1 := fun a => by rw [unitVec]; exact Complex.norm_exp_ofReal_mul_I a
  rw [hdist]
  constructor
  · rintro ⟨T, hT⟩ g hg
    have hi0 := hT.obeys.instant 0 (by rw [h2]; simp) (.poseEquality x₀ y₀ θ) (by rw [h4]; simp)
    have hi1 := hT.obeys.instant 1 (by rw [h2]; simp) (.poseEquality x₁ y₁ θ) (by rw [h5]; simp)
    rw [hw0] at hi0
    rw [hw1] at hi1
    rw [← hi0.1, ← hi1.1]
    have := C67_unreachable b dr T hT hcentre (fun m hm => by rw [hV m hm]; exact hV0.le)
      (fun n hn => C33_pose_partial b dr T hT 0 (by rw [h2]; simp) x₀ y₀ θ (by rw [h4]; simp) n hn)
      g hg 0 N (by omega) (by rw [h2]; simp [sampleCount])
    simpa using this
  · intro hg
    set d := vec (⟨x₁, y₁⟩ : Translation2 ℝ) - vec ⟨x₀, y₀⟩ with hd
    have hNr : (0 : ℝ) < N := by exact_mod_cast hN0
    have hNc : (N : ℂ) ≠ 0 := by exact_mod_cast hN0.ne'
    set dt := ‖d‖ / (N * V) with hdt
    have hdt0 : 0 ≤ dt := by positivity
    have hdtd : d / N = dt * (d / (N * dt)) := by
      by_cases h0 : d = 0
      · rw [h0]; simp
      · have : (dt : ℂ) ≠ 0 := by
          have := norm_pos_iff.mpr h0
          have : 0 < dt := by positivity
          exact_mod_cast this.ne'
        field_simp
    have hvel : ‖d / (N * dt)‖ ≤ V := by
      by_cases h0 : d = 0
      · rw [h0]; simp [hV0.le]
      · have hn := norm_pos_iff.mpr h0
        rw [norm_div, norm_mul, Complex.norm_natCast, Complex.norm_real, Real.norm_of_nonneg hdt0,
          hdt]
        apply le_of_eq
        field_simp
    have seg : ∀ s < (table b).counts.length, s = 0 := by
      intro s hs; rw [h2] at hs; simpa using hs
    refine ⟨straightTraj (vec ⟨x₀, y₀⟩) d θ dt N, (solves_iff hreach hr hradius).mpr ⟨?_, ?_, ?_, ?_, ?_, ?_⟩⟩
    · intro s hs n hn
      obtain rfl := seg s hs
      simp only [segmentSamples, hw0, Nat.zero_add, hw1, Finset.mem_Ioc] at hn
      constructor
      · obtain ⟨k, rfl⟩ : ∃ k, n = k + 1 := ⟨n - 1, by omega⟩
        simp only [straightTraj, Nat.add_sub_cancel]
        rw [← hdtd]
        push_cast
        ring
      · left
        simp only [straightTraj, zero_mul]
        rw [Complex.mul_conj, Complex.normSq_eq_norm_sq, huv]
        simp [unitVec]
      · simp [straightTraj]
      · simp [straightTraj]
    · intro n hn
      refine ⟨by simp [straightTraj], by simp [straightTraj, torque], ?_, ?_⟩
      · intro m hm
        simp only [wheelVelocity, straightTraj, Complex.ofReal_zero, mul_zero, zero_mul, add_zero,
          norm_mul, Complex.norm_conj, huv, one_mul]
        rw [maxSpeed, hV m hm, abs_of_pos hV0]
        exact hvel
      · intro j
        simp [straightTraj, maxForce]
    · intro s hs; exact hdt0
    · intro s hs m hm g hgap
      have := hg g hgap
      simp only [straightTraj]
      rw [mul_assoc, hV m hm, hdt, div_mul_eq_mul_div, div_le_iff₀ (by positivity)]
      clear hN
      calc ‖d‖ * V ≤ N * g * V := mul_le_mul_of_nonneg_right this hV0.le
        _ = g * (N * V) := by ring
    · intro w hw c hc
      have hw' : w = 0 ∨ w = 1 := by rw [h2, List.length_singleton] at hw; omega
      rcases hw' with rfl | rfl
      · rw [h4, List.mem_singleton] at hc
        subst hc
        exact ⟨by simp [straightTraj, hw0], .inl rfl⟩
      · rw [h5, List.mem_singleton] at hc
        subst hc
        refine ⟨?_, .inl rfl⟩
        rw [hw1]
        simp only [straightTraj]
        rw [mul_div_cancel₀ _ hNc, hd]
        ring
    · intro s hs c hc
      obtain rfl := seg s hs
      rw [h6] at hc
      simp at hc

/-- The demonstration robot reaches 6 m in three control intervals, and not 7 m. -/
example : (∃ T, Solves (run true (straightOps demoRobot 3 0 0 6 0 0) Builder.new) demoRobot T) ∧
    ¬ ∃ T, Solves (run true (straightOps demoRobot 3 0 0 7 0 0) Builder.new) demoRobot T := by
  have hc : Centred demoRobot := by simp [Centred, demoRobot, vec, Complex.ext_iff]
  have hV : ∀ m ∈ demoRobot.modules, m.wheelRadius * m.wheelMaxAngularVelocity = 2 := by
    intro m hm
    simp only [demoRobot, List.mem_cons, List.not_mem_nil, or_false] at hm
    rcases hm with rfl | rfl | rfl | rfl <;> norm_num
  have key := fun x₁ => C67_reach demoRobot hc demo_radius 2 (by norm_num) hV 3 (by norm_num)
    (by norm_num) 0 0 x₁ 0 0
  rw [key 6, key 7]
  constructor
  · intro g hg
    rw [demo_gap g hg, show ((6 : ℝ) - 0) ^ 2 + (0 - 0) ^ 2 = 6 ^ 2 by norm_num,
      Real.sqrt_sq (by norm_num)]
    norm_num
  · intro h
    have := h 2 ⟨by norm_num, ⟨⟨1, 1⟩, 1, 2, 2⟩, ⟨⟨1, -1⟩, 1, 2, 2⟩, by simp [demoRobot],
      .inr (by norm_num)⟩
    rw [show ((7 : ℝ) - 0) ^ 2 + (0 - 0) ^ 2 = 7 ^ 2 by norm_num,
      Real.sqrt_sq (by norm_num)] at this
    norm_num at this

/-! ### C68 Standing still -/

/-- A trajectory that stays in one state and takes no time. -/
noncomputable def stillTraj (p heading : ℂ) : Traj where
  state _ := ⟨p, heading, 0, 0, 0, 0⟩
  force _ _ := 0
  dt _ := 0

/-- C68: a path all of whose constraints are met by one state at rest is feasible, by standing
still in that state for no time at all. -/
theorem C68_rest (b : Builder ℝ) (hb : Reachable b) (dr : SwerveDrivetrain ℝ) (hr : Ready b dr)
    (hradius : ∀ m ∈ dr.modules, m.wheelRadius ≠ 0) (p heading : ℂ) (hu : ‖heading‖ = 1)
    (hi : ∀ w ≤ (table b).counts.length, ∀ c ∈ (table b).instant w,
      Meaning c ⟨p, heading, 0, 0, 0, 0⟩)
    (hc : ∀ s < (table b).counts.length, ∀ c ∈ (table b).continuous s,
      Meaning c ⟨p, heading, 0, 0, 0, 0⟩) :
    Solves b dr (stillTraj p heading) := by
  refine (solves_iff hb hr hradius).mpr ⟨?_, ?_, ?_, ?_, hi, fun s hs c hcs n _ => hc s hs c hcs⟩
  · intro s hs n hn
    refine ⟨by simp [stillTraj], .inl ?_, by simp [stillTraj], by simp [stillTraj]⟩
    simp only [stillTraj]
    rw [Complex.mul_conj, Complex.normSq_eq_norm_sq, hu]
    simp [unitVec]
  · intro n hn
    refine ⟨by simp [stillTraj], by simp [stillTraj, torque], ?_, ?_⟩
    · intro m hm
      simp only [wheelVelocity, stillTraj, Complex.ofReal_zero, mul_zero, zero_mul, add_zero, norm_zero]
      exact abs_nonneg _
    · intro j
      simp [stillTraj, maxForce]
  · intro s hs; exact le_refl _
  · rintro s hs m hm g ⟨-, a, c, -, h | h⟩ <;> simp only [stillTraj, zero_mul] <;> rw [h] <;>
      exact abs_nonneg _

/-- C68: conversely, a feasible trajectory that takes no time stands still. -/
theorem C68_no_time (b : Builder ℝ) (dr : SwerveDrivetrain ℝ) (T : Traj) (h : Solves b dr T)
    (i j : ℕ) (hij : i ≤ j) (hj : j < sampleCount (table b).counts)
    (h0 : duration (table b).counts T i j = 0) :
    (T.state j).pos = (T.state i).pos ∧ (T.state j).vel = (T.state i).vel ∧
    (T.state j).omega = (T.state i).omega := by
  have hz : ∀ n ∈ Finset.Ioc i j, stepTime (table b).counts T n = 0 :=
    (Finset.sum_eq_zero_iff_of_nonneg fun n _ => h.stepTime_nonneg n).mp h0
  obtain ⟨h1, h2, h3⟩ := C32_integration b dr T h i j hij hj
  refine ⟨sub_eq_zero.mp ?_, sub_eq_zero.mp ?_, sub_eq_zero.mp ?_⟩
  · rw [h1]; exact Finset.sum_eq_zero fun n hn => by rw [hz n hn]; simp
  · rw [h2]; exact Finset.sum_eq_zero fun n hn => by rw [hz n hn]; simp
  · rw [h3]; exact Finset.sum_eq_zero fun n hn => by rw [hz n hn]; simp

/-- Staying at a pose with a speed limit is feasible. -/
example : ∃ b, (∃ ops, b = run true ops Builder.new) ∧ (table b).instant 1 ≠ [] ∧
    Solves b demoRobot (stillTraj 0 1) := by
  obtain ⟨h1, h2, h3, h4, h5, h6⟩ := straight_table demoRobot 5 0 0 0 0 0
  refine ⟨_, ⟨_, rfl⟩, by rw [h5]; simp, C68_rest _ ⟨_, _, rfl⟩ demoRobot
    ⟨h3, by rw [h1, h2]; simp, by rw [h2]; simp [sampleCount]⟩ demo_radius 0 1 (by simp) ?_ ?_⟩
  · intro w hw c hc
    have hw' : w = 0 ∨ w = 1 := by rw [h2, List.length_singleton] at hw; omega
    rcases hw' with rfl | rfl
    · rw [h4, List.mem_singleton] at hc
      subst hc
      simp [Meaning, vec, unitVec, Complex.ext_iff]
    · rw [h5, List.mem_singleton] at hc
      subst hc
      simp [Meaning, vec, unitVec, Complex.ext_iff]
  · intro s hs c hc
    have : s = 0 := by rw [h2] at hs; simpa using hs
    subst this
    rw [h6] at hc
    simp at hc

end Trajopt.Props
