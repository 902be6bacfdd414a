import Verif.Props.Generator

/-!
# C32–C38 What every feasible trajectory satisfies (real arithmetic)
-/

set_option autoImplicit false

namespace Trajopt.Props

open Spec Builder

/-- `T` is, as far as samples, modules and segments go, encoded by an assignment that satisfies all
constraints of the problem generated for `b`, whose drivetrain is `dr`. -/
structure Solves (b : Builder ℝ) (dr : SwerveDrivetrain ℝ) (T : Traj) : Prop where
  reachable : Reachable b
  ready : Ready b dr
  radius : ∀ m ∈ dr.modules, m.wheelRadius ≠ 0
  feasible : ∃ handle g σ, Generator.construct b handle = .ok g ∧ g.problem.Feasible σ ∧
    Traj.Agree (sampleCount (table b).counts) dr.modules.length (table b).counts.length
      (decode g.vars σ) T

/-- C29 again: the feasible trajectories are those that obey path and drivetrain. -/
theorem solves_iff {b : Builder ℝ} {dr : SwerveDrivetrain ℝ} {T : Traj} (hb : Reachable b)
    (hr : Ready b dr) (hR : ∀ m ∈ dr.modules, m.wheelRadius ≠ 0) :
    Solves b dr T ↔ Obeys (table b) dr T := by
  constructor
  · rintro ⟨-, -, -, handle, g, σ, hg, hσ, ha⟩
    obtain ⟨g', hg', h', -⟩ := C29_problem b hb dr hr hR handle
    rw [hg] at hg'
    cases hg'
    exact (obeys_congr ha).mp ((h' σ).mp hσ)
  · intro h
    obtain ⟨g, hg, -, -, h'⟩ := C29_problem b hb dr hr hR 0
    obtain ⟨σ, hσ, ha⟩ := (h' T).mp h
    exact ⟨hb, hr, hR, 0, g, σ, hg, hσ, ha⟩

theorem Solves.obeys {b : Builder ℝ} {dr : SwerveDrivetrain ℝ} {T : Traj} (h : Solves b dr T) :
    Obeys (table b) dr T := (solves_iff h.reachable h.ready h.radius).mp h

theorem demo_radius : ∀ m ∈ demoRobot.modules, m.wheelRadius ≠ 0 := by
  intro m hm
  simp only [demoRobot, List.mem_cons, List.not_mem_nil, or_false] at hm
  rcases hm with rfl | rfl | rfl | rfl <;> norm_num

/-- The demonstration path has a feasible trajectory that moves. -/
theorem demo_solves_flip (h1 : ℝ) (hh : h1 = 1 ∨ h1 = -1) :
    Solves demoBuilder demoRobot (driveTraj 1 h1) :=
  (solves_iff ⟨true, demoOps, rfl⟩ demo_ready demo_radius).mpr (demo_obeys_flip h1 hh)

/-! ### C32 Integration -/

/-- Duration of the control interval that ends at sample `n`. -/
noncomputable def stepTime (N : List ℕ) (T : Traj) (n : ℕ) : ℝ :=
  ∑ s ∈ Finset.range N.length, if n ∈ segmentSamples N s then T.dt s else 0

theorem segment_unique {N : List ℕ} {s s' n : ℕ} (h : n ∈ segmentSamples N s)
    (h' : n ∈ segmentSamples N s') : s = s' := by
  rw [segmentSamples, Finset.mem_Ioc] at h h'
  by_contra hne
  rcases Nat.lt_or_gt_of_ne hne with hlt | hlt
  · have := sum_take_mono N (show s + 1 ≤ s' by omega)
    simp only [waypointSample] at h h'; omega
  · have := sum_take_mono N (show s' + 1 ≤ s by omega)
    simp only [waypointSample] at h h'; omega

theorem stepTime_eq {N : List ℕ} (T : Traj) {s n : ℕ} (hs : s < N.length)
    (h : n ∈ segmentSamples N s) : stepTime N T n = T.dt s := by
  rw [stepTime, Finset.sum_eq_single s]
  · rw [if_pos h]
  · intro s' _ hne
    rw [if_neg fun h' => hne (segment_unique h' h)]
  · intro h'
    exact absurd (Finset.mem_range.mpr hs) h'

theorem segment_of_sample {N : List ℕ} {n : ℕ} (h0 : 0 < n) (hn : n < sampleCount N) :
    ∃ s < N.length, n ∈ segmentSamples N s := by
  rcases sample_between N 0 N.length n (by simp [waypointSample])
    (by simp only [waypointSample, List.take_length, sampleCount] at *; omega) with h | ⟨s, -, h, -, hn⟩
  · have : waypointSample N 0 = 0 := rfl
    omega
  · exact ⟨s, h, hn⟩

/-- Every control interval of a feasible trajectory. -/
theorem Solves.interval {b : Builder ℝ} {dr : SwerveDrivetrain ℝ} {T : Traj} (h : Solves b dr T)
    {n : ℕ} (h0 : 0 < n) (hn : n < sampleCount (table b).counts) :
    Interval (stepTime (table b).counts T n) (T.state (n - 1)) (T.state n) := by
  obtain ⟨s, hs, hns⟩ := segment_of_sample h0 hn
  rw [stepTime_eq T hs hns]
  exact h.obeys.interval s hs n hns

/-- C32: displacement is the sum of velocity times duration over the control intervals in
between; likewise velocity from acceleration and angular velocity from angular acceleration. -/
theorem C32_integration (b : Builder ℝ) (dr : SwerveDrivetrain ℝ) (T : Traj) (h : Solves b dr T)
    (i j : ℕ) (hij : i ≤ j) (hj : j < sampleCount (table b).counts) :
    (T.state j).pos - (T.state i).pos =
      ∑ n ∈ Finset.Ioc i j, stepTime (table b).counts T n * (T.state n).vel ∧
    (T.state j).vel - (T.state i).vel =
      ∑ n ∈ Finset.Ioc i j, stepTime (table b).counts T n * (T.state n).acc ∧
    (T.state j).omega - (T.state i).omega =
      ∑ n ∈ Finset.Ioc i j, stepTime (table b).counts T n * (T.state n).alpha := by
  induction j, hij using Nat.le_induction with
  | base => simp
  | succ j hij ih =>
    obtain ⟨h1, h2, h3⟩ := ih (by omega)
    have hI := h.interval (n := j + 1) (by omega) hj
    rw [Nat.add_sub_cancel] at hI
    rw [Finset.sum_Ioc_succ_top (by omega), Finset.sum_Ioc_succ_top (by omega),
      Finset.sum_Ioc_succ_top (by omega), ← h1, ← h2, ← h3, hI.pos, hI.vel, hI.omega]
    refine ⟨by ring, by ring, by ring⟩

/-! ### C33, C34 The heading -/

/-- C33, what holds: neighbouring headings have reciprocal norms. -/
theorem heading_norms {b : Builder ℝ} {dr : SwerveDrivetrain ℝ} {T : Traj} (h : Solves b dr T)
    {n : ℕ} (hn : n + 1 < sampleCount (table b).counts) :
    ‖(T.state (n + 1)).heading‖ * ‖(T.state n).heading‖ = 1 := by
  have hI := (h.interval (n := n + 1) (by omega) hn).turn
  rw [Nat.add_sub_cancel] at hI
  have hu : ∀ a, ‖unitVec a‖ = 1 := fun a => by rw [unitVec]; exact Complex.norm_exp_ofReal_mul_I a
  have : ‖(T.state (n + 1)).heading * (starRingEnd ℂ) (T.state n).heading‖ = 1 := by
    rcases hI with e | e <;> rw [e] <;> simp [hu]
  rwa [norm_mul, Complex.norm_conj] at this

/-- C33, what holds: if the heading of one sample is a unit vector then all headings are; in any
case all headings at an even distance have the same norm. Missing: a first unit heading. -/
theorem C33_partial (b : Builder ℝ) (dr : SwerveDrivetrain ℝ) (T : Traj) (h : Solves b dr T) :
    (∀ i < sampleCount (table b).counts, ‖(T.state i).heading‖ = 1 →
      ∀ n < sampleCount (table b).counts, ‖(T.state n).heading‖ = 1) ∧
    (∀ n, n + 2 < sampleCount (table b).counts →
      ‖(T.state (n + 2)).heading‖ = ‖(T.state n).heading‖) := by
  have step : ∀ n, n + 1 < sampleCount (table b).counts →
      (‖(T.state (n + 1)).heading‖ = 1 ↔ ‖(T.state n).heading‖ = 1) := by
    intro n hn
    have := heading_norms h hn
    constructor <;> intro e <;> rw [e] at this <;> simpa using this
  have zero : ∀ n < sampleCount (table b).counts,
      (‖(T.state n).heading‖ = 1 ↔ ‖(T.state 0).heading‖ = 1) := by
    intro n hn
    induction n with
    | zero => rfl
    | succ n ih => rw [step n hn, ih (by omega)]
  refine ⟨fun i hi hu n hn => (zero n hn).mpr ((zero i hi).mp hu), ?_⟩
  intro n hn
  have h1 := heading_norms h (n := n) (by omega)
  have h2 := heading_norms h (n := n + 1) hn
  have h0 : ‖(T.state (n + 1)).heading‖ ≠ 0 := by intro e; rw [e] at h1; simp at h1
  have : ‖(T.state (n + 1)).heading‖ * ‖(T.state (n + 2)).heading‖ =
      ‖(T.state (n + 1)).heading‖ * ‖(T.state n).heading‖ := by rw [h1, mul_comm]; exact h2
  exact mul_left_cancel₀ h0 this

/-- C33: a pose equality at any waypoint makes all headings unit vectors. -/
theorem C33_pose_partial (b : Builder ℝ) (dr : SwerveDrivetrain ℝ) (T : Traj) (h : Solves b dr T)
    (w : ℕ) (hw : w ≤ (table b).counts.length) (x y θ : ℝ)
    (hc : .poseEquality x y θ ∈ (table b).instant w)
    (n : ℕ) (hn : n < sampleCount (table b).counts) : ‖(T.state n).heading‖ = 1 := by
  have hm := (h.obeys.instant w hw _ hc).2
  have hle := sum_take_le (table b).counts w
  refine (C33_partial b dr T h).1 (waypointSample (table b).counts w)
    (by simp only [waypointSample, sampleCount]; omega) ?_ n hn
  have hu : ∀ a, ‖unitVec a‖ = 1 := fun a => by rw [unitVec]; exact Complex.norm_exp_ofReal_mul_I a
  rcases hm with e | e <;> rw [e] <;> simp [hu]

/-- C34, what holds: the heading turns by `ω dt` or by that and half a turn.  Missing: the half
turn cannot be excluded. -/
theorem C34_partial (b : Builder ℝ) (dr : SwerveDrivetrain ℝ) (T : Traj) (h : Solves b dr T)
    (n : ℕ) (hn : n + 1 < sampleCount (table b).counts) (hu : ‖(T.state n).heading‖ = 1) :
    (T.state (n + 1)).heading = (T.state n).heading *
      unitVec ((T.state (n + 1)).omega * stepTime (table b).counts T (n + 1)) ∨
    (T.state (n + 1)).heading = -(T.state n).heading *
      unitVec ((T.state (n + 1)).omega * stepTime (table b).counts T (n + 1)) := by
  have hI := (h.interval (n := n + 1) (by omega) hn).turn
  rw [Nat.add_sub_cancel] at hI
  have hc : (starRingEnd ℂ) (T.state n).heading * (T.state n).heading = 1 := by
    rw [mul_comm, Complex.mul_conj, Complex.normSq_eq_norm_sq, hu]; simp
  rcases hI with e | e
  · left
    rw [← e]
    linear_combination -(T.state (n + 1)).heading * hc
  · right
    rw [neg_mul, ← mul_neg, ← e]
    linear_combination -(T.state (n + 1)).heading * hc

/-- C34 is false as stated: along a path with poses at both ends the robot may flip its heading
although its angular velocity is zero. -/
theorem C34_refuted : ∃ (b : Builder ℝ) (dr : SwerveDrivetrain ℝ) (T : Traj) (n : ℕ),
    Solves b dr T ∧ n + 1 < sampleCount (table b).counts ∧ (T.state (n + 1)).omega = 0 ∧
    (T.state n).heading = 1 ∧ (T.state (n + 1)).heading = -1 := by
  refine ⟨_, _, _, 0, demo_solves_flip (-1) (.inr rfl), by rw [demo_table.2.1]; simp [sampleCount],
    ?_, ?_, ?_⟩ <;> simp [driveTraj]

/-- Like `demoOps`, with positions only. -/
noncomputable def looseOps : List (Op ℝ) :=
  [.setDrivetrain demoRobot, .translationWpt 0 0 0 0, .translationWpt 1 1 0 0,
    .controlIntervalCounts [1]]

noncomputable def looseBuilder : Builder ℝ := run true looseOps Builder.new

theorem loose_table : (table looseBuilder).waypoints = 2 ∧ (table looseBuilder).counts = [1] ∧
    (table looseBuilder).drivetrain = some demoRobot ∧
    (table looseBuilder).instant 0 = [.translationEquality ⟨0, 0⟩] ∧
    (table looseBuilder).instant 1 = [.translationEquality ⟨1, 0⟩] ∧
    (table looseBuilder).continuous 0 = [] := by
  have r0 := run_snoc (b := (Builder.new : Builder ℝ)) (asserts := true) (ops := []) rfl
    (op := .setDrivetrain demoRobot) rfl
  generalize ht0 : Builder.setDrivetrain demoRobot (Builder.new : Builder ℝ) = b0 at r0
  obtain ⟨b1, e1, t1⟩ := C12_translation_wpt b0 ⟨_, _, r0⟩ 0 (by norm_num) 0 0 0
  have r1 := run_snoc r0 (op := .translationWpt 0 0 0 0) e1
  obtain ⟨b2, e2, t2⟩ := C12_translation_wpt b1 ⟨_, _, r1⟩ 1 (by norm_num) 1 0 0
  have r2 := run_snoc r1 (op := .translationWpt 1 1 0 0) e2
  have r3 := run_snoc r2 (op := .controlIntervalCounts [1]) rfl
  have hb : looseBuilder = b2.setControlIntervalCounts [1] := r3.symm
  have t3 : table (b2.setControlIntervalCounts [1]) = { table b2 with counts := [1] } := rfl
  rw [hb, t3, t2, t1, ← ht0]
  simp only [PathTable.reach, PathTable.guessAt,
    PathTable.requireAt, table, Builder.setDrivetrain, Builder.new]
  simp

/-- C33 is false as stated: without a pose constraint a heading may have norm 2. -/
theorem C33_refuted : ∃ (b : Builder ℝ) (dr : SwerveDrivetrain ℝ) (T : Traj) (n : ℕ),
    Solves b dr T ∧ n < sampleCount (table b).counts ∧ ‖(T.state n).heading‖ = 2 := by
  obtain ⟨h1, h2, h3, h4, h5, h6⟩ := loose_table
  have hr : Ready looseBuilder demoRobot :=
    ⟨h3, by rw [h1, h2]; simp, by rw [h2]; simp [sampleCount]⟩
  refine ⟨_, _, driveTraj 2 (1 / 2), 0,
    (solves_iff (b := looseBuilder) ⟨true, looseOps, rfl⟩ hr demo_radius).mpr
      (drive_obeys _ h2 2 (1 / 2) (by norm_num) (by norm_num [abs_le])
      (by rw [h4]; simp [Meaning, driveTraj, vec, Complex.ext_iff])
      (by rw [h5]; simp [Meaning, driveTraj, vec, Complex.ext_iff]) (by rw [h6]; simp)),
    by rw [h2]; simp [sampleCount], ?_⟩
  simp [driveTraj]

theorem demo_gap (g : ℝ) (h : Gap demoRobot g) : g = 2 := by
  obtain ⟨hg, a, b, hab, h⟩ := h
  simp only [demoRobot, List.tail_cons, List.zip_cons_cons, List.zip_nil_right, List.mem_cons,
    List.not_mem_nil, or_false, Prod.mk.injEq] at hab
  rcases hab with ⟨rfl, rfl⟩ | ⟨rfl, rfl⟩ | ⟨rfl, rfl⟩ <;> rcases h with rfl | rfl <;>
    first | (norm_num; done) | norm_num at hg

/-- Arrive at 2.4 m/s, with a heading of norm 5/6. -/
noncomputable def speedTraj : Traj where
  state n := if n = 0 then ⟨0, (6 / 5 : ℝ), (47 / 30 : ℝ), 0, 0, 0⟩
    else ⟨1, (5 / 6 : ℝ), (12 / 5 : ℝ), 2, 0, 0⟩
  force n _ := if n = 0 then 0 else 2
  dt _ := 5 / 12

/-- C33, what follows: without a pose constraint a solution may have the robot drive, without
turning, faster than any of its wheels can roll. -/
theorem C33_refuted_speed : ∃ (b : Builder ℝ) (dr : SwerveDrivetrain ℝ) (T : Traj) (n : ℕ),
    Solves b dr T ∧ n < sampleCount (table b).counts ∧ (T.state n).omega = 0 ∧
    dr.modules ≠ [] ∧
    ∀ m ∈ dr.modules, |m.wheelRadius * m.wheelMaxAngularVelocity| < ‖(T.state n).vel‖ := by
  obtain ⟨h1, h2, h3, h4, h5, h6⟩ := loose_table
  have hr : Ready looseBuilder demoRobot :=
    ⟨h3, by rw [h1, h2]; simp, by rw [h2]; simp [sampleCount]⟩
  have hu : unitVec 0 = 1 := by simp [unitVec]
  have hm : demoRobot.modules.length = 4 := rfl
  have seg : ∀ s < (table looseBuilder).counts.length,
      ∀ n ∈ segmentSamples (table looseBuilder).counts s, s = 0 ∧ n = 1 := by
    intro s hs n hn
    rw [h2] at hs hn
    have : s = 0 := by simpa using hs
    subst this
    simp only [segmentSamples, waypointSample, Finset.mem_Ioc, List.take_zero, List.sum_nil,
      zero_add, List.take_succ_cons, List.sum_cons] at hn
    omega
  refine ⟨looseBuilder, demoRobot, speedTraj, 1,
    (solves_iff (b := looseBuilder) ⟨true, looseOps, rfl⟩ hr demo_radius).mpr ?_,
    by rw [h2]; simp [sampleCount], by simp [speedTraj], by simp [demoRobot], ?_⟩
  · constructor
    · intro s hs n hn
      obtain ⟨rfl, rfl⟩ := seg s hs n hn
      constructor
      · simp only [speedTraj]; norm_num
      · left
        simp only [speedTraj, Nat.sub_self, if_true, one_ne_zero, if_false, zero_mul, hu,
          Complex.conj_ofReal]
        norm_num
      · simp only [speedTraj]; norm_num
      · simp [speedTraj]
    · intro n hn
      have wheel : ∀ h v a : ℝ, |h * v| ≤ 2 → ∀ m ∈ demoRobot.modules,
          ‖wheelVelocity ⟨a, h, v, a, 0, 0⟩ m‖ ≤ maxSpeed m := by
        intro h v a hv m hm
        simp only [demoRobot, List.mem_cons, List.not_mem_nil, or_false] at hm
        simp only [wheelVelocity, maxSpeed, Complex.conj_ofReal, Complex.ofReal_zero, mul_zero,
          zero_mul, add_zero, ← Complex.ofReal_mul, Complex.norm_real, Real.norm_eq_abs]
        rcases hm with rfl | rfl | rfl | rfl <;> norm_num <;> simpa using hv
      by_cases h0 : n = 0
      · subst h0
        refine ⟨by simp [speedTraj], by simp [speedTraj, torque], ?_, by simp [speedTraj, maxForce]⟩
        intro m hm
        have := wheel (6 / 5) (47 / 30) 0 (by norm_num [abs_le]) m hm
        simpa only [speedTraj, if_true, Complex.ofReal_zero] using this
      · refine ⟨?_, ?_, ?_, ?_⟩
        · simp only [speedTraj, h0, if_false, Finset.sum_const, Finset.card_univ, Fintype.card_fin,
            hm]
          simp [demoRobot]
        · simp only [speedTraj, h0, if_false, torque, lever, vec, map_mul, Complex.conj_ofReal]
          generalize (5 / 6 : ℝ) = h
          change ∑ j : Fin 4, ((starRingEnd ℂ) ((⟨(demoRobot.modules[j]).translation.x,
            (demoRobot.modules[j]).translation.y⟩ : ℂ)) * (h : ℂ) * 2).im = _
          rw [Fin.sum_univ_four]
          simp [demoRobot]
        · intro m hm
          have := wheel (5 / 6) (12 / 5) 1 (by norm_num [abs_le]) m hm
          simpa only [speedTraj, h0, if_false, wheelVelocity] using this
        · intro j
          simp only [speedTraj, h0, if_false]
          have : ∀ m ∈ demoRobot.modules, 2 ≤ maxForce m := by
            intro m hm
            simp only [demoRobot, List.mem_cons, List.not_mem_nil, or_false] at hm
            rcases hm with rfl | rfl | rfl | rfl <;> norm_num [maxForce]
          simpa using this _ (List.getElem_mem _)
    · intro s hs
      simp only [speedTraj]; norm_num
    · intro s hs m hm g hg
      rw [demo_gap g hg]
      simp only [demoRobot, List.mem_cons, List.not_mem_nil, or_false] at hm
      rcases hm with rfl | rfl | rfl | rfl <;> norm_num [speedTraj]
    · intro w hw c hc
      rw [h2] at hw ⊢
      have hw : w = 0 ∨ w = 1 := by simp at hw; omega
      rcases hw with rfl | rfl
      · rw [h4] at hc
        simp only [List.mem_singleton] at hc
        subst hc
        simp [Meaning, speedTraj, vec, waypointSample, Complex.ext_iff]
      · rw [h5] at hc
        simp only [List.mem_singleton] at hc
        subst hc
        simp [Meaning, speedTraj, vec, waypointSample, Complex.ext_iff]
    · intro s hs c hc n hn
      obtain ⟨rfl, rfl⟩ := seg s hs n hn
      rw [h6] at hc
      simp at hc
  · intro m hm
    have hv : ‖(speedTraj.state 1).vel‖ = 12 / 5 := by
      simp only [speedTraj, one_ne_zero, if_false, Complex.norm_real]
      norm_num
    rw [hv]
    simp only [demoRobot, List.mem_cons, List.not_mem_nil, or_false] at hm
    rcases hm with rfl | rfl | rfl | rfl <;> norm_num

/-! ### C35, C36 Forces -/

/-- C35: in coordinates. -/
theorem C35_forces (b : Builder ℝ) (dr : SwerveDrivetrain ℝ) (T : Traj) (h : Solves b dr T)
    (n : ℕ) (hn : n < sampleCount (table b).counts) :
    let s := T.state n
    let F := T.force n
    -- module position in the field frame, relative to the robot
    let rx : SwerveModule ℝ → ℝ := fun m =>
      m.translation.x * s.heading.re - m.translation.y * s.heading.im
    let ry : SwerveModule ℝ → ℝ := fun m =>
      m.translation.x * s.heading.im + m.translation.y * s.heading.re
    ∑ j : Fin dr.modules.length, (F j).re = dr.mass * s.acc.re ∧
    ∑ j : Fin dr.modules.length, (F j).im = dr.mass * s.acc.im ∧
    ∑ j : Fin dr.modules.length,
      (rx dr.modules[j] * (F j).im - ry dr.modules[j] * (F j).re) = dr.moi * s.alpha ∧
    ∀ j : Fin dr.modules.length, ‖F j‖ ≤
      |dr.modules[j].wheelMaxTorque / dr.modules[j].wheelRadius| := by
  have hd := h.obeys.dynamics n hn
  refine ⟨?_, ?_, ?_, hd.limit⟩
  · have := congrArg Complex.re hd.force
    simpa using this
  · have := congrArg Complex.im hd.force
    simpa using this
  · rw [← hd.torque]
    refine Finset.sum_congr rfl fun j _ => ?_
    simp only [torque, lever, vec, Complex.mul_im, Complex.conj_re, Complex.conj_im, Complex.mul_re]
    ring

/-- C36: the accelerations are bounded by what the wheels can do. -/
theorem C36_acceleration (b : Builder ℝ) (dr : SwerveDrivetrain ℝ) (T : Traj) (h : Solves b dr T)
    (n : ℕ) (hn : n < sampleCount (table b).counts) :
    (0 < dr.mass → ‖(T.state n).acc‖ ≤
      (dr.modules.map fun m => |m.wheelMaxTorque / m.wheelRadius|).sum / dr.mass) ∧
    (0 < dr.moi → ‖(T.state n).heading‖ = 1 → |(T.state n).alpha| ≤
      (dr.modules.map fun m => ‖vec m.translation‖ * |m.wheelMaxTorque / m.wheelRadius|).sum /
        dr.moi) := by
  have hd := h.obeys.dynamics n hn
  have hsum : ∀ f : SwerveModule ℝ → ℝ,
      (dr.modules.map f).sum = ∑ j : Fin dr.modules.length, f dr.modules[j] := by
    intro f
    rw [← List.sum_ofFn, ← List.ofFn_getElem_eq_map]
    rfl
  constructor
  · intro hm
    rw [le_div_iff₀ hm, hsum]
    have : ‖(T.state n).acc‖ * dr.mass = ‖∑ j : Fin dr.modules.length, T.force n j‖ := by
      rw [hd.force, norm_mul, Complex.norm_real, Real.norm_of_nonneg hm.le, mul_comm]
    rw [this]
    exact (norm_sum_le _ _).trans (Finset.sum_le_sum fun j _ => hd.limit j)
  · intro hm hu
    rw [le_div_iff₀ hm, hsum]
    have : |(T.state n).alpha| * dr.moi =
        |∑ j : Fin dr.modules.length, torque (lever (T.state n) dr.modules[j]) (T.force n j)| := by
      rw [hd.torque, abs_mul, abs_of_pos hm, mul_comm]
    rw [this]
    refine (Finset.abs_sum_le_sum_abs _ _).trans (Finset.sum_le_sum fun j _ => ?_)
    rw [torque]
    refine (Complex.abs_im_le_norm _).trans ?_
    rw [norm_mul, Complex.norm_conj, lever, norm_mul, hu, mul_one]
    exact mul_le_mul_of_nonneg_left (hd.limit j) (norm_nonneg _)

/-! ### C37, C38 Speeds -/

/-- C37: `vel + ω × r` is the velocity of the wheel's contact point, `r` being the module's
position rotated into the field frame. -/
theorem C37_wheel_speed (b : Builder ℝ) (dr : SwerveDrivetrain ℝ) (T : Traj) (h : Solves b dr T)
    (n : ℕ) (hn : n < sampleCount (table b).counts) (hu : ‖(T.state n).heading‖ = 1)
    (m : SwerveModule ℝ) (hm : m ∈ dr.modules) :
    ‖(T.state n).vel + (T.state n).omega * (Complex.I * (vec m.translation * (T.state n).heading))‖ ≤
      |m.wheelRadius * m.wheelMaxAngularVelocity| := by
  refine le_trans (le_of_eq ?_) ((h.obeys.dynamics n hn).speed m hm)
  have hc : (starRingEnd ℂ) (T.state n).heading * (T.state n).heading = 1 := by
    rw [mul_comm, Complex.mul_conj, Complex.normSq_eq_norm_sq, hu]; simp
  have : wheelVelocity (T.state n) m = (starRingEnd ℂ) (T.state n).heading *
      ((T.state n).vel + (T.state n).omega *
        (Complex.I * (vec m.translation * (T.state n).heading))) := by
    rw [wheelVelocity]
    linear_combination -(T.state n).omega * Complex.I * vec m.translation * hc
  rw [this, norm_mul, Complex.norm_conj, hu, one_mul]

/-- At no sample is the robot so fast that one control interval could take it further than a gap between modules. -/
theorem speed_gap {b : Builder ℝ} {dr : SwerveDrivetrain ℝ} {T : Traj} (h : Solves b dr T)
    {n : ℕ} (hn : n < sampleCount (table b).counts) (hu : ‖(T.state n).heading‖ = 1)
    (hcentre : (dr.modules.map fun m => vec m.translation).sum = 0)
    (hpos : ∀ m ∈ dr.modules, 0 ≤ m.wheelRadius * m.wheelMaxAngularVelocity)
    {g : ℝ} (hgap : Gap dr g) {s : ℕ} (hs : s < (table b).counts.length) :
    T.dt s * ‖(T.state n).vel‖ ≤ g := by
  have hdt := h.obeys.time s hs
  have hspeed := (h.obeys.dynamics n hn).speed
  set v := (starRingEnd ℂ) (T.state n).heading * (T.state n).vel with hv
  have hvn : ‖v‖ = ‖(T.state n).vel‖ := by
    rw [hv, norm_mul, Complex.norm_conj, hu, one_mul]
  rw [← hvn]
  -- the robot's velocity is the average of its wheels' velocities
  have havg : (dr.modules.length : ℂ) * v =
      (dr.modules.map fun m => wheelVelocity (T.state n) m).sum := by
    have : ∀ l : List (SwerveModule ℝ),
        (l.map fun m => wheelVelocity (T.state n) m).sum =
          l.length * v + Complex.I * (T.state n).omega *
            (l.map fun m => vec m.translation).sum := by
      intro l
      induction l with
      | nil => simp
      | cons a l ih =>
        rw [List.map_cons, List.sum_cons, ih, List.map_cons, List.sum_cons, List.length_cons,
          show wheelVelocity (T.state n) a =
            v + Complex.I * (T.state n).omega * vec a.translation from rfl]
        push_cast
        ring
    rw [this, hcentre, mul_zero, add_zero]
  have hlen : 0 < (dr.modules.length : ℝ) := by
    obtain ⟨-, a, _, hab, -⟩ := hgap
    exact_mod_cast List.length_pos_of_mem (List.of_mem_zip hab).1
  have hbound : ∀ l : List (SwerveModule ℝ), (∀ m ∈ l, m ∈ dr.modules) →
      T.dt s * ‖(l.map fun m => wheelVelocity (T.state n) m).sum‖ ≤ l.length * g := by
    intro l hl
    induction l with
    | nil => simp
    | cons a l ih =>
      have ha := hl a (by simp)
      have h1 : T.dt s * ‖wheelVelocity (T.state n) a‖ ≤ g := by
        refine le_trans (mul_le_mul_of_nonneg_left (hspeed a ha) hdt) ?_
        rw [maxSpeed, abs_of_nonneg (hpos a ha), ← mul_assoc]
        exact h.obeys.stepCap s hs a ha g hgap
      have h2 := ih fun m hm => hl m (by simp [hm])
      simp only [List.map_cons, List.sum_cons, List.length_cons, Nat.cast_add, Nat.cast_one]
      have := mul_le_mul_of_nonneg_left
        (norm_add_le (wheelVelocity (T.state n) a)
          (l.map fun m => wheelVelocity (T.state n) m).sum) hdt
      nlinarith
  have := hbound dr.modules fun m hm => hm
  rw [← havg, norm_mul, Complex.norm_natCast] at this
  have h3 : (dr.modules.length : ℝ) * (T.dt s * ‖v‖) ≤ dr.modules.length * g := by nlinarith
  exact le_of_mul_le_mul_left h3 hlen

/-- C38: if the module positions average to the robot's origin, the robot moves per control
interval at most any nonzero coordinate gap between modules listed one after the other. -/
theorem C38_step (b : Builder ℝ) (dr : SwerveDrivetrain ℝ) (T : Traj) (h : Solves b dr T)
    (n : ℕ) (hn : n + 1 < sampleCount (table b).counts) (hu : ‖(T.state (n + 1)).heading‖ = 1)
    (hcentre : (dr.modules.map fun m => vec m.translation).sum = 0)
    (hpos : ∀ m ∈ dr.modules, 0 ≤ m.wheelRadius * m.wheelMaxAngularVelocity)
    (i : ℕ) (hi : i + 1 < dr.modules.length) (g : ℝ) (hg0 : g ≠ 0)
    (hg : g = |dr.modules[i].translation.x - dr.modules[i + 1].translation.x| ∨
      g = |dr.modules[i].translation.y - dr.modules[i + 1].translation.y|) :
    ‖(T.state (n + 1)).pos - (T.state n).pos‖ ≤ g := by
  have hgap : Gap dr g := by
    refine ⟨hg0, dr.modules[i], dr.modules[i + 1], ?_, hg⟩
    rw [List.mem_iff_getElem]
    refine ⟨i, by simp; omega, by simp⟩
  obtain ⟨s, hs, hns⟩ := segment_of_sample (n := n + 1) (by omega) hn
  have hI := (h.obeys.interval s hs _ hns).pos
  rw [Nat.add_sub_cancel] at hI
  rw [hI, add_sub_cancel_left, norm_mul, Complex.norm_real, Real.norm_of_nonneg (h.obeys.time s hs)]
  exact speed_gap h hn hu hcentre hpos hgap hs

/-- The hypotheses of C32–C38 hold for the demonstration path; the step of one metre stays below
the two metres between its wheels. -/
example : ∃ T, Solves demoBuilder demoRobot T ∧ ‖(T.state 1).pos - (T.state 0).pos‖ ≤ 2 ∧
    ‖(T.state 1).pos - (T.state 0).pos‖ = 1 ∧ ‖(T.state 1).acc‖ ≤ 2 := by
  have h := demo_solves_flip 1 (.inl rfl)
  have hn : 0 + 1 < sampleCount (table demoBuilder).counts := by
    rw [demo_table.2.1]; simp [sampleCount]
  refine ⟨_, h, ?_, ?_, ?_⟩
  · refine C38_step demoBuilder demoRobot _ h 0 hn (by simp [driveTraj]) ?_ ?_ 0
      (by simp [demoRobot]) 2 (by norm_num) (.inr ?_)
    · simp [demoRobot, vec, Complex.ext_iff]
    · intro m hm
      simp only [demoRobot, List.mem_cons, List.not_mem_nil, or_false] at hm
      rcases hm with rfl | rfl | rfl | rfl <;> norm_num
    · simp only [demoRobot, List.getElem_cons_zero, List.getElem_cons_succ]; norm_num
  · simp [driveTraj]
  · have := (C36_acceleration demoBuilder demoRobot _ h 1 hn).1 (by norm_num [demoRobot])
    simp only [demoRobot] at this
    norm_num at this
    exact this

end Trajopt.Props
