import Verif.Props.Stronger

/-!
# C94 More control intervals
-/

set_option autoImplicit false

namespace Trajopt.Props

open Spec Builder

theorem quarter_even (n : ℕ) : (2 * n) ^ 2 / 4 = n * n := by
  rw [show (2 * n) ^ 2 = 4 * (n * n) by ring, Nat.mul_div_cancel_left _ (by norm_num)]

theorem quarter_odd (n : ℕ) : (2 * n + 1) ^ 2 / 4 = n * (n + 1) := by
  rw [show (2 * n + 1) ^ 2 = 1 + 4 * (n * (n + 1)) by ring, Nat.add_mul_div_left _ _ (by norm_num)]
  norm_num

theorem quarter_half (N : ℕ) : (N / 2) ^ 2 ≤ N ^ 2 / 4 := by
  obtain ⟨n, rfl | rfl⟩ : ∃ n, N = 2 * n ∨ N = 2 * n + 1 := ⟨N / 2, by omega⟩
  · rw [quarter_even, show 2 * n / 2 = n by omega, sq]
  · rw [quarter_odd, show (2 * n + 1) / 2 = n by omega]; nlinarith

/-- Time of the fastest trajectory from standstill to standstill in `N` control intervals, compared with that in
two. -/
noncomputable def slowness (N : ℕ) : ℝ := if Even N then 1 else N / √((N : ℝ) ^ 2 - 1)

theorem slowness_eq (N : ℕ) (hN : 2 ≤ N) (x : ℝ) :
    N * √(x / (N ^ 2 / 4 : ℕ)) = 2 * √x * slowness N := by
  rw [Real.sqrt_div' _ (Nat.cast_nonneg _)]
  obtain ⟨n, rfl | rfl⟩ : ∃ n, N = 2 * n ∨ N = 2 * n + 1 := ⟨N / 2, by omega⟩
  · have hn : (0 : ℝ) < n := by exact_mod_cast (by omega : 0 < n)
    rw [slowness, if_pos (by simp), quarter_even]
    push_cast
    rw [Real.sqrt_mul_self hn.le]
    field_simp
  · have hn : (0 : ℝ) < n := by exact_mod_cast (by omega : 0 < n)
    have h4 : √((2 * n + 1 : ℝ) ^ 2 - 1) = 2 * √(n * (n + 1)) := by
      rw [show (2 * n + 1 : ℝ) ^ 2 - 1 = 2 ^ 2 * (n * (n + 1)) by ring,
        Real.sqrt_mul (by norm_num), Real.sqrt_sq (by norm_num)]
    have hs : 0 < √((n : ℝ) * (n + 1)) := by positivity
    rw [slowness, if_neg (by simp), quarter_odd]
    push_cast
    rw [h4]
    field_simp

theorem slowness_odd {N : ℕ} (hN : 2 ≤ N) (ho : ¬ Even N) : 1 < slowness N := by
  rw [slowness, if_neg ho]
  have h2 : (2 : ℝ) ≤ N := by exact_mod_cast hN
  rw [one_lt_div (Real.sqrt_pos.mpr (by nlinarith))]
  rw [Real.sqrt_lt' (by linarith)]
  linarith

theorem slowness_close {N : ℕ} (hN : 2 ≤ N) : 1 ≤ slowness N ∧ slowness N ≤ 1 + 1 / (N : ℝ) := by
  have h2 : (2 : ℝ) ≤ N := by exact_mod_cast hN
  refine ⟨?_, ?_⟩
  · by_cases h : Even N
    · rw [slowness, if_pos h]
    · exact (slowness_odd hN h).le
  · rw [slowness]
    split_ifs with h
    · have : 0 ≤ 1 / (N : ℝ) := by positivity
      linarith
    · rw [div_le_iff₀ (Real.sqrt_pos.mpr (by nlinarith))]
      have : (N : ℝ) / (1 + 1 / N) ≤ √((N : ℝ) ^ 2 - 1) := by
        apply Real.le_sqrt_of_sq_le
        have e : (N : ℝ) / (1 + 1 / N) = N ^ 2 / (N + 1) := by field_simp
        rw [e, div_pow, div_le_iff₀ (by positivity)]
        nlinarith [mul_nonneg (by linarith : (0 : ℝ) ≤ N) (by linarith : (0 : ℝ) ≤ (N : ℝ) - 2),
          pow_pos (by linarith : (0:ℝ) < N) 3]
      rwa [div_le_iff₀' (by positivity)] at this

/-- C94, how the number of control intervals matters: from standstill to standstill without turning, an even number of control
intervals gives the time of full throttle and full brake, `2 √(D / A)`; an odd number gives more. -/
theorem C94_time (dr : SwerveDrivetrain ℝ) (F V : ℝ) (hu : Uniform dr F V)
    (b : Builder ℝ) (hb : Reachable b) (hr : Ready b dr) (N : ℕ) (hN : 2 ≤ N)
    (hcounts : (table b).counts = [N]) (hcont : (table b).continuous 0 = [])
    (p q : ℂ) (θ : ℝ) (hpq : p ≠ q)
    (h0 : ∀ s : State, (∀ c ∈ (table b).instant 0, Meaning c s) → s.pos = p ∧ s.vel = 0)
    (h1 : ∀ s : State, (∀ c ∈ (table b).instant 1, Meaning c s) → s.pos = q ∧ s.vel = 0)
    (h0' : ∀ a, ∀ c ∈ (table b).instant 0, Meaning c ⟨p, unitVec θ, 0, a, 0, 0⟩)
    (h1' : ∀ a, ∀ c ∈ (table b).instant 1, Meaning c ⟨q, unitVec θ, 0, a, 0, 0⟩)
    (hspeed : √(topAcceleration dr * ‖q - p‖) ≤ V)
    (hcap : ∀ g, Gap dr g → √(‖q - p‖ / topAcceleration dr) * V ≤ g) :
    (∃ T, Fastest b dr T) ∧
    ∀ T, Fastest b dr T → timeTaken (table b).counts T =
      2 * √(‖q - p‖ / topAcceleration dr) * if Even N then 1 else N / √((N : ℝ) ^ 2 - 1) := by
  have hA : topAcceleration dr = dr.modules.length * F / dr.mass := by
    rw [topAcceleration, List.map_congr_left hu.force]
    simp
  have hM : (0 : ℝ) < dr.modules.length := by exact_mod_cast List.length_pos_iff.mpr hu.some
  have hA0 : 0 < topAcceleration dr := by
    rw [hA]
    have := hu.mass
    have := hu.force_pos
    positivity
  have hD0 : 0 < ‖q - p‖ := norm_pos_iff.mpr (sub_ne_zero.mpr hpq.symm)
  have hV : 0 ≤ V := (Real.sqrt_nonneg _).trans hspeed
  have hQ1 : (1 : ℝ) ≤ (N ^ 2 / 4 : ℕ) := by
    exact_mod_cast (Nat.le_div_iff_mul_le (by norm_num)).mpr (by nlinarith)
  have hQh : (((N / 2 : ℕ) : ℝ)) ^ 2 ≤ (N ^ 2 / 4 : ℕ) := by exact_mod_cast quarter_half N
  have e : ‖q - p‖ / (topAcceleration dr * (N ^ 2 / 4 : ℕ)) =
      ‖q - p‖ / topAcceleration dr / (N ^ 2 / 4 : ℕ) := by rw [div_div]
  have hd := C85_fastest dr F V hu b hb hr N hN hcounts hcont p q θ hpq h0 h1 h0' h1' _ rfl ?_ ?_
  · refine ⟨hd.1, fun T hT => ?_⟩
    rw [(hd.2 T hT).1, e, slowness_eq N hN]
    rfl
  · refine le_trans ?_ hspeed
    apply Real.le_sqrt_of_sq_le
    rw [mul_pow, mul_pow, Real.sq_sqrt (by positivity)]
    have : topAcceleration dr ^ 2 * (‖q - p‖ / (topAcceleration dr * (N ^ 2 / 4 : ℕ))) * ((N / 2 : ℕ) : ℝ) ^ 2 =
        topAcceleration dr * ‖q - p‖ * (((N / 2 : ℕ) : ℝ) ^ 2 / (N ^ 2 / 4 : ℕ)) := by field_simp
    rw [this]
    exact mul_le_of_le_one_right (by positivity) (div_le_one_of_le₀ hQh (by positivity))
  · intro g hg
    refine le_trans (mul_le_mul_of_nonneg_right (Real.sqrt_le_sqrt ?_) hV) (hcap g hg)
    rw [e]
    exact div_le_self (by positivity) hQ1

/-- The hop of one metre in `N` control intervals. -/
noncomputable def hopIn (N : ℕ) : List (Op ℝ) :=
  [.setDrivetrain demoRobot, .poseWpt 0 0 0 0, .poseWpt 1 1 0 0,
    .wptConstraint 0 (.linearVelocityMaxMagnitude 0), .wptConstraint 1 (.linearVelocityMaxMagnitude 0),
    .wptConstraint 0 (.angularVelocityMaxMagnitude 0), .controlIntervalCounts [N]]

theorem hopIn_table (N : ℕ) (hN : N < 2 ^ 64 - 1) :
    let b := run true (hopIn N) Builder.new
    Ready b demoRobot ∧ (table b).counts = [N] ∧ (table b).continuous 0 = [] ∧
    (table b).instant 0 = [.poseEquality 0 0 0, .linearVelocityMaxMagnitude 0, .angularVelocityMaxMagnitude 0] ∧
    (table b).instant 1 = [.poseEquality 1 0 0, .linearVelocityMaxMagnitude 0] := by
  intro b
  obtain ⟨e, hr⟩ : table b = PathTable.empty.afterAll (hopIn N) ∧ Ready b demoRobot := by
    refine ready_of ?_ _ rfl ?_ ?_ ?_
    case refine_4 =>
      simp only [hopIn, PathTable.afterAll, PathTable.after, sampleCount, List.sum_cons, List.sum_nil]
      omega
    all_goals simp [hopIn, PathTable.AcceptsAll, PathTable.Accepts, PathTable.afterAll, PathTable.after,
      PathTable.empty, PathTable.reach, PathTable.requireAt, PathTable.guessAt]
  refine ⟨hr, ?_⟩
  rw [e]
  simp [hopIn, PathTable.afterAll, PathTable.after,
    PathTable.empty, PathTable.reach, PathTable.requireAt, PathTable.guessAt]

/-- The demonstration robot hops one metre in `√2` seconds, or a little more. -/
theorem hopIn_time (N : ℕ) (hN : 2 ≤ N) (hN' : N < 2 ^ 64 - 1) :
    (∃ T, Fastest (run true (hopIn N) Builder.new) demoRobot T) ∧
    ∀ T, Fastest (run true (hopIn N) Builder.new) demoRobot T →
      timeTaken [N] T = 2 * √(1 / 2) * slowness N := by
  obtain ⟨hr, hc, hco, hi0, hi1⟩ := hopIn_table N hN'
  have := C94_time demoRobot 2 2 demo_uniform _ ⟨true, _, rfl⟩ hr N hN hc hco 0 1 0 (by norm_num) ?_ ?_ ?_ ?_ ?_ ?_
  · rw [hc, demo_top] at this
    simpa [slowness] using this
  · intro s hs
    rw [hi0] at hs
    refine ⟨?_, ?_⟩
    · rw [(hs (.poseEquality 0 0 0) (by simp)).1]; apply Complex.ext <;> simp [vec]
    · simpa [Meaning] using hs (.linearVelocityMaxMagnitude 0) (by simp)
  · intro s hs
    rw [hi1] at hs
    refine ⟨?_, ?_⟩
    · rw [(hs (.poseEquality 1 0 0) (by simp)).1]; apply Complex.ext <;> simp [vec]
    · simpa [Meaning] using hs (.linearVelocityMaxMagnitude 0) (by simp)
  · intro a c hcm
    rw [hi0] at hcm
    simp only [List.mem_cons, List.not_mem_nil, or_false] at hcm
    rcases hcm with rfl | rfl | rfl
    · exact ⟨by apply Complex.ext <;> simp [vec], .inl rfl⟩
    · simp [Meaning]
    · simp [Meaning]
  · intro a c hcm
    rw [hi1] at hcm
    simp only [List.mem_cons, List.not_mem_nil, or_false] at hcm
    rcases hcm with rfl | rfl
    · exact ⟨by apply Complex.ext <;> simp [vec], .inl rfl⟩
    · simp [Meaning]
  · rw [demo_top, Real.sqrt_le_left (by norm_num)]
    norm_num
  · intro g hg
    rw [demo_gap g hg, demo_top]
    have : √(‖(1 : ℂ) - 0‖ / 2) ≤ 1 := by rw [Real.sqrt_le_left (by norm_num)]; norm_num
    linarith

/-- C94 is false as stated, for the time: the same path with one control interval more takes longer, whatever
even number of them one starts from. -/
theorem C94_refuted_slower (n : ℕ) (hn : 1 ≤ n) (hn' : 2 * n + 1 < 2 ^ 64 - 1) :
    ∃ (dr : SwerveDrivetrain ℝ) (ops : List (Op ℝ)),
      (∃ T, Fastest (run true (ops ++ [.controlIntervalCounts [2 * n]]) Builder.new) dr T) ∧
      (∃ T, Fastest (run true (ops ++ [.controlIntervalCounts [2 * n + 1]]) Builder.new) dr T) ∧
      ∀ T T', Fastest (run true (ops ++ [.controlIntervalCounts [2 * n]]) Builder.new) dr T →
        Fastest (run true (ops ++ [.controlIntervalCounts [2 * n + 1]]) Builder.new) dr T' →
        timeTaken [2 * n] T < timeTaken [2 * n + 1] T' := by
  obtain ⟨he, hT⟩ := hopIn_time (2 * n) (by omega) (by omega)
  obtain ⟨he', hT'⟩ := hopIn_time (2 * n + 1) (by omega) hn'
  refine ⟨demoRobot, [.setDrivetrain demoRobot, .poseWpt 0 0 0 0, .poseWpt 1 1 0 0,
    .wptConstraint 0 (.linearVelocityMaxMagnitude 0), .wptConstraint 1 (.linearVelocityMaxMagnitude 0),
    .wptConstraint 0 (.angularVelocityMaxMagnitude 0)],
    he, he', fun T T' h h' => ?_⟩
  rw [hT T h, hT' T' h', slowness, if_pos (by simp)]
  exact mul_lt_mul_of_pos_left (slowness_odd (by omega) (by simp)) (by positivity)

/-- C94, what holds of the time: from standstill to standstill without turning, with any number of control intervals
from two on, the fastest trajectory takes at most the fraction `1 / N` longer than with any other number. -/
theorem C94_close_partial (dr : SwerveDrivetrain ℝ) (F V : ℝ) (hu : Uniform dr F V)
    (b b' : Builder ℝ) (hb : Reachable b) (hb' : Reachable b') (hr : Ready b dr) (hr' : Ready b' dr)
    (N M : ℕ) (hN : 2 ≤ N) (hM : 2 ≤ M)
    (hcounts : (table b).counts = [N]) (hcounts' : (table b').counts = [M])
    (hinst : (table b').instant = (table b).instant)
    (hcont : (table b).continuous 0 = []) (hcont' : (table b').continuous 0 = [])
    (p q : ℂ) (θ : ℝ) (hpq : p ≠ q)
    (h0 : ∀ s : State, (∀ c ∈ (table b).instant 0, Meaning c s) → s.pos = p ∧ s.vel = 0)
    (h1 : ∀ s : State, (∀ c ∈ (table b).instant 1, Meaning c s) → s.pos = q ∧ s.vel = 0)
    (h0' : ∀ a, ∀ c ∈ (table b).instant 0, Meaning c ⟨p, unitVec θ, 0, a, 0, 0⟩)
    (h1' : ∀ a, ∀ c ∈ (table b).instant 1, Meaning c ⟨q, unitVec θ, 0, a, 0, 0⟩)
    (hspeed : √(topAcceleration dr * ‖q - p‖) ≤ V)
    (hcap : ∀ g, Gap dr g → √(‖q - p‖ / topAcceleration dr) * V ≤ g)
    (T T' : Traj) (hT : Fastest b dr T) (hT' : Fastest b' dr T') :
    timeTaken (table b).counts T ≤ (1 + 1 / N) * timeTaken (table b').counts T' := by
  have e := (C94_time dr F V hu b hb hr N hN hcounts hcont p q θ hpq h0 h1 h0' h1' hspeed hcap).2 T hT
  have e' := (C94_time dr F V hu b' hb' hr' M hM hcounts' hcont' p q θ hpq (by rwa [hinst]) (by rwa [hinst])
    (by rwa [hinst]) (by rwa [hinst]) hspeed hcap).2 T' hT'
  have hx : 0 ≤ 2 * √(‖q - p‖ / topAcceleration dr) := by positivity
  change _ = _ * slowness N at e
  change _ = _ * slowness M at e'
  rw [e, e', mul_left_comm]
  refine mul_le_mul_of_nonneg_left ((slowness_close hN).2.trans ?_) hx
  exact le_mul_of_one_le_right (by positivity) (slowness_close hM).1

/-- Hopping in seven intervals takes at most a seventh longer than in forty. -/
example : ∃ T T', Fastest (run true (hopIn 7) Builder.new) demoRobot T ∧
    Fastest (run true (hopIn 40) Builder.new) demoRobot T' ∧
    timeTaken [40] T' < timeTaken [7] T ∧ timeTaken [7] T ≤ (1 + 1 / 7) * timeTaken [40] T' := by
  obtain ⟨⟨T, hT⟩, h⟩ := hopIn_time 7 (by norm_num) (by norm_num)
  obtain ⟨⟨T', hT'⟩, h'⟩ := hopIn_time 40 (by norm_num) (by norm_num)
  refine ⟨T, T', hT, hT', ?_, ?_⟩
  · rw [h T hT, h' T' hT']
    rw [show slowness 40 = 1 from if_pos (by decide)]
    exact mul_lt_mul_of_pos_left (slowness_odd (by norm_num) (by decide)) (by positivity)
  · rw [h T hT, h' T' hT', show slowness 40 = 1 from if_pos (by decide), mul_one, mul_comm]
    exact mul_le_mul_of_nonneg_right (slowness_close (by norm_num)).2 (by positivity)

/-! ### Undrivable with more control intervals -/

/-- A wide robot with weak motors. -/
noncomputable def weakRobot : SwerveDrivetrain ℝ where
  mass := 4
  moi := 1
  modules := [⟨⟨5, 5⟩, 1, 10, 1 / 100⟩, ⟨⟨5, -5⟩, 1, 10, 1 / 100⟩, ⟨⟨-5, 5⟩, 1, 10, 1 / 100⟩,
    ⟨⟨-5, -5⟩, 1, 10, 1 / 100⟩]

theorem weak_radius : ∀ m ∈ weakRobot.modules, m.wheelRadius = 1 ∧ m.wheelMaxAngularVelocity = 10 := by
  intro m hm
  simp only [weakRobot, List.mem_cons, List.not_mem_nil, or_false] at hm
  rcases hm with rfl | rfl | rfl | rfl <;> norm_num

theorem weak_gap (g : ℝ) (h : Gap weakRobot g) : g = 10 := by
  obtain ⟨hg, a, b, hab, h⟩ := h
  simp only [weakRobot, List.tail_cons, List.zip_cons_cons, List.zip_nil_right, List.mem_cons,
    List.not_mem_nil, or_false, Prod.mk.injEq] at hab
  rcases hab with ⟨rfl, rfl⟩ | ⟨rfl, rfl⟩ | ⟨rfl, rfl⟩ <;> rcases h with rfl | rfl <;>
    first | (norm_num; done) | norm_num at hg

theorem weak_top : topAcceleration weakRobot = 1 / 100 := by
  simp only [topAcceleration, weakRobot, List.map_cons, List.map_nil, List.sum_cons, List.sum_nil]
  norm_num

/-- Drive along the x axis, past a disk of radius 1 around the origin. -/
noncomputable def pastOps : List (Op ℝ) :=
  [.setDrivetrain weakRobot, .poseWpt 0 (-3) 0 0, .poseWpt 1 (-1) 0 0, .poseWpt 2 1 0 0,
    .sgmtConstraint 1 2 (.pointPoint ⟨0, 0⟩ ⟨0, 0⟩ 1), .sgmtConstraint 1 2 (.linearVelocityDirection 0)]

theorem past_table (N : ℕ) (hN : N ≤ 2) :
    let b := run true (pastOps ++ [.controlIntervalCounts [1, N]]) Builder.new
    Ready b weakRobot ∧ (table b).counts = [1, N] ∧ (table b).continuous 0 = [] ∧
    (table b).continuous 1 = [.pointPoint ⟨0, 0⟩ ⟨0, 0⟩ 1, .linearVelocityDirection 0] ∧
    (table b).instant 0 = [.poseEquality (-3) 0 0] ∧
    (table b).instant 1 = [.poseEquality (-1) 0 0, .pointPoint ⟨0, 0⟩ ⟨0, 0⟩ 1, .linearVelocityDirection 0] ∧
    (table b).instant 2 = [.poseEquality 1 0 0, .pointPoint ⟨0, 0⟩ ⟨0, 0⟩ 1, .linearVelocityDirection 0] := by
  intro b
  obtain ⟨e, hr⟩ : table b = PathTable.empty.afterAll (pastOps ++ [.controlIntervalCounts [1, N]]) ∧
      Ready b weakRobot := by
    refine ready_of ?_ _ rfl ?_ ?_ ?_
    case refine_4 =>
      simp only [pastOps, List.cons_append, List.nil_append, PathTable.afterAll, PathTable.after, sampleCount,
        List.sum_cons, List.sum_nil]
      omega
    all_goals simp [pastOps, PathTable.AcceptsAll, PathTable.Accepts, PathTable.afterAll, PathTable.after,
      PathTable.empty, PathTable.reach, PathTable.requireAt, PathTable.guessAt, PathTable.requireAlong]
  refine ⟨hr, ?_⟩
  rw [e]
  simp [pastOps, PathTable.afterAll, PathTable.after,
    PathTable.empty, PathTable.reach, PathTable.requireAt, PathTable.guessAt, PathTable.requireAlong]

/-- Two metres per second throughout. -/
noncomputable def pastTraj : Traj where
  state n := ⟨-3 + 2 * n, 1, 2, 0, 0, 0⟩
  force _ _ := 0
  dt _ := 1

theorem past_short : Solves (run true (pastOps ++ [.controlIntervalCounts [1, 1]]) Builder.new) weakRobot
    pastTraj := by
  obtain ⟨hr, hc, hc0, hc1, hi0, hi1, hi2⟩ := past_table 1 (by norm_num)
  refine (solves_iff ⟨true, _, rfl⟩ hr fun m hm => by rw [(weak_radius m hm).1]; norm_num).mpr
    ⟨?_, ?_, ?_, ?_, ?_, ?_⟩
  · rw [hc]
    intro s hs n hn
    have hn1 : 1 ≤ n := by simp only [segmentSamples, Finset.mem_Ioc] at hn; omega
    obtain ⟨k, rfl⟩ : ∃ k, n = k + 1 := ⟨n - 1, by omega⟩
    constructor
    · simp only [pastTraj, Nat.add_sub_cancel]; push_cast; ring
    · left; simp [pastTraj, unitVec]
    · simp [pastTraj]
    · simp [pastTraj]
  · intro n hn
    refine ⟨by simp [pastTraj], by simp [pastTraj, torque], ?_, ?_⟩
    · intro m hm
      simp only [wheelVelocity, maxSpeed, pastTraj, (weak_radius m hm).1, (weak_radius m hm).2]
      norm_num
    · intro j; simp [pastTraj, maxForce]
  · intro s hs; simp [pastTraj]
  · intro s hs m hm g hg
    rw [weak_gap g hg, (weak_radius m hm).1, (weak_radius m hm).2]
    norm_num [pastTraj]
  · rw [hc]
    intro w hw c hcm
    simp only [List.length_cons, List.length_nil] at hw
    have hu : unitVec 0 = 1 := by simp [unitVec]
    obtain rfl | rfl | rfl : w = 0 ∨ w = 1 ∨ w = 2 := by omega
    · rw [hi0] at hcm
      obtain rfl := List.mem_singleton.mp hcm
      exact ⟨by apply Complex.ext <;> simp [pastTraj, vec, waypointSample], .inl (by simp [pastTraj, hu])⟩
    · rw [hi1] at hcm
      simp only [List.mem_cons, List.not_mem_nil, or_false] at hcm
      rcases hcm with rfl | rfl | rfl
      · exact ⟨by apply Complex.ext <;> norm_num [pastTraj, vec, waypointSample], .inl (by simp [pastTraj, hu])⟩
      · norm_num [Meaning, pastTraj, waypointSample, State.onRobot, vec, dist_eq_norm, Complex.norm_def, Complex.normSq_apply]
      · exact ⟨2, by simp [pastTraj, hu]⟩
    · rw [hi2] at hcm
      simp only [List.mem_cons, List.not_mem_nil, or_false] at hcm
      rcases hcm with rfl | rfl | rfl
      · exact ⟨by apply Complex.ext <;> norm_num [pastTraj, vec, waypointSample], .inl (by simp [pastTraj, hu])⟩
      · norm_num [Meaning, pastTraj, waypointSample, State.onRobot, vec, dist_eq_norm, Complex.norm_def, Complex.normSq_apply]
      · exact ⟨2, by simp [pastTraj, hu]⟩
  · rw [hc]
    intro s hs c hcm n hn
    simp only [List.length_cons, List.length_nil] at hs
    have hu : unitVec 0 = 1 := by simp [unitVec]
    obtain rfl | rfl : s = 0 ∨ s = 1 := by omega
    · rw [hc0] at hcm; simp at hcm
    · rw [hc1] at hcm
      simp only [segmentSamples, waypointSample, Finset.mem_Ioc, List.take, List.sum_cons, List.sum_nil] at hn
      obtain rfl : n = 2 := by omega
      simp only [List.mem_cons, List.not_mem_nil, or_false] at hcm
      rcases hcm with rfl | rfl
      · norm_num [Meaning, pastTraj, waypointSample, State.onRobot, vec, dist_eq_norm, Complex.norm_def, Complex.normSq_apply]
      · exact ⟨2, by simp [pastTraj, hu]⟩

/-- C94 is false as stated: with one more control interval in its last segment, a path that can be driven cannot
be driven any more.  (The robot passed the obstacle between two samples.) -/
theorem C94_refuted_drivable : ∃ (dr : SwerveDrivetrain ℝ) (ops : List (Op ℝ)),
    (∃ T, Solves (run true (ops ++ [.controlIntervalCounts [1, 1]]) Builder.new) dr T) ∧
    Ready (run true (ops ++ [.controlIntervalCounts [1, 2]]) Builder.new) dr ∧
    ¬ ∃ T, Solves (run true (ops ++ [.controlIntervalCounts [1, 2]]) Builder.new) dr T := by
  obtain ⟨hr, hc, hc0, hc1, hi0, hi1, hi2⟩ := past_table 2 le_rfl
  refine ⟨weakRobot, pastOps, ⟨pastTraj, past_short⟩, hr, ?_⟩
  rintro ⟨T, h⟩
  generalize run true (pastOps ++ [.controlIntervalCounts [1, 2]]) Builder.new = b at *
  have ho := h.obeys
  have hu : unitVec 0 = 1 := by simp [unitVec]
  have hacc : ∀ n < 4, ‖(T.state n).acc‖ ≤ 1 / 100 := by
    intro n hn
    have := (C36_acceleration b weakRobot T h n (by rw [hc]; simpa [sampleCount] using hn)).1
      (by norm_num [weakRobot])
    rw [← weak_top]
    exact this
  have hcap : ∀ s < 2, 0 ≤ T.dt s ∧ T.dt s ≤ 1 := by
    intro s hs
    have hs' : s < (table b).counts.length := by rw [hc]; simpa using hs
    refine ⟨ho.time s hs', ?_⟩
    have := ho.stepCap s hs' ⟨⟨5, 5⟩, 1, 10, 1 / 100⟩ (by simp [weakRobot]) 10
      ((gap_places _ _).mpr ⟨by norm_num, ⟨5, 5⟩, ⟨5, -5⟩, by simp [weakRobot], .inr (by norm_num)⟩)
    norm_num at this
    linarith
  have i1 := ho.interval 0 (by rw [hc]; simp) 1 (by rw [hc]; simp [segmentSamples, waypointSample])
  have i2 := ho.interval 1 (by rw [hc]; simp) 2 (by rw [hc]; simp [segmentSamples, waypointSample])
  have i3 := ho.interval 1 (by rw [hc]; simp) 3 (by rw [hc]; simp [segmentSamples, waypointSample])
  have p0 := (ho.instant 0 (Nat.zero_le _) (.poseEquality (-3) 0 0) (by rw [hi0]; simp)).1
  have p1 := (ho.instant 1 (by rw [hc]; simp) (.poseEquality (-1) 0 0) (by rw [hi1]; simp)).1
  have p3 := (ho.instant 2 (by rw [hc]; simp) (.poseEquality 1 0 0) (by rw [hi2]; simp)).1
  have d2 := ho.continuous 1 (by rw [hc]; simp) (.pointPoint ⟨0, 0⟩ ⟨0, 0⟩ 1) (by rw [hc1]; simp) 2
    (by rw [hc]; simp [segmentSamples, waypointSample])
  obtain ⟨t, v2⟩ := ho.continuous 1 (by rw [hc]; simp) (.linearVelocityDirection 0) (by rw [hc1]; simp) 2
    (by rw [hc]; simp [segmentSamples, waypointSample])
  simp only [hc, waypointSample, List.take_zero, List.sum_nil, List.take_succ_cons, List.sum_cons] at p0 p1 p3
  norm_num at p0 p1 p3 i1 i2 i3
  obtain ⟨hd0, hd0'⟩ := hcap 0 (by norm_num)
  obtain ⟨hd1, hd1'⟩ := hcap 1 (by norm_num)
  have a2 := (abs_le.mp ((Complex.abs_re_le_norm _).trans (hacc 2 (by norm_num)))).1
  have a3 := (abs_le.mp ((Complex.abs_re_le_norm _).trans (hacc 3 (by norm_num)))).1
  have x1 := congrArg Complex.re i1.pos
  have x2 := congrArg Complex.re i2.pos
  have y2 := congrArg Complex.im i2.pos
  have x3 := congrArg Complex.re i3.pos
  have w2 := congrArg Complex.re i2.vel
  have w3 := congrArg Complex.re i3.vel
  have im2 : (T.state 2).vel.im = 0 := by rw [v2, hu]; simp
  rw [p0, p1] at x1
  rw [p1] at x2 y2
  rw [p3] at x3
  simp only [vec, Complex.add_re, Complex.add_im, Complex.re_ofReal_mul, Complex.im_ofReal_mul, im2, mul_zero,
    add_zero] at x1 x2 y2 x3 w2 w3
  have d2' : 1 ≤ |(T.state 2).pos.re| := by
    have e : ((T.state 2).pos) = ((T.state 2).pos.re : ℂ) := Complex.ext rfl (by simpa using y2)
    have : |(1 : ℝ)| ≤ ‖(T.state 2).pos‖ := by
      simpa [Meaning, State.onRobot, vec, dist_eq_norm, Complex.mk_eq_add_mul_I] using d2
    rw [e, Complex.norm_real] at this
    simpa using this
  have v1 : 2 ≤ (T.state 1).vel.re := by
    rcases le_total 0 (T.state 1).vel.re with h | h <;> nlinarith
  have v2' : 1 < (T.state 2).vel.re := by nlinarith
  have v3' : 0 < (T.state 3).vel.re := by nlinarith
  have hpos : 0 < T.dt 1 := by
    rcases hd1.lt_or_eq with h | h
    · exact h
    · rw [← h] at x2 x3; norm_num at x2 x3; rw [x2] at x3; norm_num at x3
  rcases le_abs.mp d2' with h | h <;> nlinarith

/-! ### Waiting -/

/-- The state at rest. -/
noncomputable def rest (s : State) : State := ⟨s.pos, s.heading, 0, 0, 0, 0⟩

/-- The same, with `d` samples of rest after sample `k`. -/
noncomputable def waitTraj (T : Traj) (k d : ℕ) : Traj where
  state n := if n ≤ k then T.state n else if n ≤ k + d then rest (T.state k) else T.state (n - d)
  force n j := if n ≤ k then T.force n j else if n ≤ k + d then 0 else T.force (n - d) j
  dt := T.dt

theorem meaning_rest {c : Constraint ℝ} {s : State} (hvel : s.vel = 0) (hom : s.omega = 0) (h : Meaning c s) :
    Meaning c (rest s) := by
  cases c <;> simp only [Meaning, rest, State.onRobot, hvel, hom] at h ⊢ <;> try exact h
  simp

theorem interval_rest {dt : ℝ} {s : State} (hvel : s.vel = 0) (hom : s.omega = 0) (hh : ‖s.heading‖ = 1) :
    Interval dt s (rest s) := by
  refine ⟨by simp [rest], .inl ?_, by simp [rest, hvel], by simp [rest, hom]⟩
  simp [rest, Complex.mul_conj, Complex.normSq_eq_norm_sq, hh, unitVec]

theorem interval_from_rest {dt : ℝ} {s s' : State} (hvel : s.vel = 0) (hom : s.omega = 0) (h : Interval dt s s') :
    Interval dt (rest s) s' := by
  obtain ⟨h1, h2, h3, h4⟩ := h
  exact ⟨h1, h2, by rwa [hvel] at h3, by rwa [hom] at h4⟩

theorem dynamics_rest (dr : SwerveDrivetrain ℝ) (s : State) (F : ℕ → ℂ) (hF : ∀ j, F j = 0) :
    Dynamics dr (rest s) F := by
  refine ⟨by simp [rest, hF], by simp [rest, torque, hF], ?_, ?_⟩
  · intro m _; simpa [wheelVelocity, rest, maxSpeed] using (abs_nonneg (m.wheelRadius * m.wheelMaxAngularVelocity))
  · intro j; simp [hF, maxForce]

theorem waypointSample_set (N : List ℕ) (s M : ℕ) (hs : s < N.length) (hM : N[s] ≤ M) (w : ℕ) :
    waypointSample (N.set s M) w = waypointSample N w + if w ≤ s then 0 else M - N[s] := by
  unfold waypointSample
  split_ifs with h
  · rw [List.take_set_of_le h]; rfl
  · push Not at h
    rw [List.take_set, List.set_eq_take_append_cons_drop, if_pos (by simp; omega)]
    conv_rhs => rw [← List.take_append_drop s (N.take w)]
    rw [List.drop_eq_getElem_cons (by simp; omega : s < (N.take w).length)]
    simp only [List.sum_append, List.sum_cons, List.getElem_take]
    omega

/-- C94, what holds: if the robot stands somewhere in a segment, the path can still be driven with more control intervals
in that segment. -/
theorem C94_wait_partial (b : Builder ℝ) (dr : SwerveDrivetrain ℝ) (T : Traj) (h : Solves b dr T)
    (s : ℕ) (hs : s < (table b).counts.length) (M : ℕ) (hM : (table b).counts[s] ≤ M)
    (hsize : sampleCount ((table b).counts.set s M) < 2 ^ 64)
    (k : ℕ) (hk : waypointSample (table b).counts s ≤ k) (hk' : k ≤ waypointSample (table b).counts (s + 1))
    (hvel : (T.state k).vel = 0) (hom : (T.state k).omega = 0) (hhead : ‖(T.state k).heading‖ = 1) :
    ∃ T', Solves (b.setControlIntervalCounts ((table b).counts.set s M)) dr T' ∧
      timeTaken ((table b).counts.set s M) T' = timeTaken (table b).counts T + (M - (table b).counts[s]) * T.dt s := by
  have hb : Reachable (b.setControlIntervalCounts ((table b).counts.set s M)) := by
    obtain ⟨asserts, ops, rfl⟩ := h.reachable
    refine ⟨asserts, ops ++ [.controlIntervalCounts ((table (run asserts ops new)).counts.set s M)], ?_⟩
    conv_rhs => rw [run, List.foldl_append]
    rfl
  have hr : Ready (b.setControlIntervalCounts ((table b).counts.set s M)) dr :=
    ⟨h.ready.drivetrain, by
      have := h.ready.counts
      change ((table b).counts.set s M).length < _
      rwa [List.length_set], hsize⟩
  have ho := h.obeys
  have hends := C72_ends b h.reachable
  have hset := waypointSample_set _ s M hs hM
  have hlen : sampleCount ((table b).counts.set s M) = sampleCount (table b).counts + (M - (table b).counts[s]) := by
    have := hset (table b).counts.length
    rw [if_neg (by omega), waypointSample, waypointSample, List.take_length, List.take_of_length_le (by simp)]
      at this
    rw [sampleCount, sampleCount, this]; omega
  have hkd : k < sampleCount (table b).counts := by
    have := waypointSample_mono (table b).counts (w := s + 1) (w' := (table b).counts.length) hs
    rw [waypointSample, waypointSample, List.take_length] at this
    rw [waypointSample] at hk'
    rw [sampleCount]; omega
  have hdt : ((M - (table b).counts[s] : ℕ) : ℝ) = (M : ℝ) - (table b).counts[s] := Nat.cast_sub hM
  rw [← hdt]
  refine ⟨waitTraj T k (M - (table b).counts[s]), (solves_iff hb hr h.radius).mpr ?_, ?_⟩
  · have hmono := fun {w w'} => waypointSample_mono (table b).counts (w := w) (w' := w')
    generalize M - (table b).counts[s] = d at *
    have hmem : ∀ s' n, n ∈ segmentSamples ((table b).counts.set s M) s' →
        (n ≤ k → n ∈ segmentSamples (table b).counts s') ∧ (k < n → n ≤ k + d → s' = s) ∧
        (k + d < n → n - d ∈ segmentSamples (table b).counts s') := by
      intro s' n hn
      simp only [segmentSamples, Finset.mem_Ioc, hset] at hn ⊢
      rcases lt_trichotomy s' s with hlt | rfl | hgt
      · rw [if_pos hlt.le, if_pos (by omega)] at hn
        have := hmono (show s' + 1 ≤ s from hlt)
        omega
      · rw [if_pos le_rfl, if_neg (by omega)] at hn
        omega
      · rw [if_neg (by omega), if_neg (by omega)] at hn
        have := hmono (show s + 1 ≤ s' from hgt)
        omega
    constructor
    · intro s' hs' n hn
      obtain ⟨m1, m2, m3⟩ := hmem s' n hn
      have hn0 : 0 < n := by
        change n ∈ segmentSamples ((table b).counts.set s M) s' at hn
        simp only [segmentSamples, Finset.mem_Ioc] at hn; omega
      have hs'' : s' < (table b).counts.length := by
        change s' < ((table b).counts.set s M).length at hs'
        rwa [List.length_set] at hs'
      simp only [waitTraj]
      by_cases h1 : n ≤ k
      · rw [if_pos h1, if_pos (by omega)]
        exact ho.interval s' hs'' n (m1 h1)
      rw [if_neg h1]
      by_cases h2 : n ≤ k + d
      · rw [if_pos h2]
        by_cases h3 : n - 1 ≤ k
        · rw [if_pos h3, show n - 1 = k by omega]
          exact interval_rest hvel hom hhead
        · rw [if_neg h3, if_pos (by omega)]
          exact interval_rest (s := rest (T.state k)) rfl rfl hhead
      rw [if_neg h2]
      have hi := ho.interval s' hs'' (n - d) (m3 (by omega))
      by_cases h3 : n - 1 ≤ k
      · rw [if_pos h3]
        rwa [show n - d - 1 = n - 1 by omega] at hi
      rw [if_neg h3]
      by_cases h4 : n - 1 ≤ k + d
      · rw [if_pos h4]
        rw [show n - d - 1 = k by omega] at hi
        exact interval_from_rest hvel hom hi
      · rw [if_neg h4]
        rwa [show n - d - 1 = n - 1 - d by omega] at hi
    · intro n hn
      change n < sampleCount ((table b).counts.set s M) at hn
      rw [hlen] at hn
      simp only [waitTraj]
      by_cases h1 : n ≤ k
      · simp only [if_pos h1]
        exact ho.dynamics n (by omega)
      by_cases h2 : n ≤ k + d
      · simp only [if_neg h1, if_pos h2]
        exact dynamics_rest _ _ _ fun _ => rfl
      · simp only [if_neg h1, if_neg h2]
        exact ho.dynamics (n - d) (by omega)
    · intro s' hs'
      exact ho.time s' (by change s' < ((table b).counts.set s M).length at hs'; rwa [List.length_set] at hs')
    · intro s' hs'
      exact ho.stepCap s' (by change s' < ((table b).counts.set s M).length at hs'; rwa [List.length_set] at hs')
    · intro w hw c hc
      change w ≤ ((table b).counts.set s M).length at hw
      rw [List.length_set] at hw
      have hi := ho.instant w hw c hc
      change Meaning c ((waitTraj T k d).state (waypointSample ((table b).counts.set s M) w))
      rw [hset]
      simp only [waitTraj]
      split_ifs with h1 h2 h3 h4 h5
      · exact hi
      · exact absurd (hmono h1) (by omega)
      · exact absurd (hmono h1) (by omega)
      · rwa [show waypointSample (table b).counts w + d = waypointSample (table b).counts w by
          have := hmono (show s + 1 ≤ w by omega); omega]
      · have := hmono (show s + 1 ≤ w by omega)
        rw [show waypointSample (table b).counts w = k by omega] at hi
        exact meaning_rest hvel hom hi
      · rwa [Nat.add_sub_cancel]
    · intro s' hs' c hc n hn
      change s' < ((table b).counts.set s M).length at hs'
      rw [List.length_set] at hs'
      obtain ⟨m1, m2, m3⟩ := hmem s' n hn
      simp only [waitTraj]
      split_ifs with h1 h2
      · exact ho.continuous s' hs' c hc n (m1 h1)
      · obtain rfl := m2 (by omega) h2
        refine meaning_rest hvel hom ?_
        rcases hk.lt_or_eq with h | h
        · exact ho.continuous s' hs' c hc k (by simp only [segmentSamples, Finset.mem_Ioc]; omega)
        · rw [← h]
          exact ho.instant s' hs'.le c (hends s' c hc).1
      · exact ho.continuous s' hs' c hc (n - d) (m3 (by omega))
  · simp only [timeTaken, List.length_set, waitTraj]
    rw [← sub_eq_iff_eq_add', ← Finset.sum_sub_distrib, Finset.sum_eq_single s]
    · simp only [List.getD_eq_getElem?_getD, List.getElem?_set_self hs, List.getElem?_eq_getElem hs, Option.getD_some, hdt]
      ring
    · intro s' _ hne
      rw [List.getD_eq_getElem?_getD, List.getElem?_set_ne hne.symm, ← List.getD_eq_getElem?_getD, sub_self]
    · intro hns
      exact absurd (Finset.mem_range.mpr hs) hns

/-- The hop of one metre can be driven with any number of control intervals from two on: the robot stands at its start. -/
example (M : ℕ) (hM : 2 ≤ M) (hM' : M < 2 ^ 64 - 1) : ∃ T,
    Solves ((run true (hopIn 2) Builder.new).setControlIntervalCounts [M]) demoRobot T := by
  obtain ⟨⟨T, hT⟩, -⟩ := hopIn_time 2 le_rfl (by norm_num)
  obtain ⟨hr, hc, hco, hi0, hi1⟩ := hopIn_table 2 (by norm_num)
  generalize run true (hopIn 2) Builder.new = b at *
  have h0 := hT.solves.obeys.instant 0 (Nat.zero_le _)
  rw [hi0] at h0
  have hp := h0 (.poseEquality 0 0 0) (by simp)
  have hv := h0 (.linearVelocityMaxMagnitude 0) (by simp)
  have hw := h0 (.angularVelocityMaxMagnitude 0) (by simp)
  rw [show waypointSample (table b).counts 0 = 0 from rfl] at hp hv hw
  have hset : (table b).counts.set 0 M = [M] := by rw [hc]; rfl
  have := C94_wait_partial b demoRobot T hT.solves 0 (by rw [hc]; simp) M (by simpa [hc] using hM)
    (by rw [hset]; simp only [sampleCount, List.sum_cons, List.sum_nil]; omega) 0 le_rfl (Nat.zero_le _)
    (by simpa [Meaning] using hv) (by simpa [Meaning] using hw)
    (by rcases hp.2 with h | h <;> rw [h] <;> simp [unitVec])
  rw [hset] at this
  exact this.imp fun T' h => h.1

end Trajopt.Props
