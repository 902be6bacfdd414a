import Verif.Props.Examples
import Verif.Props.Reach

/-!
# C85 Full throttle, then full brake
-/

set_option autoImplicit false

namespace Trajopt.Props

open Spec Builder

/-- The greatest acceleration: all wheels pushing the same way. -/
noncomputable def topAcceleration (dr : SwerveDrivetrain ℝ) : ℝ :=
  (dr.modules.map fun m => |m.wheelMaxTorque / m.wheelRadius|).sum / dr.mass

theorem sum_tent (N : ℕ) : ∑ k ∈ Finset.range N, min (k + 1) (N - (k + 1)) = N ^ 2 / 4 := by
  have key : ∑ k ∈ Finset.range (N + 1), min k (N - k) = N ^ 2 / 4 := by
    induction N using Nat.twoStepInduction with
    | zero => simp
    | one => simp [Finset.sum_range_succ]
    | more N ih _ =>
      rw [Finset.sum_range_succ, Finset.sum_range_succ']
      have : ∑ k ∈ Finset.range (N + 1), min (k + 1) (N + 2 - (k + 1)) =
          ∑ k ∈ Finset.range (N + 1), (min k (N - k) + 1) := by
        refine Finset.sum_congr rfl fun k hk => ?_
        have := Finset.mem_range.mp hk
        omega
      rw [this, Finset.sum_add_distrib, ih]
      have e : (N + 2) ^ 2 = N ^ 2 + 4 * (N + 1) := by ring
      rw [e, Nat.add_mul_div_left _ _ (by norm_num : 0 < 4)]
      simp
  rw [Finset.sum_range_succ'] at key
  simpa using key

section Segment
variable {b : Builder ℝ} {dr : SwerveDrivetrain ℝ} {T : Traj} (h : Solves b dr T) {s : ℕ}
  (hs : s < (table b).counts.length)
include h hs

omit h in
theorem sample_bound {k : ℕ} (hk : k ≤ (table b).counts[s]) :
    waypointSample (table b).counts s + k < sampleCount (table b).counts := by
  have := sum_take_le (table b).counts (s + 1)
  rw [sum_take_succ _ hs] at this
  simp only [waypointSample, sampleCount]
  omega

theorem segment_step {k : ℕ} (hk : k < (table b).counts[s]) :
    Interval (T.dt s) (T.state (waypointSample (table b).counts s + k))
      (T.state (waypointSample (table b).counts s + (k + 1))) := by
  have := h.obeys.interval s hs (waypointSample (table b).counts s + (k + 1)) (Finset.mem_Ioc.mpr ⟨by omega, by
    have := sum_take_succ (table b).counts hs
    simp only [waypointSample]
    omega⟩)
  exact this

omit h in
theorem segment_end : waypointSample (table b).counts (s + 1) =
    waypointSample (table b).counts s + (table b).counts[s] := sum_take_succ _ hs

theorem segment_acc (hm : 0 < dr.mass) {k : ℕ} (hk : k < (table b).counts[s]) :
    ‖(T.state (waypointSample (table b).counts s + (k + 1))).vel -
      (T.state (waypointSample (table b).counts s + k)).vel‖ ≤ topAcceleration dr * T.dt s := by
  rw [(segment_step h hs hk).vel, add_sub_cancel_left, norm_mul, Complex.norm_real,
    Real.norm_of_nonneg (h.obeys.time s hs), mul_comm]
  exact mul_le_mul_of_nonneg_right ((C36_acceleration b dr T h _ (sample_bound hs hk)).1 hm)
    (h.obeys.time s hs)

theorem segment_speed (hm : 0 < dr.mass)
    (h0 : (T.state (waypointSample (table b).counts s)).vel = 0) {k : ℕ}
    (hk : k ≤ (table b).counts[s]) :
    ‖(T.state (waypointSample (table b).counts s + k)).vel‖ ≤ topAcceleration dr * T.dt s * k := by
  induction k with
  | zero => simp [h0]
  | succ k ih =>
    have h1 := ih (by omega)
    have h2 := segment_acc h hs hm (k := k) (by omega)
    have := norm_sub_norm_le (T.state (waypointSample (table b).counts s + (k + 1))).vel
      (T.state (waypointSample (table b).counts s + k)).vel
    push_cast
    linarith

theorem segment_brake (hm : 0 < dr.mass)
    (h1 : (T.state (waypointSample (table b).counts (s + 1))).vel = 0) {k : ℕ}
    (hk : k ≤ (table b).counts[s]) :
    ‖(T.state (waypointSample (table b).counts s + ((table b).counts[s] - k))).vel‖ ≤
      topAcceleration dr * T.dt s * k := by
  rw [segment_end hs] at h1
  induction k with
  | zero => simp [h1]
  | succ k ih =>
    have h1 := ih (by omega)
    have h2 := segment_acc h hs hm (k := (table b).counts[s] - (k + 1)) (by omega)
    rw [show (table b).counts[s] - (k + 1) + 1 = (table b).counts[s] - k by omega, norm_sub_rev] at h2
    have := norm_sub_norm_le
      (T.state (waypointSample (table b).counts s + ((table b).counts[s] - (k + 1)))).vel
      (T.state (waypointSample (table b).counts s + ((table b).counts[s] - k))).vel
    push_cast
    linarith

theorem segment_sum {k : ℕ} (hk : k ≤ (table b).counts[s]) :
    (T.state (waypointSample (table b).counts s + k)).pos -
      (T.state (waypointSample (table b).counts s)).pos =
    T.dt s * ∑ i ∈ Finset.range k, (T.state (waypointSample (table b).counts s + (i + 1))).vel := by
  induction k with
  | zero => simp
  | succ k ih =>
    have := ih (by omega)
    rw [Finset.sum_range_succ, mul_add, ← this, (segment_step h hs (by omega)).pos]
    ring

theorem segment_tent (hm : 0 < dr.mass)
    (h0 : (T.state (waypointSample (table b).counts s)).vel = 0)
    (h1 : (T.state (waypointSample (table b).counts (s + 1))).vel = 0) {k : ℕ}
    (hk : k ≤ (table b).counts[s]) :
    ‖(T.state (waypointSample (table b).counts s + k)).vel‖ ≤
      topAcceleration dr * T.dt s * (min k ((table b).counts[s] - k) : ℕ) := by
  rcases le_total k ((table b).counts[s] - k) with hle | hle
  · rw [min_eq_left hle]
    exact segment_speed h hs hm h0 hk
  · rw [min_eq_right hle]
    have := segment_brake h hs hm h1 (k := (table b).counts[s] - k) (by omega)
    rwa [show (table b).counts[s] - ((table b).counts[s] - k) = k by omega] at this

end Segment

/-- C85: how far the robot gets in a segment of `N` control intervals of length `dt` if it stands at
the start, and if it also stands at the end. -/
theorem C85_distance (b : Builder ℝ) (dr : SwerveDrivetrain ℝ) (T : Traj) (h : Solves b dr T)
    (hm : 0 < dr.mass) (s : ℕ) (hs : s < (table b).counts.length) :
    let start := T.state (waypointSample (table b).counts s)
    let stop := T.state (waypointSample (table b).counts (s + 1))
    let N := (table b).counts[s]
    (start.vel = 0 → ‖stop.pos - start.pos‖ ≤ topAcceleration dr * T.dt s ^ 2 * (N * (N + 1) / 2 : ℕ)) ∧
    (start.vel = 0 → stop.vel = 0 →
      ‖stop.pos - start.pos‖ ≤ topAcceleration dr * T.dt s ^ 2 * (N ^ 2 / 4 : ℕ)) := by
  intro start stop N
  have hsum := segment_sum h hs (k := N) le_rfl
  have ht := h.obeys.time s hs
  have bound : ∀ f : ℕ → ℕ, (∀ k < N, ‖(T.state (waypointSample (table b).counts s + (k + 1))).vel‖ ≤
      topAcceleration dr * T.dt s * f k) → ‖stop.pos - start.pos‖ ≤
      topAcceleration dr * T.dt s ^ 2 * (∑ k ∈ Finset.range N, f k : ℕ) := by
    intro f hf
    have e : stop.pos - start.pos = T.dt s *
        ∑ i ∈ Finset.range N, (T.state (waypointSample (table b).counts s + (i + 1))).vel := by
      simp only [stop, start]
      rw [segment_end hs]
      exact hsum
    rw [e, norm_mul, Complex.norm_real, Real.norm_of_nonneg ht]
    push_cast
    rw [show topAcceleration dr * T.dt s ^ 2 * ∑ k ∈ Finset.range N, (f k : ℝ) =
      T.dt s * (topAcceleration dr * T.dt s * ∑ k ∈ Finset.range N, (f k : ℝ)) by ring, Finset.mul_sum]
    exact mul_le_mul_of_nonneg_left
      (norm_sum_le_of_le _ fun k hk => hf k (Finset.mem_range.mp hk)) ht
  constructor
  · intro h0
    have := bound (fun k => k + 1) (fun k hk => by
      have := segment_speed h hs hm h0 (k := k + 1) hk
      exact_mod_cast this)
    rwa [show ∑ k ∈ Finset.range N, (k + 1) = N * (N + 1) / 2 by
      have := Finset.sum_range_id_mul_two (N + 1)
      rw [Finset.sum_range_succ'] at this
      simp only [Nat.add_sub_cancel, add_zero] at this
      rw [Nat.eq_div_iff_mul_eq_left (by norm_num) ⟨_, by rw [mul_comm N, ← this, mul_comm 2]⟩, this,
        mul_comm]] at this
  · intro h0 h1
    have := bound (fun k => min (k + 1) (N - (k + 1))) (fun k hk =>
      segment_tent h hs hm h0 h1 (k := k + 1) hk)
    rwa [sum_tent] at this

/-- C85: from standstill to standstill takes at least twice the square root of distance over top acceleration, in
whatever number of control intervals. -/
theorem C85_time (b : Builder ℝ) (dr : SwerveDrivetrain ℝ) (T : Traj) (h : Solves b dr T)
    (hm : 0 < dr.mass) (hA : 0 < topAcceleration dr) (s : ℕ) (hs : s < (table b).counts.length)
    (h0 : (T.state (waypointSample (table b).counts s)).vel = 0)
    (h1 : (T.state (waypointSample (table b).counts (s + 1))).vel = 0) :
    2 * √(‖(T.state (waypointSample (table b).counts (s + 1))).pos -
      (T.state (waypointSample (table b).counts s)).pos‖ / topAcceleration dr) ≤
      (table b).counts[s] * T.dt s := by
  have hd := (C85_distance b dr T h hm s hs).2 h0 h1
  have ht := h.obeys.time s hs
  set D := ‖(T.state (waypointSample (table b).counts (s + 1))).pos -
      (T.state (waypointSample (table b).counts s)).pos‖
  set N := (table b).counts[s]
  have hN : ((N ^ 2 / 4 : ℕ) : ℝ) ≤ (N : ℝ) ^ 2 / 4 := by
    have := @Nat.cast_div_le ℝ _ _ _ (N ^ 2) 4
    exact_mod_cast this
  have : √(D / topAcceleration dr) ≤ N * T.dt s / 2 := by
    rw [Real.sqrt_le_left (by positivity), div_le_iff₀ hA]
    calc D ≤ topAcceleration dr * T.dt s ^ 2 * (N ^ 2 / 4 : ℕ) := hd
      _ ≤ topAcceleration dr * T.dt s ^ 2 * ((N : ℝ) ^ 2 / 4) := by gcongr
      _ = _ := by ring
  linarith

/-- All wheels alike, centred, `V` their top speed. -/
structure Uniform (dr : SwerveDrivetrain ℝ) (F V : ℝ) : Prop where
  some : dr.modules ≠ []
  centred : Centred dr
  mass : 0 < dr.mass
  force_pos : 0 < F
  radius : ∀ m ∈ dr.modules, m.wheelRadius ≠ 0
  force : ∀ m ∈ dr.modules, |m.wheelMaxTorque / m.wheelRadius| = F
  speed : ∀ m ∈ dr.modules, m.wheelRadius * m.wheelMaxAngularVelocity = V

/-- Speed up for half of the `N` control intervals, slow down for the other half. -/
noncomputable def throttleTraj (dr : SwerveDrivetrain ℝ) (p u : ℂ) (θ dt : ℝ) (N : ℕ) : Traj :=
  let A := topAcceleration dr
  let acc := fun n => if n = 0 then 0 else
    (A * ((min n (N - n) : ℕ) - (min (n - 1) (N - (n - 1)) : ℕ)) : ℂ) * u
  { state := fun n => ⟨p + A * dt ^ 2 * (∑ k ∈ Finset.range n, min (k + 1) (N - (k + 1)) : ℕ) * u, unitVec θ,
      A * dt * (min n (N - n) : ℕ) * u, acc n, 0, 0⟩
    force := fun n _ => dr.mass / dr.modules.length * acc n
    dt := fun _ => dt }

/-- C85: the fastest trajectory between two poses of equal heading a distance `D` apart, standing at both, for a
robot with equal wheels: full throttle, then full brake; it takes `N √(D / (A ⌊N²/4⌋))`, provided
that the wheels can roll that fast and the step cap allows it.  There is no other. -/
theorem C85_fastest (dr : SwerveDrivetrain ℝ) (F V : ℝ) (hu : Uniform dr F V)
    (b : Builder ℝ) (hb : Reachable b) (hr : Ready b dr) (N : ℕ) (hN : 2 ≤ N)
    (hcounts : (table b).counts = [N]) (hcont : (table b).continuous 0 = [])
    (p q : ℂ) (θ : ℝ) (hpq : p ≠ q)
    (h0 : ∀ s : State, (∀ c ∈ (table b).instant 0, Meaning c s) → s.pos = p ∧ s.vel = 0)
    (h1 : ∀ s : State, (∀ c ∈ (table b).instant 1, Meaning c s) → s.pos = q ∧ s.vel = 0)
    (h0' : ∀ a, ∀ c ∈ (table b).instant 0, Meaning c ⟨p, unitVec θ, 0, a, 0, 0⟩)
    (h1' : ∀ a, ∀ c ∈ (table b).instant 1, Meaning c ⟨q, unitVec θ, 0, a, 0, 0⟩)
    (dt : ℝ) (hdt : dt = √(‖q - p‖ / (topAcceleration dr * (N ^ 2 / 4 : ℕ))))
    (hspeed : topAcceleration dr * dt * (N / 2 : ℕ) ≤ V) (hcap : ∀ g, Gap dr g → dt * V ≤ g) :
    (∃ T, Fastest b dr T) ∧
    ∀ T, Fastest b dr T → timeTaken (table b).counts T = N * dt ∧
      ∀ n ≤ N, (T.state n).vel =
        (topAcceleration dr * dt * (min n (N - n) : ℕ) : ℝ) * ((q - p) / (‖q - p‖ : ℝ)) := by
  set A := topAcceleration dr with hAdef
  set D := ‖q - p‖ with hD
  set Q : ℕ := N ^ 2 / 4 with hQ
  have hD0 : 0 < D := norm_pos_iff.mpr (sub_ne_zero.mpr hpq.symm)
  have hQ0 : 0 < Q := Nat.div_pos (by nlinarith) (by norm_num)
  have hQr : (0 : ℝ) < Q := by exact_mod_cast hQ0
  have hM : 0 < dr.modules.length := List.length_pos_iff.mpr hu.some
  have hMr : (0 : ℝ) < dr.modules.length := by exact_mod_cast hM
  have hA : A = dr.modules.length * F / dr.mass := by
    rw [hAdef, topAcceleration, List.map_congr_left hu.force]
    simp
  have hA0 : 0 < A := by
    rw [hA]
    have := hu.mass
    have := hu.force_pos
    positivity
  have hdt0 : 0 < dt := by rw [hdt]; positivity
  have hAQ : A * dt ^ 2 * Q = D := by
    rw [hdt, Real.sq_sqrt (by positivity)]
    field_simp
  set u : ℂ := (q - p) / (D : ℝ) with hudef
  have hDc : (D : ℂ) ≠ 0 := by exact_mod_cast hD0.ne'
  have hun : ‖u‖ = 1 := by
    rw [hudef, norm_div, Complex.norm_real, Real.norm_of_nonneg hD0.le, ← hD, div_self hD0.ne']
  have hDu : (D : ℂ) * u = q - p := by rw [hudef]; field_simp
  have hw0 : waypointSample (table b).counts 0 = 0 := by simp [waypointSample]
  have hw1 : waypointSample (table b).counts 1 = N := by simp [hcounts, waypointSample]
  have hs0 : 0 < (table b).counts.length := by rw [hcounts]; simp
  have hget : (table b).counts[0] = N := by simp [hcounts]
  have htime : ∀ T : Traj, timeTaken (table b).counts T = N * T.dt 0 := by
    intro T; rw [hcounts]; simp [timeTaken]
  have ends : ∀ T, Solves b dr T → ((T.state 0).pos = p ∧ (T.state 0).vel = 0) ∧
      (T.state N).pos = q ∧ (T.state N).vel = 0 := by
    intro T hT
    have a0 := h0 _ (hT.obeys.instant 0 (by omega))
    have a1 := h1 _ (hT.obeys.instant 1 (by omega))
    rw [hw0] at a0
    rw [hw1] at a1
    exact ⟨a0, a1⟩
  have lower : ∀ T, Solves b dr T → dt ≤ T.dt 0 := by
    intro T hT
    obtain ⟨⟨p0, v0⟩, p1, v1⟩ := ends T hT
    have hd := (C85_distance b dr T hT hu.mass 0 hs0).2 (by rw [hw0]; exact v0)
      (by rw [Nat.zero_add, hw1]; exact v1)
    rw [hw0, Nat.zero_add, hw1, p0, p1, hget, ← hD, ← hAQ] at hd
    have h2 : dt ^ 2 ≤ T.dt 0 ^ 2 := by
      rw [← hAdef] at hd
      have : A * Q * dt ^ 2 ≤ A * Q * T.dt 0 ^ 2 := by linarith
      exact le_of_mul_le_mul_left this (by positivity)
    exact le_of_sq_le_sq h2 (hT.obeys.time 0 hs0)
  have huv : ‖unitVec θ‖ = 1 := by rw [unitVec]; exact Complex.norm_exp_ofReal_mul_I θ
  have hjump : ∀ n, 0 < n → n ≤ N →
      |((min n (N - n) : ℕ) : ℝ) - (min (n - 1) (N - (n - 1)) : ℕ)| ≤ 1 := by
    intro n hn0 hn
    rw [abs_le]
    have a : min (n - 1) (N - (n - 1)) ≤ min n (N - n) + 1 := by omega
    have c : min n (N - n) ≤ min (n - 1) (N - (n - 1)) + 1 := by omega
    have a' : ((min (n - 1) (N - (n - 1)) : ℕ) : ℝ) ≤ (min n (N - n) : ℕ) + 1 := by exact_mod_cast a
    have c' : ((min n (N - n) : ℕ) : ℝ) ≤ (min (n - 1) (N - (n - 1)) : ℕ) + 1 := by exact_mod_cast c
    constructor <;> linarith
  have seg : ∀ s < (table b).counts.length, s = 0 := by
    intro s hs; rw [hcounts] at hs; simpa using hs
  have solves : Solves b dr (throttleTraj dr p u θ dt N) := by
    refine (solves_iff hb hr hu.radius).mpr ⟨?_, ?_, ?_, ?_, ?_, ?_⟩
    · intro s hs n hn
      obtain rfl := seg s hs
      simp only [segmentSamples, hw0, Nat.zero_add, hw1, Finset.mem_Ioc] at hn
      obtain ⟨k, rfl⟩ : ∃ k, n = k + 1 := ⟨n - 1, by omega⟩
      constructor
      · simp only [throttleTraj, Nat.add_sub_cancel, ← hAdef, Finset.sum_range_succ]
        push_cast
        ring
      · left
        simp only [throttleTraj, zero_mul]
        rw [Complex.mul_conj, Complex.normSq_eq_norm_sq, huv]
        simp [unitVec]
      · simp only [throttleTraj, Nat.add_sub_cancel, ← hAdef]
        rw [if_neg (Nat.succ_ne_zero k)]
        ring
      · simp [throttleTraj]
    · intro n hn
      have hn' : n ≤ N := by
        rw [hcounts] at hn
        simp only [sampleCount, List.sum_singleton] at hn
        omega
      set a := ((throttleTraj dr p u θ dt N).state n).acc with ha
      have hforce : ∀ j, (throttleTraj dr p u θ dt N).force n j = dr.mass / dr.modules.length * a :=
        fun _ => rfl
      have hacc : ‖a‖ ≤ A := by
        rcases Nat.eq_zero_or_pos n with rfl | hn0
        · rw [ha]; simpa [throttleTraj] using hA0.le
        · rw [ha]
          simp only [throttleTraj, ← hAdef]
          rw [if_neg hn0.ne', norm_mul, norm_mul, hun, mul_one, Complex.norm_real, Real.norm_of_nonneg hA0.le]
          have := hjump n hn0 hn'
          rw [← Real.norm_eq_abs, ← Complex.norm_real, Complex.ofReal_sub, Complex.ofReal_natCast,
            Complex.ofReal_natCast] at this
          exact mul_le_of_le_one_right hA0.le this
      refine ⟨?_, ?_, ?_, ?_⟩
      · simp only [hforce, Finset.sum_const, Finset.card_univ, Fintype.card_fin, nsmul_eq_mul]
        have : (dr.modules.length : ℂ) ≠ 0 := by exact_mod_cast hM.ne'
        rw [← ha]
        field_simp
      · simp only [hforce]
        change ∑ j : Fin dr.modules.length, torque (vec dr.modules[j].translation * unitVec θ) _ =
          dr.moi * 0
        have hc : ∑ j : Fin dr.modules.length, vec dr.modules[j].translation = 0 := by
          have := hu.centred
          rw [Centred, ← List.ofFn_getElem_eq_map, List.sum_ofFn] at this
          exact this
        have : ∑ j : Fin dr.modules.length, (starRingEnd ℂ) (vec dr.modules[j].translation * unitVec θ) *
            (dr.mass / dr.modules.length * a) = 0 := by
          rw [← Finset.sum_mul, ← map_sum, ← Finset.sum_mul, hc]
          simp
        simp only [torque]
        rw [← Complex.im_sum, this]
        simp
      · intro m hm
        simp only [wheelVelocity, throttleTraj, Complex.ofReal_zero, mul_zero, zero_mul, add_zero,
          norm_mul, Complex.norm_conj, huv, one_mul, hun, mul_one, Complex.norm_real,
          Complex.norm_natCast, ← hAdef, Real.norm_of_nonneg hA0.le, Real.norm_of_nonneg hdt0.le]
        rw [maxSpeed, hu.speed m hm]
        refine le_trans ?_ (hspeed.trans (le_abs_self _))
        have : min n (N - n) ≤ N / 2 := by omega
        have : ((min n (N - n) : ℕ) : ℝ) ≤ (N / 2 : ℕ) := by exact_mod_cast this
        gcongr
      · intro j
        rw [hforce, maxForce, hu.force dr.modules[j] (List.getElem_mem j.2), norm_mul, norm_div, Complex.norm_real,
          Complex.norm_natCast, Real.norm_of_nonneg hu.mass.le]
        have hm := hu.mass
        rw [hA] at hacc
        calc dr.mass / dr.modules.length * ‖a‖
            ≤ dr.mass / dr.modules.length * (dr.modules.length * F / dr.mass) := by gcongr
          _ = F := by field_simp
    · intro s hs; exact hdt0.le
    · intro s hs m hm g hg
      simp only [throttleTraj]
      rw [mul_assoc, hu.speed m hm]
      exact hcap g hg
    · intro w hw c hc
      have hw' : w = 0 ∨ w = 1 := by rw [hcounts, List.length_singleton] at hw; omega
      rcases hw' with rfl | rfl
      · rw [hw0]
        have := h0' 0 c hc
        simpa [throttleTraj] using this
      · rw [hw1]
        have e : (throttleTraj dr p u θ dt N).state N =
            ⟨q, unitVec θ, 0, ((throttleTraj dr p u θ dt N).state N).acc, 0, 0⟩ := by
          have hp : p + A * dt ^ 2 * (∑ k ∈ Finset.range N, min (k + 1) (N - (k + 1)) : ℕ) * u = q := by
            rw [sum_tent, ← hQ, show (A * dt ^ 2 * (Q : ℂ)) = ((A * dt ^ 2 * Q : ℝ) : ℂ) by push_cast; rfl,
              hAQ, hDu]
            ring
          simp only [throttleTraj, ← hAdef, hp, Nat.sub_self, Nat.min_zero, Nat.cast_zero, mul_zero, zero_mul]
        rw [e]
        exact h1' _ c hc
    · intro s hs c hc
      obtain rfl := seg s hs
      rw [hcont] at hc
      simp at hc
  refine ⟨⟨_, solves, fun T' hT' => ?_⟩, ?_⟩
  · rw [htime, htime]
    exact mul_le_mul_of_nonneg_left (lower T' hT') (by positivity)
  · intro T hT
    have heq : T.dt 0 = dt := by
      refine le_antisymm ?_ (lower T hT.solves)
      have := hT.least _ solves
      rw [htime, htime] at this
      exact le_of_mul_le_mul_left this (by have : 0 < N := by omega
                                           exact_mod_cast this)
    refine ⟨by rw [htime, heq], ?_⟩
    obtain ⟨⟨p0, v0⟩, p1, v1⟩ := ends T hT.solves
    have hsum := segment_sum hT.solves hs0 (k := N) (by rw [hget])
    rw [hw0, Nat.zero_add, p0, p1, heq] at hsum
    simp only [Nat.zero_add] at hsum
    have hle : ∀ k < N, ‖(T.state (k + 1)).vel‖ ≤ A * dt * (min (k + 1) (N - (k + 1)) : ℕ) := by
      intro k hk
      have := segment_tent hT.solves hs0 hu.mass (by rw [hw0]; exact v0)
        (by rw [Nat.zero_add, hw1]; exact v1) (k := k + 1) (by rw [hget]; exact hk)
      rwa [hw0, Nat.zero_add, hget, heq] at this
    have hre : ∀ z : ℂ, ((starRingEnd ℂ) u * z).re ≤ ‖z‖ := by
      intro z
      refine (Complex.re_le_norm _).trans ?_
      rw [norm_mul, Complex.norm_conj, hun, one_mul]
    have huu : (starRingEnd ℂ) u * u = 1 := by
      rw [mul_comm, Complex.mul_conj, Complex.normSq_eq_norm_sq, hun]; simp
    have htot : ∑ k ∈ Finset.range N, ((starRingEnd ℂ) u * (T.state (k + 1)).vel).re =
        ∑ k ∈ Finset.range N, A * dt * (min (k + 1) (N - (k + 1)) : ℕ) := by
      rw [← Complex.re_sum, ← Finset.mul_sum, ← Finset.mul_sum, ← Nat.cast_sum, sum_tent, ← hQ]
      have e : (dt : ℂ) * ((starRingEnd ℂ) u * ∑ k ∈ Finset.range N, (T.state (k + 1)).vel) = (D : ℝ) := by
        rw [mul_left_comm, ← hsum, ← hDu, mul_left_comm, huu, mul_one]
      have := congrArg Complex.re e
      rw [Complex.re_ofReal_mul, Complex.ofReal_re, ← hAQ] at this
      have h2 : dt * ((starRingEnd ℂ) u * ∑ k ∈ Finset.range N, (T.state (k + 1)).vel).re =
          dt * (A * dt * Q) := by rw [this]; ring
      exact mul_left_cancel₀ hdt0.ne' h2
    have heach := (Finset.sum_eq_sum_iff_of_le (fun k hk =>
      (hre _).trans (hle k (Finset.mem_range.mp hk)))).mp htot
    intro n hn
    rcases n with _ | k
    · simp [v0]
    · have hk : k < N := by omega
      have e := heach k (Finset.mem_range.mpr hk)
      have l := hle k hk
      set c := A * dt * (min (k + 1) (N - (k + 1)) : ℕ) with hc
      set v := (T.state (k + 1)).vel
      have hsq : ‖v - c * u‖ ^ 2 ≤ 0 := by
        have hns : ‖v‖ ^ 2 ≤ c ^ 2 := by
          have := norm_nonneg v
          nlinarith
        have hu2 : u.re * u.re + u.im * u.im = 1 := by
          have := congrArg Complex.re huu
          simp at this
          linarith
        rw [← Complex.normSq_eq_norm_sq, Complex.normSq_apply] at hns ⊢
        simp only [Complex.mul_re, Complex.conj_re, Complex.conj_im, Complex.sub_re, Complex.sub_im,
          Complex.ofReal_re, Complex.ofReal_im, Complex.mul_im] at e ⊢
        have e' : u.re * v.re + u.im * v.im = c := by linarith
        calc _ = (v.re * v.re + v.im * v.im) - 2 * c * (u.re * v.re + u.im * v.im) +
              c ^ 2 * (u.re * u.re + u.im * u.im) := by ring
          _ ≤ 0 := by rw [hu2, e']; linarith
      have : v - c * u = 0 := by
        rw [← norm_eq_zero]
        exact pow_eq_zero_iff (two_ne_zero) |>.mp (le_antisymm hsq (sq_nonneg _))
      rw [← sub_eq_zero]
      exact this

theorem shipped_uniform : Uniform shippedRobot 50 2.8 where
  some := by simp [shippedRobot]
  centred := by simp [Centred, shippedRobot, vec, Complex.ext_iff]
  mass := by norm_num [shippedRobot]
  force_pos := by norm_num
  radius := shipped_radius
  force := by
    intro m hm
    simp only [shippedRobot, List.mem_cons, List.not_mem_nil, or_false] at hm
    rcases hm with rfl | rfl | rfl | rfl <;> norm_num
  speed := by
    intro m hm
    simp only [shippedRobot, List.mem_cons, List.not_mem_nil, or_false] at hm
    rcases hm with rfl | rfl | rfl | rfl <;> norm_num

/-- C85: the fastest trajectory of the first example program (a metre from standstill to standstill), and of the
fifth, takes 3/√10 seconds. -/
theorem C85_example (asserts : Bool) (ops : List (Op ℝ)) (hops : ops = Examples.cpp1 ∨ ops = Examples.cpp5) :
    let b := run asserts ops Builder.new
    (∃ T, Fastest b shippedRobot T) ∧
    ∀ T, Fastest b shippedRobot T → timeTaken (table b).counts T = 3 / √10 := by
  intro b
  obtain ⟨e, hr⟩ : table b = PathTable.empty.afterAll ops ∧ Ready b shippedRobot := by
    rcases hops with rfl | rfl
    · refine ready_of ?_ _ rfl ?_ ?_ ?_ <;>
      simp [Examples.cpp1, PathTable.AcceptsAll, PathTable.Accepts, PathTable.afterAll, PathTable.after,
        PathTable.empty, PathTable.reach, PathTable.requireAt, PathTable.guessAt, examples_robot, sampleCount]
    · refine ready_of ?_ _ rfl ?_ ?_ ?_ <;>
      simp [Examples.cpp5, PathTable.AcceptsAll, PathTable.Accepts, PathTable.afterAll, PathTable.after,
        PathTable.empty, PathTable.reach, PathTable.requireAt, PathTable.guessAt, PathTable.Suits,
        PathTable.requireAllAlong, examples_robot, sampleCount]
  have ht : (table b).counts = [40] ∧ (table b).continuous 0 = [] ∧
      (table b).instant 0 = [.poseEquality 0 0 0, .linearVelocityMaxMagnitude 0] ∧
      (table b).instant 1 = [.poseEquality 1 0 0, .linearVelocityMaxMagnitude 0] := by
    rw [e]
    rcases hops with rfl | rfl <;>
    simp [Examples.cpp1, Examples.cpp5, PathTable.afterAll, PathTable.after, Examples.noSpeed,
      PathTable.empty, PathTable.reach, PathTable.requireAt, PathTable.guessAt, PathTable.requireAllAlong]
  obtain ⟨hc, hco, hi0, hi1⟩ := ht
  have hA : topAcceleration shippedRobot = 40 / 9 := by
    simp only [topAcceleration, shippedRobot, List.map_cons, List.map_nil, List.sum_cons, List.sum_nil]
    norm_num
  have hdt : 3 / √10 / 40 = √(‖(1 : ℂ) - 0‖ / (topAcceleration shippedRobot * (40 ^ 2 / 4 : ℕ))) := by
    rw [hA]
    symm
    rw [Real.sqrt_eq_iff_mul_self_eq (by positivity) (by positivity)]
    have := Real.mul_self_sqrt (show (0 : ℝ) ≤ 10 by norm_num)
    field_simp
    rw [sq, this]
    norm_num
  have h10 : 3 ≤ √10 := Real.le_sqrt_of_sq_le (by norm_num)
  have hpos : 0 < √10 := by linarith
  have h1 : 3 / √10 ≤ 1 := by rw [div_le_one hpos]; exact h10
  have := C85_fastest shippedRobot 50 2.8 shipped_uniform b ⟨asserts, ops, rfl⟩ hr 40 (by norm_num) hc hco 0 1 0
    (by norm_num)
    (by
      intro s hs
      rw [hi0] at hs
      refine ⟨?_, ?_⟩
      · rw [(hs (.poseEquality 0 0 0) (by simp)).1]; apply Complex.ext <;> simp [vec]
      · have := hs (.linearVelocityMaxMagnitude 0) (by simp)
        simpa [Meaning] using this)
    (by
      intro s hs
      rw [hi1] at hs
      refine ⟨?_, ?_⟩
      · rw [(hs (.poseEquality 1 0 0) (by simp)).1]; apply Complex.ext <;> simp [vec]
      · have := hs (.linearVelocityMaxMagnitude 0) (by simp)
        simpa [Meaning] using this)
    (by
      intro a c hcm
      rw [hi0] at hcm
      simp only [List.mem_cons, List.not_mem_nil, or_false] at hcm
      rcases hcm with rfl | rfl
      · exact ⟨by apply Complex.ext <;> simp [vec], .inl rfl⟩
      · simp [Meaning])
    (by
      intro a c hcm
      rw [hi1] at hcm
      simp only [List.mem_cons, List.not_mem_nil, or_false] at hcm
      rcases hcm with rfl | rfl
      · exact ⟨by apply Complex.ext <;> simp [vec], .inl rfl⟩
      · simp [Meaning])
    (3 / √10 / 40) hdt (by rw [hA]; norm_num; linarith) (by
      intro g hg
      rw [shipped_gap g hg]
      norm_num
      linarith)
  refine ⟨this.1, fun T hT => ?_⟩
  rw [(this.2 T hT).1]
  push_cast
  ring

end Trajopt.Props
