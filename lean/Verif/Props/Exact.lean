import Verif.Lemmas.Exact
import Verif.Props.Clearance

/-!
# C99 What the sampled accelerations do to a real robot
-/

set_option autoImplicit false

namespace Trajopt.Props

open Spec Builder

/-! ### There is such a motion -/

/-- A body accelerated from time `a` on. -/
noncomputable def accelerated (p v h : ℂ) (ω : ℝ) (s : State) (a : ℝ) : Motion where
  pos t := p + (t - a) • v + ((t - a) ^ 2 / 2) • s.acc
  vel t := v + (t - a) • s.acc
  heading t := h * unitVec ((t - a) * ω + (t - a) ^ 2 / 2 * s.alpha)
  omega t := ω + (t - a) * s.alpha

theorem accelerated_leg (p v h : ℂ) (ω : ℝ) (s : State) (a b : ℝ) : (accelerated p v h ω s a).Leg s a b := by
  have hl : ∀ t : ℝ, HasDerivAt (fun t : ℝ => t - a) 1 t := fun t => (hasDerivAt_id t).sub_const a
  have hq : ∀ t : ℝ, HasDerivAt (fun t : ℝ => (t - a) ^ 2 / 2) (t - a) t := by
    intro t
    refine (((hl t).pow 2).div_const 2).congr_deriv ?_
    simp
  refine ⟨fun t _ => ?_, fun t _ => ?_, fun t _ => ?_, fun t _ => ?_⟩ <;> refine HasDerivAt.hasDerivWithinAt ?_
  · refine (((hasDerivAt_const t p).add ((hl t).smul_const v)).add ((hq t).smul_const s.acc)).congr_deriv ?_
    simp [accelerated]
  · refine ((hasDerivAt_const t v).add ((hl t).smul_const s.acc)).congr_deriv ?_
    simp
  · have hφ : HasDerivAt (fun t : ℝ => (t - a) * ω + (t - a) ^ 2 / 2 * s.alpha) (ω + (t - a) * s.alpha) t := by
      refine (((hl t).mul_const ω).add ((hq t).mul_const s.alpha)).congr_deriv ?_
      ring
    refine (((hφ.ofReal_comp.mul_const Complex.I).cexp).const_mul h).congr_deriv ?_
    simp only [accelerated, unitVec]
    push_cast
    ring
  · refine ((hasDerivAt_const t ω).add ((hl t).mul_const s.alpha)).congr_deriv ?_
    ring

/-- First one motion, then the other. -/
noncomputable def Motion.glue (x y : Motion) (a : ℝ) : Motion where
  pos t := if t ≤ a then x.pos t else y.pos t
  vel t := if t ≤ a then x.vel t else y.vel t
  heading t := if t ≤ a then x.heading t else y.heading t
  omega t := if t ≤ a then x.omega t else y.omega t

theorem leg_congr {x y : Motion} {s : State} {a b : ℝ} (h : x.Leg s a b)
    (e : ∀ t ∈ Set.Icc a b, y.pos t = x.pos t ∧ y.vel t = x.vel t ∧ y.heading t = x.heading t ∧
      y.omega t = x.omega t) : y.Leg s a b := by
  refine ⟨fun t ht => ?_, fun t ht => ?_, fun t ht => ?_, fun t ht => ?_⟩
  · rw [(e t ht).2.1]
    exact (h.pos t ht).congr (fun u hu => (e u hu).1) (e t ht).1
  · exact (h.vel t ht).congr (fun u hu => (e u hu).2.1) (e t ht).2.1
  · rw [(e t ht).2.2.1, (e t ht).2.2.2]
    exact (h.heading t ht).congr (fun u hu => (e u hu).2.2.1) (e t ht).2.2.1
  · exact (h.omega t ht).congr (fun u hu => (e u hu).2.2.2) (e t ht).2.2.2

theorem motion_exists (T : Traj) (τ : ℕ → ℝ) (hτ : Monotone τ) (m : ℕ) : ∃ x : Motion,
    x.pos (τ 0) = (T.state 0).pos ∧ x.vel (τ 0) = (T.state 0).vel ∧ x.heading (τ 0) = (T.state 0).heading ∧
    x.omega (τ 0) = (T.state 0).omega ∧ ∀ n < m, x.Leg (T.state (n + 1)) (τ n) (τ (n + 1)) := by
  induction m with
  | zero => exact ⟨⟨fun _ => _, fun _ => _, fun _ => _, fun _ => _⟩, rfl, rfl, rfl, rfl, by simp⟩
  | succ m ih =>
    obtain ⟨x, h1, h2, h3, h4, hx⟩ := ih
    set y := accelerated (x.pos (τ m)) (x.vel (τ m)) (x.heading (τ m)) (x.omega (τ m)) (T.state (m + 1)) (τ m)
      with hy
    have h0 := hτ (Nat.zero_le m)
    refine ⟨Motion.glue x y (τ m), ?_, ?_, ?_, ?_, fun n hn => ?_⟩
    · simp [Motion.glue, h0, h1]
    · simp [Motion.glue, h0, h2]
    · simp [Motion.glue, h0, h3]
    · simp [Motion.glue, h0, h4]
    · rcases Nat.lt_succ_iff_lt_or_eq.mp hn with hn | rfl
      · refine leg_congr (hx n hn) fun t ht => ?_
        have : t ≤ τ m := ht.2.trans (hτ (by omega))
        simp [Motion.glue, this]
      · refine leg_congr (hy ▸ accelerated_leg _ _ _ _ _ _ _ : y.Leg _ _ _) fun t ht => ?_
        by_cases h : t ≤ τ n
        · obtain rfl : t = τ n := le_antisymm h ht.1
          simp [Motion.glue, hy, accelerated, unitVec]
        · simp [Motion.glue, h]

/-- C99, motions exist: a robot can drive with the accelerations of the samples. -/
theorem C99_exists (b : Builder ℝ) (dr : SwerveDrivetrain ℝ) (T : Traj) (h : Solves b dr T) :
    ∃ (τ : ℕ → ℝ) (x : Motion), τ 0 = 0 ∧ Clock (table b).counts T τ ∧ x.Follows (table b).counts T τ := by
  set N := (table b).counts with hN
  set τ : ℕ → ℝ := fun n => ∑ k ∈ Finset.range n, stepTime N T (k + 1) with hτ
  have hnn : ∀ n, 0 ≤ stepTime N T n := by
    intro n
    refine Finset.sum_nonneg fun s hs => ?_
    split_ifs
    · exact h.obeys.time s (Finset.mem_range.mp hs)
    · exact le_rfl
  have hm : Monotone τ := monotone_nat_of_le_succ fun n => by
    simp only [hτ, Finset.sum_range_succ]
    linarith [hnn (n + 1)]
  obtain ⟨x, h1, h2, h3, h4, hx⟩ := motion_exists T τ hm (sampleCount N)
  refine ⟨τ, x, by simp [hτ], fun s hs n hn => ?_, h1, h2, h3, h4, fun s hs n hn => ?_⟩
  · obtain ⟨k, rfl⟩ : ∃ k, n = k + 1 := ⟨n - 1, by rw [segmentSamples, Finset.mem_Ioc] at hn; omega⟩
    simp only [hτ, Nat.add_sub_cancel, Finset.sum_range_succ]
    rw [stepTime_eq T hs hn]
  · have hlt := ((mem_segmentSamples hs).mp hn)
    obtain ⟨k, rfl⟩ : ∃ k, n = k + 1 := ⟨n - 1, by rw [segmentSamples, Finset.mem_Ioc] at hn; omega⟩
    rw [Nat.add_sub_cancel]
    refine hx k ?_
    have : k + 1 < sampleCount N := by
      rw [segmentSamples, Finset.mem_Ioc] at hn
      have := waypointSample_lt N (s + 1)
      omega
    omega

/-! ### Velocities are exact -/

section

variable {b : Builder ℝ} {dr : SwerveDrivetrain ℝ} {T : Traj} {τ : ℕ → ℝ} {x : Motion}
  (h : Solves b dr T) (hc : Clock (table b).counts T τ) (hx : x.Follows (table b).counts T τ)

include h hc hx

theorem follow_step {s n : ℕ} (hs : s < (table b).counts.length) (hn : n ∈ segmentSamples (table b).counts s) :
    x.vel (τ n) = x.vel (τ (n - 1)) + T.dt s * (T.state n).acc ∧
    x.omega (τ n) = x.omega (τ (n - 1)) + T.dt s * (T.state n).alpha ∧
    x.pos (τ n) = x.pos (τ (n - 1)) + T.dt s * x.vel (τ (n - 1)) + T.dt s ^ 2 / 2 * (T.state n).acc ∧
    x.heading (τ n) = x.heading (τ (n - 1)) *
      unitVec (T.dt s * x.omega (τ (n - 1)) + T.dt s ^ 2 / 2 * (T.state n).alpha) := by
  have hτ := hc s hs n hn
  have hd := h.obeys.time s hs
  have hm : τ n ∈ Set.Icc (τ (n - 1)) (τ n) := ⟨by linarith, le_rfl⟩
  have hl := hx.leg s hs n hn
  have ht : τ n - τ (n - 1) = T.dt s := by linarith
  refine ⟨?_, ?_, ?_, ?_⟩
  · rw [linear_of_deriv hl.vel _ hm, ht, Complex.real_smul]
  · rw [linear_of_deriv hl.omega _ hm, ht, smul_eq_mul]
  · rw [quadratic_of_deriv hl.pos hl.vel _ hm, ht, Complex.real_smul, Complex.real_smul]
    push_cast
    rfl
  · rw [turning_of_deriv hl.heading hl.omega _ hm, ht]

end

/-- C99, velocities: at every sample the robot has exactly the velocity and the angular velocity of the sample. -/
theorem C99_velocity (b : Builder ℝ) (dr : SwerveDrivetrain ℝ) (T : Traj) (h : Solves b dr T) (τ : ℕ → ℝ)
    (hc : Clock (table b).counts T τ) (x : Motion) (hx : x.Follows (table b).counts T τ)
    (n : ℕ) (hn : n < sampleCount (table b).counts) :
    x.vel (τ n) = (T.state n).vel ∧ x.omega (τ n) = (T.state n).omega := by
  induction n with
  | zero => exact ⟨hx.vel₀, hx.omega₀⟩
  | succ n ih =>
    obtain ⟨s, hs, hns⟩ := segment_of_sample (n := n + 1) (by omega) hn
    obtain ⟨h1, h2, -, -⟩ := follow_step h hc hx hs hns
    obtain ⟨h3, h4⟩ := ih (by omega)
    have hi := h.obeys.interval s hs _ hns
    rw [Nat.add_sub_cancel] at *
    rw [h1, h2, h3, h4, hi.vel, hi.omega]
    exact ⟨rfl, rfl⟩

/-! ### Positions are not -/

/-- C99, positions within a segment: by how much the samples run ahead of the robot changes by half a control
interval of the change of velocity. -/
theorem C99_segment (b : Builder ℝ) (dr : SwerveDrivetrain ℝ) (T : Traj) (h : Solves b dr T) (τ : ℕ → ℝ)
    (hc : Clock (table b).counts T τ) (x : Motion) (hx : x.Follows (table b).counts T τ)
    (s : ℕ) (hs : s < (table b).counts.length) (n m : ℕ) (hm : m = waypointSample (table b).counts s)
    (hn : n ∈ segmentSamples (table b).counts s) :
    (T.state n).pos - x.pos (τ n) = (T.state m).pos - x.pos (τ m) +
      T.dt s / 2 * ((T.state n).vel - (T.state m).vel) := by
  obtain ⟨k, rfl⟩ : ∃ k, n = m + 1 + k := ⟨n - m - 1, by rw [segmentSamples, Finset.mem_Ioc] at hn; omega⟩
  have hlt := waypointSample_lt (table b).counts (s + 1)
  have key : ∀ j, m + j + 1 ∈ segmentSamples (table b).counts s →
      (T.state (m + j + 1)).pos - x.pos (τ (m + j + 1)) = (T.state (m + j)).pos - x.pos (τ (m + j)) +
      T.dt s / 2 * ((T.state (m + j + 1)).vel - (T.state (m + j)).vel) := by
    intro j hj
    obtain ⟨-, -, h3, -⟩ := follow_step h hc hx hs hj
    have hi := h.obeys.interval s hs _ hj
    rw [Nat.add_sub_cancel] at h3 hi
    have hj' := (Finset.mem_Ioc.mp hj).2
    rw [(C99_velocity b dr T h τ hc x hx (m + j) (by omega)).1] at h3
    rw [h3, hi.pos, hi.vel]
    ring
  induction k with
  | zero => exact key 0 hn
  | succ k ih =>
    have hmem : m + 1 + k ∈ segmentSamples (table b).counts s := by
      rw [segmentSamples, Finset.mem_Ioc] at hn ⊢; omega
    have := ih hmem
    have h2 := key (k + 1) (by rwa [show m + (k + 1) + 1 = m + 1 + (k + 1) by omega])
    rw [show m + (k + 1) + 1 = m + 1 + (k + 1) by omega, show m + (k + 1) = m + 1 + k by omega] at h2
    rw [h2, this]
    ring

/-- C99, positions at waypoints. -/
theorem C99_position (b : Builder ℝ) (dr : SwerveDrivetrain ℝ) (T : Traj) (h : Solves b dr T) (τ : ℕ → ℝ)
    (hc : Clock (table b).counts T τ) (x : Motion) (hx : x.Follows (table b).counts T τ)
    (at_ : ℕ → ℕ) (hat : at_ = waypointSample (table b).counts) (w : ℕ) (hw : w ≤ (table b).counts.length) :
    (T.state (at_ w)).pos - x.pos (τ (at_ w)) =
      ∑ s ∈ Finset.range w, T.dt s / 2 * ((T.state (at_ (s + 1))).vel - (T.state (at_ s)).vel) := by
  subst hat
  induction w with
  | zero => simp [waypointSample, hx.pos₀]
  | succ w ih =>
    rw [Finset.sum_range_succ, ← ih (by omega)]
    rcases Nat.eq_or_lt_of_le (waypointSample_mono (table b).counts (show w ≤ w + 1 by omega)) with he | hlt
    · rw [← he]; simp
    · exact C99_segment b dr T h τ hc x hx w (by omega) _ _ rfl (by rw [segmentSamples, Finset.mem_Ioc]; omega)

/-! ### Headings -/

theorem turn_step {dt : ℝ} {a c : State} (h : Interval dt a c) (ha : ‖a.heading‖ = 1) :
    c.heading = a.heading * unitVec (c.omega * dt) ∨ c.heading = -(a.heading * unitVec (c.omega * dt)) := by
  have hc : (starRingEnd ℂ) a.heading * a.heading = 1 := by
    rw [mul_comm, Complex.mul_conj, Complex.normSq_eq_norm_sq, ha]; simp
  rcases h.turn with h | h
  · left; linear_combination a.heading * h - c.heading * hc
  · right; linear_combination a.heading * h - c.heading * hc

/-- C99, headings at waypoints: the samples run ahead by half a control interval of the change of angular velocity;
that is up to half turns, which the code's constraints do not rule out (C33). -/
theorem C99_heading (b : Builder ℝ) (dr : SwerveDrivetrain ℝ) (T : Traj) (h : Solves b dr T) (τ : ℕ → ℝ)
    (hc : Clock (table b).counts T τ) (x : Motion) (hx : x.Follows (table b).counts T τ)
    (hu : ‖(T.state 0).heading‖ = 1)
    (at_ : ℕ → ℕ) (hat : at_ = waypointSample (table b).counts) (w : ℕ) (hw : w ≤ (table b).counts.length)
    (θ : ℝ) (hθ : θ = ∑ s ∈ Finset.range w, T.dt s / 2 * ((T.state (at_ (s + 1))).omega - (T.state (at_ s)).omega)) :
    (T.state (at_ w)).heading = x.heading (τ (at_ w)) * unitVec θ ∨
    (T.state (at_ w)).heading = -(x.heading (τ (at_ w)) * unitVec θ) := by
  subst hat
  subst hθ
  have hall := fun n hn => (C33_partial b dr T h).1 0 (by rw [sampleCount]; omega) hu n hn
  have hneg : ∀ {u v w : ℂ}, u = v ∨ u = -v → v = w ∨ v = -w → u = w ∨ u = -w := by
    rintro u v w (rfl | rfl) (rfl | rfl) <;> simp
  have step : ∀ s < (table b).counts.length, ∀ n ∈ segmentSamples (table b).counts s, ∀ φ : ℝ,
      ((T.state (n - 1)).heading = x.heading (τ (n - 1)) * unitVec φ ∨
        (T.state (n - 1)).heading = -(x.heading (τ (n - 1)) * unitVec φ)) →
      ((T.state n).heading = x.heading (τ n) *
          unitVec (φ + T.dt s / 2 * ((T.state n).omega - (T.state (n - 1)).omega)) ∨
        (T.state n).heading = -(x.heading (τ n) *
          unitVec (φ + T.dt s / 2 * ((T.state n).omega - (T.state (n - 1)).omega)))) := by
    intro s hs n hn φ hφ
    have hlt := waypointSample_lt (table b).counts (s + 1)
    have hn' := (Finset.mem_Ioc.mp hn)
    obtain ⟨-, -, -, h4⟩ := follow_step h hc hx hs hn
    have hi := h.obeys.interval s hs _ hn
    rw [(C99_velocity b dr T h τ hc x hx (n - 1) (by omega)).2] at h4
    refine hneg (turn_step hi (hall _ (by omega))) ?_
    have e : x.heading (τ n) * unitVec (φ + T.dt s / 2 * ((T.state n).omega - (T.state (n - 1)).omega)) =
        x.heading (τ (n - 1)) * unitVec φ * unitVec ((T.state n).omega * T.dt s) := by
      rw [h4, mul_assoc, mul_assoc, ← unitVec_add, ← unitVec_add, hi.omega]
      congr 2
      ring
    rw [e]
    rcases hφ with hφ | hφ <;> rw [hφ]
    · left; rfl
    · right; ring
  induction w with
  | zero => left; simp [waypointSample, hx.heading₀, unitVec]
  | succ w ih =>
    have ih := ih (by omega)
    rw [Finset.sum_range_succ]
    have inner : ∀ k, waypointSample (table b).counts w + k ≤ waypointSample (table b).counts (w + 1) →
        ((T.state (waypointSample (table b).counts w + k)).heading =
          x.heading (τ (waypointSample (table b).counts w + k)) *
          unitVec (∑ s ∈ Finset.range w, T.dt s / 2 * ((T.state (waypointSample (table b).counts (s + 1))).omega -
              (T.state (waypointSample (table b).counts s)).omega) +
            T.dt w / 2 * ((T.state (waypointSample (table b).counts w + k)).omega -
              (T.state (waypointSample (table b).counts w)).omega)) ∨
        (T.state (waypointSample (table b).counts w + k)).heading =
          -(x.heading (τ (waypointSample (table b).counts w + k)) *
          unitVec (∑ s ∈ Finset.range w, T.dt s / 2 * ((T.state (waypointSample (table b).counts (s + 1))).omega -
              (T.state (waypointSample (table b).counts s)).omega) +
            T.dt w / 2 * ((T.state (waypointSample (table b).counts w + k)).omega -
              (T.state (waypointSample (table b).counts w)).omega)))) := by
      intro k
      induction k with
      | zero => intro _; simpa using ih
      | succ k ihk =>
        intro hk
        have := step w (by omega) (waypointSample (table b).counts w + (k + 1))
          (by rw [segmentSamples, Finset.mem_Ioc]; omega) _ (ihk (by omega))
        rw [show waypointSample (table b).counts w + (k + 1) - 1 = waypointSample (table b).counts w + k by omega,
          add_assoc, ← mul_add, add_comm ((T.state (waypointSample (table b).counts w + k)).omega - _),
          sub_add_sub_cancel] at this
        exact this
    have hmono := waypointSample_mono (table b).counts (show w ≤ w + 1 by omega)
    have := inner (waypointSample (table b).counts (w + 1) - waypointSample (table b).counts w) (by omega)
    rwa [show waypointSample (table b).counts w + (waypointSample (table b).counts (w + 1) -
      waypointSample (table b).counts w) = waypointSample (table b).counts (w + 1) by omega] at this

/-! ### When the robot arrives -/

/-- C99, what holds: if the robot passes waypoints `0` to `w` with the same velocity (for instance standing) it is
exactly where the samples say at waypoint `w`, and if it passes them with the same angular velocity, it has exactly
the heading of the samples, up to half turns.  Missing: waypoints passed with different velocities. -/
theorem C99_same_partial (b : Builder ℝ) (dr : SwerveDrivetrain ℝ) (T : Traj) (h : Solves b dr T) (τ : ℕ → ℝ)
    (hc : Clock (table b).counts T τ) (x : Motion) (hx : x.Follows (table b).counts T τ)
    (at_ : ℕ → ℕ) (hat : at_ = waypointSample (table b).counts) (w : ℕ) (hw : w ≤ (table b).counts.length) :
    ((∀ i ≤ w, (T.state (at_ i)).vel = (T.state 0).vel) → x.pos (τ (at_ w)) = (T.state (at_ w)).pos) ∧
    (‖(T.state 0).heading‖ = 1 → (∀ i ≤ w, (T.state (at_ i)).omega = (T.state 0).omega) →
      x.heading (τ (at_ w)) = (T.state (at_ w)).heading ∨ x.heading (τ (at_ w)) = -(T.state (at_ w)).heading) := by
  constructor
  · intro hv
    have := C99_position b dr T h τ hc x hx at_ hat w hw
    rw [Finset.sum_eq_zero, sub_eq_zero] at this
    · exact this.symm
    · intro s hs
      rw [Finset.mem_range] at hs
      rw [hv s (by omega), hv (s + 1) (by omega), sub_self, mul_zero]
  · intro hu hv
    have := C99_heading b dr T h τ hc x hx hu at_ hat w hw 0 (by
      rw [Finset.sum_eq_zero]
      intro s hs
      rw [Finset.mem_range] at hs
      rw [hv s (by omega), hv (s + 1) (by omega), sub_self, mul_zero])
    simp only [unitVec, Complex.ofReal_zero, zero_mul, Complex.exp_zero, mul_one] at this
    rcases this with e | e <;> rw [e] <;> simp

/-- C99, what holds: in segment `s` the robot is off by at most `s + 1` gaps between modules, if the modules'
positions average to the robot's origin.  Missing: being exactly there. -/
theorem C99_bound_partial (b : Builder ℝ) (dr : SwerveDrivetrain ℝ) (T : Traj) (h : Solves b dr T) (τ : ℕ → ℝ)
    (hc : Clock (table b).counts T τ) (x : Motion) (hx : x.Follows (table b).counts T τ)
    (hu : ‖(T.state 0).heading‖ = 1) (hcentre : (dr.modules.map fun m => vec m.translation).sum = 0)
    (hpos : ∀ m ∈ dr.modules, 0 ≤ m.wheelRadius * m.wheelMaxAngularVelocity)
    (i : ℕ) (hi : i + 1 < dr.modules.length) (g : ℝ) (hg0 : g ≠ 0)
    (hg : g = |dr.modules[i].translation.x - dr.modules[i + 1].translation.x| ∨
      g = |dr.modules[i].translation.y - dr.modules[i + 1].translation.y|)
    (s : ℕ) (hs : s < (table b).counts.length) (n : ℕ) (hn : n ∈ segmentSamples (table b).counts s) :
    ‖(T.state n).pos - x.pos (τ n)‖ ≤ (s + 1) * g := by
  have hgap : Gap dr g := by
    refine ⟨hg0, dr.modules[i], dr.modules[i + 1], ?_, hg⟩
    rw [List.mem_iff_getElem]
    refine ⟨i, by simp; omega, by simp⟩
  have hall := fun n hn => (C33_partial b dr T h).1 0 (by rw [sampleCount]; omega) hu n hn
  have hstep : ∀ s < (table b).counts.length, ∀ n < sampleCount (table b).counts,
      ∀ m < sampleCount (table b).counts, ‖(T.dt s : ℂ) / 2 * ((T.state n).vel - (T.state m).vel)‖ ≤ g := by
    intro s hs n hn m hm
    have h1 := speed_gap h hn (hall n hn) hcentre hpos hgap hs
    have h2 := speed_gap h hm (hall m hm) hcentre hpos hgap hs
    have hd := h.obeys.time s hs
    rw [norm_mul, norm_div, Complex.norm_real, Real.norm_of_nonneg hd, Complex.norm_ofNat]
    have := mul_le_mul_of_nonneg_left (norm_sub_le (T.state n).vel (T.state m).vel) hd
    rw [div_mul_eq_mul_div, div_le_iff₀ (by norm_num)]
    linarith
  rw [C99_segment b dr T h τ hc x hx s hs n _ rfl hn,
    C99_position b dr T h τ hc x hx _ rfl s hs.le]
  have hsum : ‖∑ k ∈ Finset.range s, (T.dt k : ℂ) / 2 * ((T.state (waypointSample (table b).counts (k + 1))).vel -
      (T.state (waypointSample (table b).counts k)).vel)‖ ≤ s * g := by
    refine (norm_sum_le_of_le (Finset.range s) (n := fun _ => g) fun k hk => ?_).trans (by simp)
    rw [Finset.mem_range] at hk
    exact hstep k (by omega) _ (waypointSample_lt _ _) _ (waypointSample_lt _ _)
  have hlast := hstep s hs n ((Finset.mem_Ioc.mp hn).2.trans_lt (waypointSample_lt _ _)) _
    (waypointSample_lt (table b).counts s)
  refine (norm_add_le _ _).trans ?_
  linarith

/-! ### When it does not -/

/-- Nine millimetres along the x axis from standstill, one control interval. -/
noncomputable def joltOps : List (Op ℝ) :=
  [.setDrivetrain weakRobot, .poseWpt 0 0 0 0, .poseWpt 1 (9 / 1000) 0 0,
    .wptConstraint 0 (.linearVelocityMaxMagnitude 0), .controlIntervalCounts [1]]

theorem jolt_table :
    let b := run true joltOps Builder.new
    Ready b weakRobot ∧ (table b).counts = [1] ∧ (table b).continuous 0 = [] ∧
    (table b).instant 0 = [.poseEquality 0 0 0, .linearVelocityMaxMagnitude 0] ∧
    (table b).instant 1 = [.poseEquality (9 / 1000) 0 0] := by
  intro b
  obtain ⟨e, hr⟩ : table b = PathTable.empty.afterAll joltOps ∧ Ready b weakRobot := by
    refine ready_of ?_ _ rfl ?_ ?_ ?_ <;>
    simp [joltOps, PathTable.AcceptsAll, PathTable.Accepts, PathTable.afterAll, PathTable.after,
      PathTable.empty, PathTable.reach, PathTable.requireAt, PathTable.guessAt, sampleCount]
  refine ⟨hr, ?_⟩
  rw [e]
  simp [joltOps, PathTable.afterAll, PathTable.after,
    PathTable.empty, PathTable.reach, PathTable.requireAt, PathTable.guessAt]

theorem jolt_solves : Solves (run true joltOps Builder.new) weakRobot stepTraj := by
  obtain ⟨hr, hc, hco, hi0, hi1⟩ := jolt_table
  refine (solves_iff ⟨true, _, rfl⟩ hr fun m hm => by rw [(weak_radius m hm).1]; norm_num).mpr
    ⟨?_, ?_, ?_, ?_, ?_, ?_⟩
  · rw [hc]
    intro s hs n hn
    obtain rfl : s = 0 := by simpa using hs
    simp only [segmentSamples, waypointSample, Finset.mem_Ioc, List.take, List.sum_cons, List.sum_nil] at hn
    obtain rfl : n = 1 := by omega
    refine ⟨?_, .inl (by simp [stepTraj, unitVec]), ?_, by simp [stepTraj]⟩
    all_goals norm_num [stepTraj, stepSample]
  · rw [hc]
    intro n hn
    simp only [sampleCount, List.sum_cons, List.sum_nil] at hn
    obtain rfl | rfl : n = 0 ∨ n = 1 := by omega
    all_goals exact weak_dynamics _ _ _ (by rw [abs_le]; norm_num [stepSample]) (by rw [abs_le]; norm_num [stepSample])
  · intro s hs; simp [stepTraj]
  · intro s hs m hm g hg
    rw [weak_gap g hg, (weak_radius m hm).1, (weak_radius m hm).2]
    norm_num [stepTraj]
  · rw [hc]
    intro w hw c hcm
    simp only [List.length_cons, List.length_nil] at hw
    have hu : unitVec 0 = 1 := by simp [unitVec]
    obtain rfl | rfl : w = 0 ∨ w = 1 := by omega
    · rw [hi0] at hcm
      simp only [List.mem_cons, List.not_mem_nil, or_false] at hcm
      rcases hcm with rfl | rfl
      · exact ⟨by apply Complex.ext <;> norm_num [stepTraj, stepSample, vec, waypointSample],
          .inl (by simp [stepTraj, hu])⟩
      · norm_num [Meaning, stepTraj, stepSample, waypointSample]
    · rw [hi1] at hcm
      simp only [List.mem_cons, List.not_mem_nil, or_false] at hcm
      subst hcm
      exact ⟨by apply Complex.ext <;> norm_num [stepTraj, stepSample, vec, waypointSample],
          .inl (by simp [stepTraj, hu])⟩
  · rw [hc]
    intro s hs c hcm
    obtain rfl : s = 0 := by simpa using hs
    rw [hco] at hcm
    simp at hcm

/-- C99 fails: there is a path that has solutions, and whatever the solution, a robot with its accelerations covers
only half the way from the first waypoint to the last. -/
theorem C99_refuted : ∃ ops : List (Op ℝ), ∃ dr, let b := run true ops Builder.new
    .poseEquality 0 0 0 ∈ (table b).instant 0 ∧ .poseEquality (9 / 1000) 0 0 ∈ (table b).instant 1 ∧
    (table b).counts.length = 1 ∧ (∃ T, Solves b dr T) ∧
    ∀ T, Solves b dr T → ∀ τ, Clock (table b).counts T τ → ∀ x : Motion, x.Follows (table b).counts T τ →
      x.pos (τ (waypointSample (table b).counts 0)) = 0 ∧
      x.pos (τ (waypointSample (table b).counts 1)) = (9 / 2000 : ℝ) := by
  obtain ⟨hr, hc, hco, hi0, hi1⟩ := jolt_table
  refine ⟨joltOps, weakRobot, by rw [hi0]; simp, by rw [hi1]; simp, by rw [hc]; rfl, ⟨_, jolt_solves⟩, ?_⟩
  intro T hT τ hτ x hx
  have hl : 1 ≤ (table (run true joltOps Builder.new)).counts.length := by rw [hc]; simp
  have p0 := (hT.obeys.instant 0 (by omega) (.poseEquality 0 0 0) (by rw [hi0]; simp)).1
  have v0 := hT.obeys.instant 0 (by omega) (.linearVelocityMaxMagnitude 0) (by rw [hi0]; simp)
  have p1 := (hT.obeys.instant 1 hl (.poseEquality (9 / 1000) 0 0) (by rw [hi1]; simp)).1
  have hx1 := C99_position _ _ T hT τ hτ x hx _ rfl 1 hl
  have hi := (hT.obeys.interval 0 hl 1 (by rw [hc]; simp [segmentSamples, waypointSample])).pos
  have hp := hx.pos₀
  have hw : waypointSample (table (run true joltOps Builder.new)).counts 0 = 0 ∧
      waypointSample (table (run true joltOps Builder.new)).counts 1 = 1 := by
    rw [hc]; simp [waypointSample]
  simp only [Meaning, hw.1, hw.2, Finset.sum_range_one, Nat.zero_add, Nat.sub_self, abs_zero, norm_le_zero_iff]
    at p0 v0 p1 hx1 hi ⊢
  rw [p0] at hp hi
  rw [v0, p1, sub_zero] at hx1
  rw [p1] at hi
  have z : vec ⟨(0 : ℝ), 0⟩ = 0 := rfl
  have q : vec ⟨(9 / 1000 : ℝ), 0⟩ = (9 / 1000 : ℝ) := rfl
  rw [z] at hp hi
  rw [q] at hx1 hi
  refine ⟨hp, ?_⟩
  push_cast at *
  linear_combination -hx1 + hi / 2

/-- Nine millimetres from standstill to standstill (`stepTraj`): a robot with these accelerations arrives. -/
example : ∃ (τ : ℕ → ℝ) (x : Motion), x.Follows [2] stepTraj τ ∧ Clock [2] stepTraj τ ∧
    x.pos (τ 0) = 0 ∧ x.vel (τ 1) = (9 / 1000 : ℝ) ∧ x.pos (τ 2) = (9 / 1000 : ℝ) := by
  obtain ⟨hr, hc, -⟩ := step_table 0 (9 / 1000)
  have h := step_solves
  obtain ⟨τ, x, -, hτ, hx⟩ := C99_exists _ _ _ h
  have h1 := (C99_velocity _ _ _ h τ hτ x hx 1 (by rw [hc]; simp [sampleCount])).1
  have h2 := (C99_same_partial _ _ _ h τ hτ x hx _ rfl 1 (by rw [hc]; simp)).1 (by
    intro i hi
    rw [hc]
    obtain rfl | rfl : i = 0 ∨ i = 1 := by omega
    all_goals norm_num [waypointSample, stepTraj, stepSample])
  have h0 := hx.pos₀
  rw [hc] at hτ hx h2
  refine ⟨τ, x, hx, hτ, ?_, ?_, ?_⟩
  · rw [h0]; norm_num [stepTraj, stepSample]
  · rw [h1]; norm_num [stepTraj, stepSample]
  · rw [show waypointSample [2] 1 = 2 by simp [waypointSample]] at h2
    rw [h2]; norm_num [stepTraj, stepSample]

/-- On the way it is at most one gap (ten metres) off; in fact it is half way when the sample says it has arrived. -/
example (τ : ℕ → ℝ) (x : Motion) (hτ : Clock (table (run true (stepOps 0 (9 / 1000)) Builder.new)).counts stepTraj τ)
    (hx : x.Follows (table (run true (stepOps 0 (9 / 1000)) Builder.new)).counts stepTraj τ) :
    ‖(stepTraj.state 1).pos - x.pos (τ 1)‖ ≤ 10 ∧ x.pos (τ 1) = (9 / 2000 : ℝ) := by
  obtain ⟨hr, hc, -⟩ := step_table 0 (9 / 1000)
  have hs : 0 < (table (run true (stepOps 0 (9 / 1000)) Builder.new)).counts.length := by rw [hc]; simp
  have hn : 1 ∈ segmentSamples (table (run true (stepOps 0 (9 / 1000)) Builder.new)).counts 0 := by
    rw [hc]; simp [segmentSamples, waypointSample]
  have h1 := C99_bound_partial _ weakRobot _ step_solves τ hτ x hx (by simp [stepTraj])
    (by simp [weakRobot, vec, Complex.ext_iff])
    (fun m hm => by rw [(weak_radius m hm).1, (weak_radius m hm).2]; norm_num)
    0 (by simp [weakRobot]) 10 (by norm_num) (.inr (by norm_num [weakRobot])) 0 hs 1 hn
  have h2 := C99_segment _ _ _ step_solves τ hτ x hx 0 hs 1 0 (by simp [waypointSample]) hn
  rw [hx.pos₀] at h2
  refine ⟨by simpa using h1, ?_⟩
  norm_num [stepTraj, stepSample] at h2 ⊢
  linear_combination -h2

end Trajopt.Props
