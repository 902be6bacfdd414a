import Verif.Props.Throttle
import Verif.Spec.Turn

/-!
# C106: turning takes time

Up to half turns, which are free.
-/

set_option autoImplicit false

namespace Trajopt.Props

open Trajopt Spec

/-! ### Sequences that rise and fall -/

theorem tent_bound {w : ℕ → ℝ} {N : ℕ} {a : ℝ} (h0 : w 0 = 0) (hN : w N = 0)
    (hs : ∀ k < N, |w (k + 1) - w k| ≤ a) {k : ℕ} (hk : k ≤ N) : |w k| ≤ a * (min k (N - k) : ℕ) := by
  have up : ∀ k ≤ N, |w k| ≤ a * k := by
    intro k hk
    induction k with
    | zero => simp [h0]
    | succ k ih =>
      have h1 := ih (by omega)
      have h2 := hs k (by omega)
      have := abs_sub_abs_le_abs_sub (w (k + 1)) (w k)
      push_cast
      linarith
  have down : ∀ k ≤ N, |w (N - k)| ≤ a * k := by
    intro k hk
    induction k with
    | zero => simp [hN]
    | succ k ih =>
      have h1 := ih (by omega)
      have h2 := hs (N - (k + 1)) (by omega)
      rw [show N - (k + 1) + 1 = N - k by omega, abs_sub_comm] at h2
      have := abs_sub_abs_le_abs_sub (w (N - (k + 1))) (w (N - k))
      push_cast
      linarith
  rcases le_total k (N - k) with h | h
  · rw [min_eq_left h]; exact up k hk
  · rw [min_eq_right h]
    have := down (N - k) (by omega)
    rwa [Nat.sub_sub_self hk] at this

theorem tent_sum {w : ℕ → ℝ} {N : ℕ} {a : ℝ} (h0 : w 0 = 0) (hN : w N = 0)
    (hs : ∀ k < N, |w (k + 1) - w k| ≤ a) :
    |∑ k ∈ Finset.range N, w (k + 1)| ≤ a * (N ^ 2 / 4 : ℕ) ∧
    (|∑ k ∈ Finset.range N, w (k + 1)| = a * (N ^ 2 / 4 : ℕ) → ∀ k ≤ N, |w k| = a * (min k (N - k) : ℕ)) := by
  have hle : ∀ k < N, |w (k + 1)| ≤ a * (min (k + 1) (N - (k + 1)) : ℕ) :=
    fun k hk => tent_bound h0 hN hs (by omega)
  have hsum : ∑ k ∈ Finset.range N, a * ((min (k + 1) (N - (k + 1)) : ℕ) : ℝ) = a * (N ^ 2 / 4 : ℕ) := by
    rw [← Finset.mul_sum, ← Nat.cast_sum, sum_tent]
  have h1 := Finset.abs_sum_le_sum_abs (fun k => w (k + 1)) (Finset.range N)
  have h2 := Finset.sum_le_sum fun k hk => hle k (Finset.mem_range.mp hk)
  rw [hsum] at h2
  refine ⟨h1.trans h2, fun heq k hk => ?_⟩
  rcases k with _ | k
  · simp [h0]
  · have h3 : ∑ k ∈ Finset.range N, |w (k + 1)| =
        ∑ k ∈ Finset.range N, a * ((min (k + 1) (N - (k + 1)) : ℕ) : ℝ) := by
      rw [hsum]; exact le_antisymm h2 (heq ▸ h1)
    exact (Finset.sum_eq_sum_iff_of_le fun k hk => hle k (Finset.mem_range.mp hk)).mp h3 k
      (Finset.mem_range.mpr (by omega))

/-- An angle of at most a quarter turn is the smallest with its direction, up to sign of the direction. -/
theorem smallest {θ φ : ℝ} (hθ : |θ| ≤ Real.pi / 2) (h : unitVec φ = unitVec θ ∨ unitVec φ = -unitVec θ) :
    |θ| ≤ |φ| := by
  by_contra hlt
  rw [not_le] at hlt
  have hpi := Real.pi_pos
  have hd : unitVec (φ - θ) = 1 ∨ unitVec (φ - θ) = -1 := by
    have e : unitVec (φ - θ) = unitVec φ * unitVec (-θ) := by rw [← unitVec_add, sub_eq_add_neg]
    have e1 : unitVec θ * unitVec (-θ) = 1 := by rw [← unitVec_add]; simp [unitVec]
    rcases h with h | h <;> rw [e, h]
    · exact .inl e1
    · right; linear_combination -e1
  have hs : Real.sin (φ - θ) = 0 := by
    rcases hd with h | h <;> simpa [unitVec_mk] using congrArg Complex.im h
  rw [abs_lt] at hlt
  have hθ' := abs_le.mp hθ
  have h1 : |φ - θ| < Real.pi := by
    rw [abs_lt]
    rcases abs_cases θ with ⟨e, _⟩ | ⟨e, _⟩ <;> constructor <;> linarith
  have h2 := abs_lt.mp h1
  have : φ - θ = 0 := by
    rcases lt_trichotomy (φ - θ) 0 with h | h | h
    · have := Real.sin_pos_of_pos_of_lt_pi (x := -(φ - θ)) (by linarith) (by linarith)
      rw [Real.sin_neg] at this
      linarith
    · exact h
    · have := Real.sin_pos_of_pos_of_lt_pi h h2.2
      linarith
  have : φ = θ := by linarith
  rw [this] at hlt
  rcases abs_cases θ with ⟨e, _⟩ | ⟨e, _⟩ <;> linarith

section Segment
variable {b : Builder ℝ} {dr : SwerveDrivetrain ℝ} {T : Traj} (h : Solves b dr T) {s : ℕ}
  (hs : s < (table b).counts.length)
include h hs

theorem segment_heading {k : ℕ} (hk : k ≤ (table b).counts[s])
    (hu : ‖(T.state (waypointSample (table b).counts s)).heading‖ = 1) :
    ∃ σ : ℂ, (σ = 1 ∨ σ = -1) ∧ (T.state (waypointSample (table b).counts s + k)).heading =
      σ * (T.state (waypointSample (table b).counts s)).heading *
        unitVec (T.dt s * ∑ i ∈ Finset.range k, (T.state (waypointSample (table b).counts s + (i + 1))).omega) := by
  induction k with
  | zero => exact ⟨1, .inl rfl, by simp [unitVec]⟩
  | succ k ih =>
    obtain ⟨σ, hσ, hk'⟩ := ih (by omega)
    have hn : ‖(T.state (waypointSample (table b).counts s + k)).heading‖ = 1 := by
      rw [hk', norm_mul, norm_mul, hu, unitVec, Complex.norm_exp_ofReal_mul_I]
      rcases hσ with rfl | rfl <;> simp
    have hc : (T.state (waypointSample (table b).counts s + k)).heading *
        (starRingEnd ℂ) (T.state (waypointSample (table b).counts s + k)).heading = 1 := by
      rw [Complex.mul_conj, Complex.normSq_eq_norm_sq, hn]; simp
    have e : T.dt s * ∑ i ∈ Finset.range (k + 1), (T.state (waypointSample (table b).counts s + (i + 1))).omega =
        T.dt s * ∑ i ∈ Finset.range k, (T.state (waypointSample (table b).counts s + (i + 1))).omega +
          (T.state (waypointSample (table b).counts s + (k + 1))).omega * T.dt s := by
      rw [Finset.sum_range_succ]; ring
    rw [e, unitVec_add]
    rcases (segment_step h hs (k := k) (by omega)).turn with t | t
    · refine ⟨σ, hσ, ?_⟩
      rw [← t, ← mul_assoc, ← hk']
      linear_combination -(T.state (waypointSample (table b).counts s + (k + 1))).heading * hc
    · refine ⟨-σ, by rcases hσ with rfl | rfl <;> simp, ?_⟩
      rw [show unitVec ((T.state (waypointSample (table b).counts s + (k + 1))).omega * T.dt s) =
        -((T.state (waypointSample (table b).counts s + (k + 1))).heading *
          (starRingEnd ℂ) (T.state (waypointSample (table b).counts s + k)).heading) by rw [t, neg_neg]]
      linear_combination -(T.state (waypointSample (table b).counts s + (k + 1))).heading * hc +
        (T.state (waypointSample (table b).counts s + (k + 1))).heading *
          (starRingEnd ℂ) (T.state (waypointSample (table b).counts s + k)).heading * hk'

theorem segment_twist (hm : 0 < dr.moi)
    (hu : ‖(T.state (waypointSample (table b).counts s)).heading‖ = 1) {k : ℕ} (hk : k < (table b).counts[s]) :
    |(T.state (waypointSample (table b).counts s + (k + 1))).omega -
      (T.state (waypointSample (table b).counts s + k)).omega| ≤ topTwist dr * T.dt s := by
  have hn : ‖(T.state (waypointSample (table b).counts s + (k + 1))).heading‖ = 1 := by
    obtain ⟨σ, hσ, e⟩ := segment_heading h hs (k := k + 1) (by omega) hu
    rw [e, norm_mul, norm_mul, hu, unitVec, Complex.norm_exp_ofReal_mul_I]
    rcases hσ with rfl | rfl <;> simp
  rw [(segment_step h hs hk).omega, add_sub_cancel_left, abs_mul, abs_of_nonneg (h.obeys.time s hs), mul_comm]
  exact mul_le_mul_of_nonneg_right ((C36_acceleration b dr T h _ (sample_bound hs hk)).2 hm hn)
    (h.obeys.time s hs)

end Segment

theorem turn_between (b : Builder ℝ) (dr : SwerveDrivetrain ℝ) (T : Traj) (h : Solves b dr T)
    (s : ℕ) (hs : s < (table b).counts.length) (θ : ℝ) (hθ : |θ| ≤ Real.pi / 2)
    (hu : ‖(T.state (waypointSample (table b).counts s)).heading‖ = 1)
    (hend : (T.state (waypointSample (table b).counts (s + 1))).heading =
        (T.state (waypointSample (table b).counts s)).heading * unitVec θ ∨
      (T.state (waypointSample (table b).counts (s + 1))).heading =
        -(T.state (waypointSample (table b).counts s)).heading * unitVec θ) :
    |θ| ≤ |T.dt s * ∑ i ∈ Finset.range (table b).counts[s],
      (T.state (waypointSample (table b).counts s + (i + 1))).omega| := by
  obtain ⟨σ, hσ, e⟩ := segment_heading h hs le_rfl hu
  rw [← segment_end hs] at e
  have hne : (T.state (waypointSample (table b).counts s)).heading ≠ 0 := by
    rw [← norm_ne_zero_iff, hu]; norm_num
  refine smallest hθ ?_
  rw [e] at hend
  have key : ∀ z w : ℂ, (T.state (waypointSample (table b).counts s)).heading * z =
    (T.state (waypointSample (table b).counts s)).heading * w → z = w := fun z w => mul_left_cancel₀ hne
  rcases hσ with rfl | rfl <;> rcases hend with hend | hend
  · exact .inl (key _ _ (by linear_combination hend))
  · exact .inr (key _ _ (by linear_combination hend))
  · exact .inr (key _ _ (by linear_combination -hend))
  · exact .inl (key _ _ (by linear_combination -hend))

/-- C106, what holds: along a segment between samples without angular velocity the robot turns, half turns
aside, by no more than its wheels' torque can turn it.  Missing: half turns, which take no time. -/
theorem C106_angle_partial (b : Builder ℝ) (dr : SwerveDrivetrain ℝ) (T : Traj) (h : Solves b dr T)
    (hm : 0 < dr.moi) (s : ℕ) (hs : s < (table b).counts.length) (θ : ℝ) (hθ : |θ| ≤ Real.pi / 2) :
    let start := T.state (waypointSample (table b).counts s)
    let stop := T.state (waypointSample (table b).counts (s + 1))
    let N := (table b).counts[s]
    ‖start.heading‖ = 1 → start.omega = 0 → stop.omega = 0 →
    (stop.heading = start.heading * unitVec θ ∨ stop.heading = -start.heading * unitVec θ) →
    |θ| ≤ topTwist dr * T.dt s ^ 2 * (N ^ 2 / 4 : ℕ) := by
  intro start stop N hu h0 h1 hend
  have ht := h.obeys.time s hs
  have hw := tent_sum (w := fun k => (T.state (waypointSample (table b).counts s + k)).omega) (N := N)
    (a := topTwist dr * T.dt s) h0 (by
      have := h1
      simp only [stop, segment_end hs] at this
      exact this) (fun k hk => segment_twist h hs hm hu hk)
  refine (turn_between b dr T h s hs θ hθ hu hend).trans ?_
  rw [abs_mul, abs_of_nonneg ht]
  calc _ ≤ T.dt s * (topTwist dr * T.dt s * (N ^ 2 / 4 : ℕ)) := mul_le_mul_of_nonneg_left hw.1 ht
    _ = _ := by ring

/-- C106, what holds: turning by up to a quarter turn, half turns aside, takes at least twice the square root of angle
over top angular acceleration, in whatever number of control intervals. -/
theorem C106_time_partial (b : Builder ℝ) (dr : SwerveDrivetrain ℝ) (T : Traj) (h : Solves b dr T)
    (hm : 0 < dr.moi) (hA : 0 < topTwist dr) (s : ℕ) (hs : s < (table b).counts.length) (θ : ℝ)
    (hθ : |θ| ≤ Real.pi / 2) :
    let start := T.state (waypointSample (table b).counts s)
    let stop := T.state (waypointSample (table b).counts (s + 1))
    ‖start.heading‖ = 1 → start.omega = 0 → stop.omega = 0 →
    (stop.heading = start.heading * unitVec θ ∨ stop.heading = -start.heading * unitVec θ) →
    2 * √(|θ| / topTwist dr) ≤ (table b).counts[s] * T.dt s := by
  intro start stop hu h0 h1 hend
  have hd := C106_angle_partial b dr T h hm s hs θ hθ hu h0 h1 hend
  have ht := h.obeys.time s hs
  set N := (table b).counts[s]
  have hN : ((N ^ 2 / 4 : ℕ) : ℝ) ≤ (N : ℝ) ^ 2 / 4 := by
    have := @Nat.cast_div_le ℝ _ _ _ (N ^ 2) 4
    exact_mod_cast this
  have h2 : |θ| / topTwist dr ≤ (N * T.dt s / 2) ^ 2 := by
    rw [div_le_iff₀ hA]
    have := mul_le_mul_of_nonneg_left hN (show 0 ≤ topTwist dr * T.dt s ^ 2 by positivity)
    nlinarith
  have h3 := Real.sqrt_le_sqrt h2
  rw [Real.sqrt_sq (by positivity)] at h3
  linarith

/-- Turn faster for half of the `N` control intervals, slower for the other half; `A` is signed. -/
noncomputable def turnTraj (dr : SwerveDrivetrain ℝ) (p : ℂ) (θ A dt ρ : ℝ) (N : ℕ) : Traj :=
  let alpha := fun n : ℕ => if n = 0 then 0 else
    A * (((min n (N - n) : ℕ) : ℝ) - (min (n - 1) (N - (n - 1)) : ℕ))
  let heading := fun n => unitVec (θ + A * dt ^ 2 * (∑ k ∈ Finset.range n, min (k + 1) (N - (k + 1)) : ℕ))
  { state := fun n => ⟨p, heading n, 0, 0, A * dt * (min n (N - n) : ℕ), alpha n⟩
    force := fun n j => (dr.moi * alpha n / (dr.modules.length * ρ ^ 2) : ℝ) * Complex.I *
      (((dr.modules[j]?).elim 0 fun m => vec m.translation) * heading n)
    dt := fun _ => dt }

/-- C106: the fastest turn on the spot by an angle of up to a quarter turn, without angular velocity at both ends, for
a robot with equal wheels on a circle: full twist, then full brake; it takes `N √(|δ| / (A ⌊N²/4⌋))`,
provided that the wheels can roll that fast and the step cap allows it. -/
theorem C106_fastest (dr : SwerveDrivetrain ℝ) (F V ρ : ℝ) (hu : Ring dr F V ρ)
    (b : Builder ℝ) (hb : Reachable b) (hr : Ready b dr) (N : ℕ) (hN : 2 ≤ N)
    (hcounts : (table b).counts = [N]) (hcont : (table b).continuous 0 = [])
    (p : ℂ) (θ δ : ℝ) (hδ0 : δ ≠ 0) (hδ : |δ| ≤ Real.pi / 2)
    (h0 : ∀ s : State, (∀ c ∈ (table b).instant 0, Meaning c s) →
      (s.heading = unitVec θ ∨ s.heading = -unitVec θ) ∧ s.omega = 0)
    (h1 : ∀ s : State, (∀ c ∈ (table b).instant 1, Meaning c s) →
      (s.heading = unitVec (θ + δ) ∨ s.heading = -unitVec (θ + δ)) ∧ s.omega = 0)
    (h0' : ∀ a, ∀ c ∈ (table b).instant 0, Meaning c ⟨p, unitVec θ, 0, 0, 0, a⟩)
    (h1' : ∀ a, ∀ c ∈ (table b).instant 1, Meaning c ⟨p, unitVec (θ + δ), 0, 0, 0, a⟩)
    (dt : ℝ) (hdt : dt = √(|δ| / (topTwist dr * (N ^ 2 / 4 : ℕ))))
    (hspeed : topTwist dr * dt * (N / 2 : ℕ) * ρ ≤ V) (hcap : ∀ g, Gap dr g → dt * V ≤ g) :
    (∃ T, Fastest b dr T) ∧
    ∀ T, Fastest b dr T → timeTaken (table b).counts T = N * dt ∧
      ∀ n ≤ N, |(T.state n).omega| = topTwist dr * dt * (min n (N - n) : ℕ) := by
  set A := topTwist dr with hAdef
  set Q : ℕ := N ^ 2 / 4 with hQ
  have hD0 : 0 < |δ| := abs_pos.mpr hδ0
  have hQ0 : 0 < Q := Nat.div_pos (by nlinarith) (by norm_num)
  have hQr : (0 : ℝ) < Q := by exact_mod_cast hQ0
  have hM : 0 < dr.modules.length := List.length_pos_iff.mpr hu.some
  have hMr : (0 : ℝ) < dr.modules.length := by exact_mod_cast hM
  have hF := hu.force_pos
  have hI := hu.moi
  have hρ := hu.far
  have hA : A = dr.modules.length * (ρ * F) / dr.moi := by
    rw [hAdef, topTwist, List.map_congr_left (g := fun _ => ρ * F) fun m hm => by rw [hu.circle m hm, hu.force m hm]]
    simp
  have hA0 : 0 < A := by rw [hA]; positivity
  have hdt0 : 0 < dt := by rw [hdt]; positivity
  have hAQ : A * dt ^ 2 * Q = |δ| := by
    rw [hdt, Real.sq_sqrt (by positivity)]
    field_simp
  have hw0 : waypointSample (table b).counts 0 = 0 := by simp [waypointSample]
  have hw1 : waypointSample (table b).counts 1 = N := by simp [hcounts, waypointSample]
  have hs0 : 0 < (table b).counts.length := by rw [hcounts]; simp
  have hget : (table b).counts[0] = N := by simp [hcounts]
  have htime : ∀ T : Traj, timeTaken (table b).counts T = N * T.dt 0 := by
    intro T; rw [hcounts]; simp [timeTaken]
  have hnorm : ∀ φ : ℝ, ‖unitVec φ‖ = 1 := fun φ => by rw [unitVec]; exact Complex.norm_exp_ofReal_mul_I φ
  have ends : ∀ T, Solves b dr T → (‖(T.state 0).heading‖ = 1 ∧ (T.state 0).omega = 0) ∧ (T.state N).omega = 0 ∧
      ((T.state N).heading = (T.state 0).heading * unitVec δ ∨
        (T.state N).heading = -(T.state 0).heading * unitVec δ) := by
    intro T hT
    have a0 := h0 _ (hT.obeys.instant 0 (by omega))
    have a1 := h1 _ (hT.obeys.instant 1 (by omega))
    rw [hw0] at a0
    rw [hw1] at a1
    refine ⟨⟨?_, a0.2⟩, a1.2, ?_⟩
    · rcases a0.1 with e | e <;> rw [e]
      · exact hnorm θ
      · rw [norm_neg, hnorm θ]
    · rw [unitVec_add] at a1
      rcases a0.1 with e | e <;> rcases a1.1 with e' | e' <;> rw [e, e'] <;> simp
  have lower : ∀ T, Solves b dr T → dt ≤ T.dt 0 := by
    intro T hT
    obtain ⟨⟨p0, v0⟩, v1, p1⟩ := ends T hT
    have hd := C106_angle_partial b dr T hT hI 0 hs0 δ hδ (by rw [hw0]; exact p0) (by rw [hw0]; exact v0)
      (by rw [Nat.zero_add, hw1]; exact v1) (by rw [hw0, Nat.zero_add, hw1]; exact p1)
    rw [hget, ← hAQ, ← hAdef] at hd
    have h2 : dt ^ 2 ≤ T.dt 0 ^ 2 := by
      have : A * Q * dt ^ 2 ≤ A * Q * T.dt 0 ^ 2 := by linarith
      exact le_of_mul_le_mul_left this (by positivity)
    exact le_of_sq_le_sq h2 (hT.obeys.time 0 hs0)
  have hjump : ∀ n, 0 < n → n ≤ N →
      |((min n (N - n) : ℕ) : ℝ) - (min (n - 1) (N - (n - 1)) : ℕ)| ≤ 1 := by
    intro n hn0 hn
    rw [abs_le]
    have a : min (n - 1) (N - (n - 1)) ≤ min n (N - n) + 1 := by omega
    have c : min n (N - n) ≤ min (n - 1) (N - (n - 1)) + 1 := by omega
    have a' : ((min (n - 1) (N - (n - 1)) : ℕ) : ℝ) ≤ (min n (N - n) : ℕ) + 1 := by exact_mod_cast a
    have c' : ((min n (N - n) : ℕ) : ℝ) ≤ (min (n - 1) (N - (n - 1)) : ℕ) + 1 := by exact_mod_cast c
    constructor <;> linarith
  have seg : ∀ s < (table b).counts.length, s = 0 := by
    intro s hs; rw [hcounts] at hs; simpa using hs
  obtain ⟨B, hB, hBQ⟩ : ∃ B, |B| = A ∧ B * dt ^ 2 * Q = δ := by
    rcases abs_cases δ with ⟨e, _⟩ | ⟨e, _⟩
    · exact ⟨A, abs_of_pos hA0, by rw [hAQ, e]⟩
    · exact ⟨-A, by rw [abs_neg, abs_of_pos hA0], by linarith⟩
  have solves : Solves b dr (turnTraj dr p θ B dt ρ N) := by
    refine (solves_iff hb hr hu.radius).mpr ⟨?_, ?_, ?_, ?_, ?_, ?_⟩
    · intro s hs n hn
      obtain rfl := seg s hs
      simp only [segmentSamples, hw0, Nat.zero_add, hw1, Finset.mem_Ioc] at hn
      obtain ⟨k, rfl⟩ : ∃ k, n = k + 1 := ⟨n - 1, by omega⟩
      constructor
      · simp [turnTraj]
      · left
        simp only [turnTraj, Nat.add_sub_cancel]
        rw [Finset.sum_range_succ]
        push_cast
        rw [show θ + B * dt ^ 2 * (∑ i ∈ Finset.range k, ((min ((i : ℝ) + 1) ((N - (i + 1) : ℕ) : ℝ))) +
            min ((k : ℝ) + 1) ((N - (k + 1) : ℕ) : ℝ)) =
          (B * dt * min ((k : ℝ) + 1) ((N - (k + 1) : ℕ) : ℝ)) * dt +
          (θ + B * dt ^ 2 * ∑ i ∈ Finset.range k, ((min ((i : ℝ) + 1) ((N - (i + 1) : ℕ) : ℝ)))) by ring,
          unitVec_add, mul_assoc, Complex.mul_conj, Complex.normSq_eq_norm_sq, hnorm]
        simp
      · simp [turnTraj]
      · simp only [turnTraj, Nat.add_sub_cancel]
        rw [if_neg (Nat.succ_ne_zero k)]
        ring
    · intro n hn
      have hn' : n ≤ N := by
        rw [hcounts] at hn
        simp only [sampleCount, List.sum_singleton] at hn
        omega
      set a := ((turnTraj dr p θ B dt ρ N).state n).alpha with ha
      set hd := ((turnTraj dr p θ B dt ρ N).state n).heading with hhd
      have hhn : ‖hd‖ = 1 := hnorm _
      have hforce : ∀ j : Fin dr.modules.length, (turnTraj dr p θ B dt ρ N).force n j =
          (dr.moi * a / (dr.modules.length * ρ ^ 2) : ℝ) * Complex.I * (vec dr.modules[j].translation * hd) := by
        intro j
        change _ * Complex.I * (((dr.modules[(j : ℕ)]?).elim 0 fun m => vec m.translation) * _) = _
        rw [List.getElem?_eq_getElem j.2]
        rfl
      have hacc : |a| ≤ A := by
        rcases Nat.eq_zero_or_pos n with rfl | hn0
        · rw [ha]; simpa [turnTraj] using hA0.le
        · rw [ha]
          simp only [turnTraj]
          rw [if_neg hn0.ne', abs_mul, hB]
          exact mul_le_of_le_one_right hA0.le (hjump n hn0 hn')
      refine ⟨?_, ?_, ?_, ?_⟩
      · simp only [hforce]
        have hc : ∑ j : Fin dr.modules.length, vec dr.modules[j].translation = 0 := by
          have := hu.centred
          rw [← List.ofFn_getElem_eq_map, List.sum_ofFn] at this
          exact this
        rw [← Finset.mul_sum, ← Finset.sum_mul, hc]
        simp [turnTraj]
      · simp only [hforce]
        change ∑ j : Fin dr.modules.length, torque (vec dr.modules[j].translation * hd) _ = dr.moi * a
        have each : ∀ j : Fin dr.modules.length, torque (vec dr.modules[j].translation * hd)
            ((dr.moi * a / (dr.modules.length * ρ ^ 2) : ℝ) * Complex.I * (vec dr.modules[j].translation * hd)) =
            dr.moi * a / dr.modules.length := by
          intro j
          have hr := hu.circle dr.modules[j] (List.getElem_mem j.2)
          rw [torque, mul_left_comm, mul_comm ((starRingEnd ℂ) _), Complex.mul_conj, Complex.normSq_eq_norm_sq,
            norm_mul, hr, hhn, mul_one, mul_right_comm, ← Complex.ofReal_mul, Complex.im_ofReal_mul, Complex.I_im]
          field_simp
        rw [Finset.sum_congr rfl fun j _ => each j]
        simp only [Finset.sum_const, Finset.card_univ, Fintype.card_fin, nsmul_eq_mul]
        field_simp
      · intro m hm
        rw [maxSpeed, hu.speed m hm]
        refine le_trans ?_ (hspeed.trans (le_abs_self _))
        simp only [wheelVelocity, turnTraj, mul_zero, zero_add, norm_mul, Complex.norm_I, one_mul,
          Complex.norm_real, Real.norm_eq_abs, hu.circle m hm, hB, abs_of_pos hdt0, Nat.abs_cast]
        have : min n (N - n) ≤ N / 2 := by omega
        have : ((min n (N - n) : ℕ) : ℝ) ≤ (N / 2 : ℕ) := by exact_mod_cast this
        gcongr
      · intro j
        have hmem := List.getElem_mem j.2
        rw [hforce, hu.force dr.modules[j] hmem, norm_mul, norm_mul, Complex.norm_I, mul_one, norm_mul, hhn, mul_one,
          hu.circle dr.modules[j] hmem, Complex.norm_real, Real.norm_eq_abs, abs_div, abs_mul, abs_of_pos hI,
          abs_of_pos (by positivity : (0 : ℝ) < dr.modules.length * ρ ^ 2)]
        rw [hA] at hacc
        calc dr.moi * |a| / (dr.modules.length * ρ ^ 2) * ρ
            ≤ dr.moi * (dr.modules.length * (ρ * F) / dr.moi) / (dr.modules.length * ρ ^ 2) * ρ := by gcongr
          _ = F := by field_simp
    · intro s hs; exact hdt0.le
    · intro s hs m hm g hg
      simp only [turnTraj]
      rw [mul_assoc, hu.speed m hm]
      exact hcap g hg
    · intro w hw c hc
      have hw' : w = 0 ∨ w = 1 := by rw [hcounts, List.length_singleton] at hw; omega
      rcases hw' with rfl | rfl
      · rw [hw0]
        have := h0' 0 c hc
        simpa [turnTraj] using this
      · rw [hw1]
        have e : (turnTraj dr p θ B dt ρ N).state N =
            ⟨p, unitVec (θ + δ), 0, 0, 0, ((turnTraj dr p θ B dt ρ N).state N).alpha⟩ := by
          simp only [turnTraj, sum_tent, ← hQ, hBQ, Nat.sub_self, Nat.min_zero, Nat.cast_zero, mul_zero]
        rw [e]
        exact h1' _ c hc
    · intro s hs c hc
      obtain rfl := seg s hs
      rw [hcont] at hc
      simp at hc
  refine ⟨⟨_, solves, fun T' hT' => ?_⟩, ?_⟩
  · rw [htime, htime]
    exact mul_le_mul_of_nonneg_left (lower T' hT') (by positivity)
  · intro T hT
    have heq : T.dt 0 = dt := by
      refine le_antisymm ?_ (lower T hT.solves)
      have := hT.least _ solves
      rw [htime, htime] at this
      exact le_of_mul_le_mul_left this (by have : 0 < N := by omega
                                           exact_mod_cast this)
    refine ⟨by rw [htime, heq], ?_⟩
    obtain ⟨⟨p0, v0⟩, v1, p1⟩ := ends T hT.solves
    have hle := turn_between b dr T hT.solves 0 hs0 δ hδ (by rw [hw0]; exact p0) (by rw [hw0, Nat.zero_add, hw1]; exact p1)
    have hst : ∀ k < N, |(T.state (k + 1)).omega - (T.state k).omega| ≤ A * dt := by
      intro k hk
      have := segment_twist hT.solves hs0 hI (by rw [hw0]; exact p0) (k := k) (by rw [hget]; exact hk)
      rwa [hw0, Nat.zero_add, Nat.zero_add, heq] at this
    have hw := tent_sum (w := fun k => (T.state k).omega) v0 v1 hst
    refine hw.2 (le_antisymm hw.1 ?_)
    rw [heq, hget, hw0, abs_mul, abs_of_pos hdt0, ← hAQ] at hle
    simp only [Nat.zero_add] at hle
    refine le_of_mul_le_mul_left ?_ hdt0
    calc dt * (A * dt * Q) = A * dt ^ 2 * Q := by ring
      _ ≤ _ := hle

/-! ### Cases -/

/-- Turn to the heading `ψ` on the spot in two control intervals, without angular velocity at both ends. -/
noncomputable def spinOps (ψ : ℝ) : List (Op ℝ) :=
  [.setDrivetrain demoRobot, .poseWpt 0 0 0 0, .poseWpt 1 0 0 ψ, .wptConstraint 0 (.angularVelocityMaxMagnitude 0),
    .wptConstraint 1 (.angularVelocityMaxMagnitude 0), .controlIntervalCounts [2]]

theorem spin_table (ψ : ℝ) :
    let b := run true (spinOps ψ) Builder.new
    Ready b demoRobot ∧ (table b).counts = [2] ∧ (table b).continuous 0 = [] ∧
    (table b).instant 0 = [.poseEquality 0 0 0, .angularVelocityMaxMagnitude 0] ∧
    (table b).instant 1 = [.poseEquality 0 0 ψ, .angularVelocityMaxMagnitude 0] := by
  intro b
  obtain ⟨e, hr⟩ : table b = PathTable.empty.afterAll (spinOps ψ) ∧ Ready b demoRobot := by
    refine ready_of ?_ _ rfl ?_ ?_ ?_ <;>
    simp [spinOps, PathTable.AcceptsAll, PathTable.Accepts, PathTable.afterAll, PathTable.after,
      PathTable.empty, PathTable.reach, PathTable.requireAt, PathTable.guessAt, sampleCount]
  refine ⟨hr, ?_⟩
  rw [e]
  simp [spinOps, PathTable.afterAll, PathTable.after,
    PathTable.empty, PathTable.reach, PathTable.requireAt, PathTable.guessAt]

theorem demo_ring : Ring demoRobot 2 2 √2 where
  some := by simp [demoRobot]
  centred := by simp [demoRobot, vec, Complex.ext_iff]
  moi := by norm_num [demoRobot]
  force_pos := by norm_num
  far := by positivity
  circle := by
    intro m hm
    simp only [demoRobot, List.mem_cons, List.not_mem_nil, or_false] at hm
    rcases hm with rfl | rfl | rfl | rfl <;> simp [vec, Complex.norm_def, Complex.normSq_apply] <;> norm_num
  radius := demo_radius
  force := by
    intro m hm
    simp only [demoRobot, List.mem_cons, List.not_mem_nil, or_false] at hm
    rcases hm with rfl | rfl | rfl | rfl <;> norm_num [maxForce]
  speed := by
    intro m hm
    simp only [demoRobot, List.mem_cons, List.not_mem_nil, or_false] at hm
    rcases hm with rfl | rfl | rfl | rfl <;> norm_num

theorem demo_twist : topTwist demoRobot = 8 * √2 := by
  have h : ∀ m ∈ demoRobot.modules, ‖vec m.translation‖ * maxForce m = √2 * 2 := fun m hm => by
    rw [demo_ring.circle m hm, demo_ring.force m hm]
  rw [topTwist, List.map_congr_left h]
  simp [demoRobot]
  ring

/-- A tenth of a radian, in the best time. -/
example : let b := run true (spinOps (1 / 10)) Builder.new
    (∃ T, Fastest b demoRobot T) ∧
    ∀ T, Fastest b demoRobot T → timeTaken (table b).counts T = 2 * √(1 / (80 * √2)) := by
  intro b
  obtain ⟨hr, hc, hco, hi0, hi1⟩ := spin_table (1 / 10)
  have h2 : 1 ≤ √2 := Real.le_sqrt_of_sq_le (by norm_num)
  have h2' : √2 ≤ 3 / 2 := by rw [Real.sqrt_le_left (by norm_num)]; norm_num
  have hsq : √2 ^ 2 = 2 := Real.sq_sqrt (by norm_num)
  have hpi := Real.pi_gt_three
  have e : |(1 / 10 : ℝ)| / (topTwist demoRobot * (2 ^ 2 / 4 : ℕ)) = 1 / (80 * √2) := by
    rw [demo_twist, abs_of_pos (by norm_num)]
    norm_num
    field_simp
    norm_num
  have hx : √(1 / (80 * √2)) ≤ 1 / 8 := by
    rw [Real.sqrt_le_left (by norm_num), div_le_iff₀ (by positivity)]
    linarith
  have := C106_fastest demoRobot 2 2 √2 demo_ring b ⟨true, _, rfl⟩ hr 2 le_rfl hc hco 0 0 (1 / 10) (by norm_num)
    (by rw [abs_of_pos (by norm_num)]; linarith)
    (by
      intro s hs
      rw [hi0] at hs
      refine ⟨(hs (.poseEquality 0 0 0) (by simp)).2, ?_⟩
      simpa [Meaning] using hs (.angularVelocityMaxMagnitude 0) (by simp))
    (by
      intro s hs
      rw [hi1] at hs
      refine ⟨by rw [zero_add]; exact (hs (.poseEquality 0 0 (1 / 10)) (by simp)).2, ?_⟩
      simpa [Meaning] using hs (.angularVelocityMaxMagnitude 0) (by simp))
    (by
      intro a c hcm
      rw [hi0] at hcm
      simp only [List.mem_cons, List.not_mem_nil, or_false] at hcm
      rcases hcm with rfl | rfl
      · exact ⟨by apply Complex.ext <;> simp [vec], .inl rfl⟩
      · simp [Meaning])
    (by
      intro a c hcm
      rw [hi1] at hcm
      simp only [List.mem_cons, List.not_mem_nil, or_false] at hcm
      rcases hcm with rfl | rfl
      · exact ⟨by apply Complex.ext <;> simp [vec], .inl (by rw [zero_add])⟩
      · simp [Meaning])
    √(1 / (80 * √2)) (by rw [e])
    (by
      rw [demo_twist]
      generalize √(1 / (80 * √2)) = x at hx ⊢
      norm_num
      nlinarith)
    (by
      intro g hg
      rw [demo_gap g hg]
      linarith)
  exact ⟨this.1, fun T hT => by simpa using (this.2 T hT).1⟩

/-- C106 is false as stated: a half turn on the spot, standing at both ends, takes no time. -/
theorem C106_refuted : ∃ T, Fastest (run true (spinOps Real.pi) Builder.new) demoRobot T ∧
    timeTaken (table (run true (spinOps Real.pi) Builder.new)).counts T = 0 ∧
    (T.state 0).heading = unitVec 0 ∧ (T.state 2).heading = unitVec Real.pi := by
  obtain ⟨hr, hc, hco, hi0, hi1⟩ := spin_table Real.pi
  set b := run true (spinOps Real.pi) Builder.new
  have u0 : unitVec 0 = 1 := by simp [unitVec]
  have u1 : unitVec Real.pi = -1 := by simp [unitVec]
  have hw1 : waypointSample (table b).counts 1 = 2 := by simp [hc, waypointSample]
  have hw0 : waypointSample (table b).counts 0 = 0 := by simp [waypointSample]
  have seg : ∀ s < (table b).counts.length, s = 0 := by
    intro s hs; rw [hc] at hs; simpa using hs
  let T : Traj := ⟨fun n => ⟨0, if n = 0 then 1 else -1, 0, 0, 0, 0⟩, fun _ _ => 0, fun _ => 0⟩
  have hT : Solves b demoRobot T := by
    refine (solves_iff ⟨true, _, rfl⟩ hr demo_radius).mpr ⟨?_, ?_, ?_, ?_, ?_, ?_⟩
    · intro s hs n hn
      refine ⟨by simp [T], ?_, by simp [T], by simp [T]⟩
      simp only [T, zero_mul, u0]
      split_ifs <;> simp
    · intro n hn
      refine ⟨by simp [T], by simp [T, torque], ?_, by simp [T, maxForce]⟩
      intro m hm
      simp only [T, wheelVelocity, maxSpeed]
      simp
      positivity
    · intro s hs; exact le_rfl
    · intro s hs m hm g hg
      rw [demo_gap g hg]
      norm_num [T]
    · intro w hw c hcm
      have hw' : w = 0 ∨ w = 1 := by rw [hc, List.length_singleton] at hw; omega
      rcases hw' with rfl | rfl
      · rw [hw0]
        rw [hi0] at hcm
        simp only [List.mem_cons, List.not_mem_nil, or_false] at hcm
        rcases hcm with rfl | rfl
        · exact ⟨by apply Complex.ext <;> simp [vec, T], .inl (by simp [T, u0])⟩
        · simp [Meaning, T]
      · rw [hw1]
        rw [hi1] at hcm
        simp only [List.mem_cons, List.not_mem_nil, or_false] at hcm
        rcases hcm with rfl | rfl
        · exact ⟨by apply Complex.ext <;> simp [vec, T], .inl (by simp [T, u1])⟩
        · simp [Meaning, T]
    · intro s hs c hcm
      obtain rfl := seg s hs
      rw [hco] at hcm
      simp at hcm
  have h0 : timeTaken (table b).counts T = 0 := by simp [timeTaken, T]
  refine ⟨T, ⟨hT, fun T' hT' => ?_⟩, h0, by simp [T, u0], by simp [T, u1]⟩
  rw [h0, timeTaken]
  have ht := ((solves_iff ⟨true, _, rfl⟩ hr demo_radius).mp hT').time
  exact Finset.sum_nonneg fun s hs => mul_nonneg (by positivity) (ht s (Finset.mem_range.mp hs))

end Trajopt.Props
