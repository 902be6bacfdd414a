import Verif.Spec.Backwards
import Verif.Props.Intervals

/-!
# C95 Driving backwards
-/

set_option autoImplicit false

namespace Trajopt.Props

open Spec Builder

/-- The trajectory backwards: positions, velocities and accelerations in reverse order, each shifted so that the
samples fit together; the forces turn with the robot. -/
noncomputable def reverseTraj (T : Traj) (N K : ℕ) : Traj where
  state n := ⟨(T.state (N - n - 1)).pos, (T.state (N - n - 1)).heading, -(T.state (N - n)).vel,
    if n = 0 then 0 else (T.state (N - n + 1)).acc, -(T.state (N - n)).omega,
    if n = 0 then 0 else (T.state (N - n + 1)).alpha⟩
  force n j := if n = 0 then 0 else
    (T.state (N - n - 1)).heading * (starRingEnd ℂ) (T.state (N - n + 1)).heading * T.force (N - n + 1) j
  dt s := T.dt (K - 1 - s)

theorem meaning_mix {c : Constraint ℝ} {s₁ s₂ s₃ : State} (α : ℝ) (h₁ : Meaning c s₁) (h₂ : Meaning c s₂)
    (h₃ : ∀ m, c = .linearAccelerationMaxMagnitude m → ‖s₃.acc‖ ≤ |m|) :
    Meaning c ⟨s₁.pos, s₁.heading, -s₂.vel, s₃.acc, -s₂.omega, α⟩ := by
  cases c with
  | linearAccelerationMaxMagnitude m => exact h₃ m rfl
  | linearVelocityMaxMagnitude m => simpa [Meaning] using h₂
  | angularVelocityMaxMagnitude m => simpa [Meaning] using h₂
  | linearVelocityDirection a =>
    obtain ⟨t, ht⟩ := h₂
    exact ⟨-t, by simp [ht]⟩
  | _ => exact h₁

theorem waypointSample_reverse (N : List ℕ) (w : ℕ) :
    waypointSample N.reverse w + waypointSample N (N.length - w) = N.sum := by
  rw [waypointSample, List.take_reverse, List.sum_reverse, waypointSample, Nat.add_comm, ← List.sum_append,
    List.take_append_drop]

theorem unit_mul_conj {z : ℂ} (h : ‖z‖ = 1) : z * (starRingEnd ℂ) z = 1 := by
  rw [Complex.mul_conj, Complex.normSq_eq_norm_sq, h]
  simp

theorem unit_eq {z w : ℂ} (hz : ‖z‖ = 1) (h : w * (starRingEnd ℂ) z = 1) : w = z := by
  have := unit_mul_conj hz
  calc w = w * (z * (starRingEnd ℂ) z) := by rw [this, mul_one]
    _ = w * (starRingEnd ℂ) z * z := by ring
    _ = z := by rw [h, one_mul]

/-- C95, what holds: if the robot stands at every waypoint, on each segment drives without turning or turns without
driving, makes none of the half turns of C106, and obeys acceleration limits of waypoints along the segments that
follow, it can do so backwards, and is as fast.  Turning while driving: `C95_refuted_turning`. -/
theorem C95_calm_partial (b b' : Builder ℝ) (dr : SwerveDrivetrain ℝ) (T : Traj) (h : Solves b dr T)
    (hb' : Reachable b') (hr' : Ready b' dr) (hback : Backwards (table b) (table b'))
    (hpos : ∀ N ∈ (table b).counts, 0 < N)
    (hstop : ∀ w ≤ (table b).counts.length, (T.state (waypointSample (table b).counts w)).vel = 0 ∧
      (T.state (waypointSample (table b).counts w)).omega = 0)
    (hcalm : ∀ s < (table b).counts.length,
      (∀ n ∈ segmentSamples (table b).counts s, (T.state n).omega = 0) ∨
      (∀ n ∈ segmentSamples (table b).counts s, (T.state n).vel = 0 ∧ (T.state n).acc = 0))
    (hunit : ∀ n < sampleCount (table b).counts, ‖(T.state n).heading‖ = 1)
    (hright : ∀ s < (table b).counts.length, ∀ n ∈ segmentSamples (table b).counts s,
      (T.state n).heading * (starRingEnd ℂ) (T.state (n - 1)).heading = unitVec ((T.state n).omega * T.dt s))
    (hacc : ∀ w < (table b).counts.length, ∀ m,
      .linearAccelerationMaxMagnitude m ∈ (table b).instant w →
      .linearAccelerationMaxMagnitude m ∈ (table b).continuous w) :
    ∃ T', Solves b' dr T' ∧ timeTaken (table b').counts T' = timeTaken (table b).counts T := by
  have ho := h.obeys
  have hends := C72_ends b h.reachable
  obtain ⟨hc, hi, hco⟩ := hback
  set N := (table b).counts with hN
  have hrev := waypointSample_reverse N
  have hmono := fun {w w'} => waypointSample_mono N (w := w) (w' := w')
  have htop : waypointSample N N.length = N.sum := by rw [waypointSample, List.take_length]
  have hle : ∀ w, waypointSample N w ≤ N.sum := by
    intro w
    rw [waypointSample, ← List.sum_take_add_sum_drop N w]; omega
  have hsucc : ∀ s (hs : s < N.length), waypointSample N s < waypointSample N (s + 1) := by
    intro s hs
    have := hpos _ (List.getElem_mem hs)
    rw [waypointSample, waypointSample, List.take_succ_eq_append_getElem hs, List.sum_append, List.sum_singleton]
    omega
  have u0 : unitVec 0 = 1 := by simp [unitVec]
  have hunit' : ∀ n ≤ N.sum, ‖(T.state n).heading‖ = 1 := fun n hn => hunit n (by rw [sampleCount]; omega)
  -- place one sample earlier than a waypoint
  have hprev : ∀ w ≤ N.length, (T.state (waypointSample N w - 1)).pos = (T.state (waypointSample N w)).pos ∧
      (T.state (waypointSample N w - 1)).heading = (T.state (waypointSample N w)).heading := by
    intro w hw
    rcases Nat.eq_zero_or_pos w with rfl | hw0
    · exact ⟨rfl, rfl⟩
    · obtain ⟨s, rfl⟩ : ∃ s, w = s + 1 := ⟨w - 1, by omega⟩
      have hmem : waypointSample N (s + 1) ∈ segmentSamples N s := by
        simp only [segmentSamples, Finset.mem_Ioc]; exact ⟨hsucc s hw, le_rfl⟩
      have h1 := (ho.interval s hw _ hmem).pos
      have h2 := hright s hw _ hmem
      rw [(hstop _ hw).2, zero_mul, u0] at h2
      have := hle (s + 1)
      refine ⟨by rw [h1, (hstop _ hw).1]; simp, (unit_eq (hunit' _ (by omega)) h2).symm⟩
  have hlen : (table b').counts.length = N.length := by rw [hc, List.length_reverse]
  have hnum : sampleCount (table b').counts = N.sum + 1 := by rw [hc, sampleCount, List.sum_reverse]; omega
  have hseg : ∀ s < N.length, ∀ n, n ∈ segmentSamples (table b').counts s → 1 ≤ n ∧ n ≤ N.sum ∧
      waypointSample N (N.length - 1 - s) ≤ N.sum - n ∧
      N.sum - n < waypointSample N (N.length - 1 - s + 1) := by
    intro s hs n hn
    rw [hc, segmentSamples, Finset.mem_Ioc] at hn
    have h1 := hrev s
    have h2 := hrev (s + 1)
    rw [show N.length - (s + 1) = N.length - 1 - s by omega] at h2
    rw [show N.length - s = N.length - 1 - s + 1 by omega] at h1
    have := hle (N.length - 1 - s + 1)
    omega
  -- every sample but the last is on a segment
  have hfind : ∀ m < N.sum, ∃ k < N.length, waypointSample N k ≤ m ∧ m < waypointSample N (k + 1) := by
    intro m hm
    have hex : ∃ k, m < waypointSample N (k + 1) :=
      ⟨N.length, hm.trans_le (htop.symm.le.trans (hmono (Nat.le_succ _)))⟩
    refine ⟨Nat.find hex, ?_, ?_, Nat.find_spec hex⟩
    · by_contra hcon
      have : ¬ m < waypointSample N (N.length - 1 + 1) := Nat.find_min hex (by
        rcases Nat.eq_zero_or_pos N.length with h0 | h0
        · exfalso
          rw [List.length_eq_zero_iff] at h0
          simp [h0] at hm
        · omega)
      apply this
      refine hm.trans_le (htop.symm.le.trans (hmono (by omega)))
    · rcases Nat.eq_zero_or_pos (Nat.find hex) with h0 | h0
      · rw [h0]; simp [waypointSample]
      · have := Nat.find_min hex (m := Nat.find hex - 1) (by omega)
        rw [Nat.sub_add_cancel h0] at this
        omega
  -- driving or turning
  have hkey : ∀ m < N.sum, (((T.state m).vel = 0 ∧ (T.state (m + 1)).acc = 0) ∨
      ((T.state (m - 1)).heading = (T.state m).heading ∧ (T.state (m + 1)).heading = (T.state m).heading)) := by
    intro m hm
    obtain ⟨k, hk, k1, k2⟩ := hfind m hm
    have hmem : m + 1 ∈ segmentSamples N k := by simp only [segmentSamples, Finset.mem_Ioc]; omega
    rcases hcalm k hk with hs | hs
    · refine .inr ⟨?_, ?_⟩
      · rcases k1.lt_or_eq with h | h
        · have hmem' : m ∈ segmentSamples N k := by simp only [segmentSamples, Finset.mem_Ioc]; omega
          have h2 := hright k hk m hmem'
          rw [hs m hmem', zero_mul, u0] at h2
          exact (unit_eq (hunit' _ (by omega)) h2).symm
        · rw [← h]; exact (hprev k hk.le).2
      · have h2 := hright k hk _ hmem
        rw [hs _ hmem, zero_mul, u0, Nat.add_sub_cancel] at h2
        exact unit_eq (hunit' _ hm.le) h2
    · refine .inl ⟨?_, (hs _ hmem).2⟩
      rcases k1.lt_or_eq with h | h
      · exact (hs m (by simp only [segmentSamples, Finset.mem_Ioc]; omega)).1
      · rw [← h]; exact (hstop k hk.le).1
  refine ⟨reverseTraj T N.sum N.length, (solves_iff hb' hr' h.radius).mpr ?_, ?_⟩
  · constructor
    · intro s hs n hn
      rw [hlen] at hs
      obtain ⟨n1, n2, n3, n4⟩ := hseg s hs n hn
      set k := N.length - 1 - s with hk
      have hkl : k < N.length := by omega
      obtain ⟨m, hm⟩ : ∃ m, m = N.sum - n := ⟨_, rfl⟩
      have e1 : N.sum - (n - 1) = m + 1 := by omega
      have hI := ho.interval k hkl (m + 1) (by simp only [segmentSamples, Finset.mem_Ioc, ← hN]; omega)
      have hv := hI.vel
      have hw := hI.omega
      simp only [reverseTraj, e1, ← hm, ← hk, if_neg (show ¬ n = 0 by omega), Nat.add_sub_cancel]
      rw [Nat.add_sub_cancel] at hv hw
      refine ⟨?_, .inl ?_, ?_, ?_⟩
      · simp only
        rcases n3.lt_or_eq with h | h
        · have := (ho.interval k hkl m (by simp only [segmentSamples, Finset.mem_Ioc, ← hN]; omega)).pos
          rw [this]; ring
        · rw [hm, ← h, (hprev k hkl.le).1, (hstop k hkl.le).1]; simp
      · simp only
        rcases n3.lt_or_eq with h | h
        · have := congrArg (starRingEnd ℂ) (hright k hkl m (by simp only [segmentSamples, Finset.mem_Ioc]; omega))
          rw [map_mul, Complex.conj_conj, mul_comm] at this
          rw [this, conj_unitVec, neg_mul]
        · rw [hm, ← h, (hprev k hkl.le).2, (hstop k hkl.le).2, unit_mul_conj (hunit' _ (hle k))]
          simp [u0]
      · simp only
        rw [hv]; ring
      · simp only
        rw [hw]; ring
    · intro n hn
      rw [hnum] at hn
      obtain ⟨m, hm⟩ : ∃ m, m = N.sum - n := ⟨_, rfl⟩
      have hd := ho.dynamics m (by rw [sampleCount, ← hN]; omega)
      have hturn : (T.state m).vel = 0 ∨ (T.state (m - 1)).heading = (T.state m).heading := by
        rcases (show m ≤ N.sum by omega).lt_or_eq with h | h
        · exact (hkey m h).imp And.left And.left
        · rw [h, ← htop]; exact .inl (hstop _ le_rfl).1
      have hspeed : ∀ a α, ∀ md ∈ dr.modules, ‖wheelVelocity ⟨(T.state (m - 1)).pos, (T.state (m - 1)).heading,
          -(T.state m).vel, a, -(T.state m).omega, α⟩ md‖ ≤ maxSpeed md := by
        intro a α md hmd
        refine le_trans (le_of_eq ?_) (hd.speed md hmd)
        rw [← norm_neg, wheelVelocity, wheelVelocity]
        congr 1
        simp only
        rcases hturn with h | h
        · rw [h]; push_cast; ring
        · rw [h]; push_cast; ring
      simp only [reverseTraj, ← hm]
      by_cases hn0 : n = 0
      · simp only [if_pos hn0]
        exact ⟨by simp, by simp [torque], hspeed 0 0, fun j => by simp [maxForce]⟩
      · simp only [if_neg hn0]
        have hd' := ho.dynamics (m + 1) (by rw [sampleCount, ← hN]; omega)
        have hu1 := hunit' (m - 1) (by omega)
        have hu2 := hunit' (m + 1) (by omega)
        refine ⟨?_, ?_, hspeed _ _, ?_⟩
        · rw [← Finset.mul_sum, hd'.force]
          rcases hkey m (by omega) with h | h
          · rw [h.2]; simp
          · rw [h.1, h.2, unit_mul_conj (hunit' m (by omega)), one_mul]
        · rw [← hd'.torque]
          refine Finset.sum_congr rfl fun j _ => ?_
          simp only [torque, lever, map_mul]
          congr 1
          have := unit_mul_conj hu1
          linear_combination ((starRingEnd ℂ) (vec dr.modules[j].translation) *
            (starRingEnd ℂ) (T.state (m + 1)).heading * T.force (m + 1) j) * this
        · intro j
          rw [norm_mul, norm_mul, RCLike.norm_conj, hu1, hu2, one_mul, one_mul]
          exact hd'.limit j
    · intro s hs
      rw [hlen] at hs
      exact ho.time (N.length - 1 - s) (by rw [← hN]; omega)
    · intro s hs
      rw [hlen] at hs
      exact ho.stepCap (N.length - 1 - s) (by rw [← hN]; omega)
    · intro w hw c hcm
      rw [hlen] at hw
      rw [hi w hw] at hcm
      obtain ⟨k, hk⟩ : ∃ k, k = N.length - w := ⟨_, rfl⟩
      have hkl : k ≤ N.length := by omega
      have hw' := hrev w
      rw [← hk] at hw' hcm
      have hle' := hle k
      have e : N.sum - waypointSample N.reverse w = waypointSample N k := by omega
      have hm := ho.instant k hkl c hcm
      simp only [reverseTraj, hc, e]
      rw [(hprev k hkl).1, (hprev k hkl).2]
      split_ifs with h0
      · exact meaning_mix (s₃ := ⟨0, 0, 0, 0, 0, 0⟩) _ hm hm (by simp)
      · refine meaning_mix _ hm hm ?_
        rintro a rfl
        have hk' : k < N.length := by
          by_contra hcon
          obtain rfl : k = N.length := by omega
          omega
        have := hsucc k hk'
        exact ho.continuous k hk' _ (hacc k hk' a hcm) _ (by simp only [segmentSamples, Finset.mem_Ioc, ← hN]; omega)
    · intro s hs c hcm n hn
      rw [hlen] at hs
      rw [hco s hs] at hcm
      obtain ⟨n1, n2, n3, n4⟩ := hseg s hs n hn
      obtain ⟨k, hk⟩ : ∃ k, k = N.length - 1 - s := ⟨_, rfl⟩
      rw [← hk] at hcm n3 n4
      have hkl : k < N.length := by omega
      obtain ⟨m, hm⟩ : ∃ m, m = N.sum - n := ⟨_, rfl⟩
      have hall : ∀ j, waypointSample N k ≤ j → j ≤ waypointSample N (k + 1) → Meaning c (T.state j) := by
        intro j hj hj'
        rcases hj.lt_or_eq with h | rfl
        · exact ho.continuous k hkl c hcm j (by simp only [segmentSamples, Finset.mem_Ioc, ← hN]; omega)
        · exact ho.instant k hkl.le c (hends k c hcm).1
      simp only [reverseTraj, ← hm, if_neg (show ¬ n = 0 by omega)]
      have hacc' : ∀ a, c = .linearAccelerationMaxMagnitude a → ‖(T.state (m + 1)).acc‖ ≤ |a| := by
        rintro a rfl
        exact hall (m + 1) (by omega) (by omega)
      have hmm := hall m (by omega) (by omega)
      rcases n3.lt_or_eq with h | h
      · exact meaning_mix _ (hall (m - 1) (by omega) (by omega)) hmm hacc'
      · rw [← hm] at h
        have hp := hprev k hkl.le
        rw [h] at hp
        rw [hp.1, hp.2]
        exact meaning_mix _ hmm hmm hacc'
  · rw [hc]
    simp only [timeTaken, List.length_reverse, reverseTraj]
    rw [← Finset.sum_range_reflect]
    refine Finset.sum_congr rfl fun s hs => ?_
    have hs' := Finset.mem_range.mp hs
    rw [show N.length - 1 - (N.length - 1 - s) = s by omega]
    congr 2
    simp only [List.getD_eq_getElem?_getD]
    rw [List.getElem?_reverse (by omega), show N.length - 1 - (N.length - 1 - s) = s by omega]

/-- C95, the case without turning: if the robot stands at every waypoint and never turns, it can drive backwards, and is
as fast. -/
theorem C95_straight_partial (b b' : Builder ℝ) (dr : SwerveDrivetrain ℝ) (T : Traj) (h : Solves b dr T)
    (hb' : Reachable b') (hr' : Ready b' dr) (hback : Backwards (table b) (table b'))
    (hpos : ∀ N ∈ (table b).counts, 0 < N)
    (hstop : ∀ w ≤ (table b).counts.length, (T.state (waypointSample (table b).counts w)).vel = 0)
    (θ : ℂ) (hθ : ‖θ‖ = 1)
    (hturn : ∀ n < sampleCount (table b).counts, (T.state n).heading = θ ∧ (T.state n).omega = 0)
    (hacc : ∀ w < (table b).counts.length, ∀ m,
      .linearAccelerationMaxMagnitude m ∈ (table b).instant w →
      .linearAccelerationMaxMagnitude m ∈ (table b).continuous w) :
    ∃ T', Solves b' dr T' ∧ timeTaken (table b').counts T' = timeTaken (table b).counts T := by
  have hle : ∀ w, waypointSample (table b).counts w < sampleCount (table b).counts := by
    intro w
    rw [waypointSample, sampleCount, ← List.sum_take_add_sum_drop (table b).counts w]; omega
  have hseg : ∀ s, ∀ n ∈ segmentSamples (table b).counts s, n < sampleCount (table b).counts := by
    intro s n hn
    exact (Finset.mem_Ioc.mp hn).2.trans_lt (hle _)
  refine C95_calm_partial b b' dr T h hb' hr' hback hpos (fun w hw => ⟨hstop w hw, (hturn _ (hle w)).2⟩)
    (fun s _ => .inl fun n hn => (hturn n (hseg s n hn)).2) (fun n hn => by rw [(hturn n hn).1, hθ]) ?_ hacc
  intro s _ n hn
  have := hseg s n hn
  rw [(hturn n this).1, (hturn n this).2, (hturn (n - 1) (by omega)).1, unit_mul_conj hθ]
  simp [unitVec]

/-! ### A path that cannot be driven backwards -/

theorem weak_dynamics (p : ℂ) (v a : ℝ) (hv : |v| ≤ 10) (ha : |a| ≤ 1 / 100) :
    Dynamics weakRobot ⟨p, 1, v, a, 0, 0⟩ fun _ => a := by
  refine ⟨?_, ?_, ?_, ?_⟩
  · simp only [Finset.sum_const, Finset.card_univ, Fintype.card_fin, nsmul_eq_mul]
    norm_num [weakRobot]
  · have hc : ∑ j : Fin weakRobot.modules.length, vec weakRobot.modules[j].translation = 0 := by
      have : Centred weakRobot := by simp [Centred, weakRobot, vec, Complex.ext_iff]
      rw [Centred, ← List.ofFn_getElem_eq_map, List.sum_ofFn] at this
      exact this
    have h0 : ∑ j : Fin weakRobot.modules.length,
        (starRingEnd ℂ) (vec weakRobot.modules[j].translation * 1) * (a : ℂ) = 0 := by
      rw [← Finset.sum_mul, ← map_sum, ← Finset.sum_mul, hc]
      simp
    simp only [lever, torque]
    rw [← Complex.im_sum, h0]
    simp
  · intro m hm
    simp only [wheelVelocity, maxSpeed, (weak_radius m hm).1, (weak_radius m hm).2]
    simpa using hv
  · intro j
    have : ∀ m ∈ weakRobot.modules, maxForce m = 1 / 100 := by
      intro m hm
      simp only [weakRobot, List.mem_cons, List.not_mem_nil, or_false] at hm
      rcases hm with rfl | rfl | rfl | rfl <;> norm_num [maxForce]
    rw [Complex.norm_real]
    exact ha.trans (this _ (List.getElem_mem _)).ge

/-- Along the x axis by way of `x`, standing at both ends, two control intervals for each segment. -/
noncomputable def viaOps (x₀ x₁ x₂ : ℝ) : List (Op ℝ) :=
  [.setDrivetrain weakRobot, .poseWpt 0 x₀ 0 0, .poseWpt 1 x₁ 0 0, .poseWpt 2 x₂ 0 0,
    .wptConstraint 0 (.linearVelocityMaxMagnitude 0), .wptConstraint 2 (.linearVelocityMaxMagnitude 0),
    .controlIntervalCounts [2, 2]]

theorem via_table (x₀ x₁ x₂ : ℝ) :
    let b := run true (viaOps x₀ x₁ x₂) Builder.new
    Ready b weakRobot ∧ (table b).counts = [2, 2] ∧ (∀ s < 2, (table b).continuous s = []) ∧
    (table b).instant 0 = [.poseEquality x₀ 0 0, .linearVelocityMaxMagnitude 0] ∧
    (table b).instant 1 = [.poseEquality x₁ 0 0] ∧
    (table b).instant 2 = [.poseEquality x₂ 0 0, .linearVelocityMaxMagnitude 0] := by
  intro b
  obtain ⟨e, hr⟩ : table b = PathTable.empty.afterAll (viaOps x₀ x₁ x₂) ∧ Ready b weakRobot := by
    refine ready_of ?_ _ rfl ?_ ?_ ?_ <;>
    simp [viaOps, PathTable.AcceptsAll, PathTable.Accepts, PathTable.afterAll, PathTable.after,
      PathTable.empty, PathTable.reach, PathTable.requireAt, PathTable.guessAt, sampleCount]
  refine ⟨hr, ?_⟩
  rw [e]
  simp [viaOps, PathTable.afterAll, PathTable.after,
    PathTable.empty, PathTable.reach, PathTable.requireAt, PathTable.guessAt]

/-- Position, velocity and acceleration of the way there, in millimetres. -/
noncomputable def viaSample : ℕ → ℝ × ℝ × ℝ
  | 0 => (0, 0, 0)
  | 1 => (9, 9, 9)
  | 2 => (25, 16, 7)
  | 3 => (34, 9, -7)
  | _ => (34, 0, -9)

noncomputable def viaTraj : Traj where
  state n := ⟨((viaSample n).1 / 1000 : ℝ), 1, ((viaSample n).2.1 / 1000 : ℝ), ((viaSample n).2.2 / 1000 : ℝ), 0, 0⟩
  force n _ := ((viaSample n).2.2 / 1000 : ℝ)
  dt _ := 1

theorem via_solves : Solves (run true (viaOps 0 (25 / 1000) (34 / 1000)) Builder.new) weakRobot viaTraj := by
  obtain ⟨hr, hc, hco, hi0, hi1, hi2⟩ := via_table 0 (25 / 1000) (34 / 1000)
  refine (solves_iff ⟨true, _, rfl⟩ hr fun m hm => by rw [(weak_radius m hm).1]; norm_num).mpr
    ⟨?_, ?_, ?_, ?_, ?_, ?_⟩
  · rw [hc]
    intro s hs n hn
    simp only [List.length_cons, List.length_nil] at hs
    have hn1 : 1 ≤ n ∧ n ≤ 4 := by
      obtain rfl | rfl : s = 0 ∨ s = 1 := by omega
      all_goals
        simp only [segmentSamples, waypointSample, Finset.mem_Ioc, List.take, List.sum_cons, List.sum_nil] at hn
        omega
    obtain rfl | rfl | rfl | rfl : n = 1 ∨ n = 2 ∨ n = 3 ∨ n = 4 := by omega
    all_goals
      refine ⟨?_, .inl (by simp [viaTraj, unitVec]), ?_, by simp [viaTraj]⟩
      all_goals norm_num [viaTraj, viaSample]
  · rw [hc]
    intro n hn
    simp only [sampleCount, List.sum_cons, List.sum_nil] at hn
    obtain rfl | rfl | rfl | rfl | rfl : n = 0 ∨ n = 1 ∨ n = 2 ∨ n = 3 ∨ n = 4 := by omega
    all_goals exact weak_dynamics _ _ _ (by rw [abs_le]; norm_num [viaSample]) (by rw [abs_le]; norm_num [viaSample])
  · intro s hs; simp [viaTraj]
  · intro s hs m hm g hg
    rw [weak_gap g hg, (weak_radius m hm).1, (weak_radius m hm).2]
    norm_num [viaTraj]
  · rw [hc]
    intro w hw c hcm
    simp only [List.length_cons, List.length_nil] at hw
    have hu : unitVec 0 = 1 := by simp [unitVec]
    obtain rfl | rfl | rfl : w = 0 ∨ w = 1 ∨ w = 2 := by omega
    · rw [hi0] at hcm
      simp only [List.mem_cons, List.not_mem_nil, or_false] at hcm
      rcases hcm with rfl | rfl
      · exact ⟨by apply Complex.ext <;> norm_num [viaTraj, viaSample, vec, waypointSample],
          .inl (by simp [viaTraj, hu])⟩
      · norm_num [Meaning, viaTraj, viaSample, waypointSample]
    · rw [hi1] at hcm
      obtain rfl := List.mem_singleton.mp hcm
      exact ⟨by apply Complex.ext <;> norm_num [viaTraj, viaSample, vec, waypointSample],
          .inl (by simp [viaTraj, hu])⟩
    · rw [hi2] at hcm
      simp only [List.mem_cons, List.not_mem_nil, or_false] at hcm
      rcases hcm with rfl | rfl
      · exact ⟨by apply Complex.ext <;> norm_num [viaTraj, viaSample, vec, waypointSample],
          .inl (by simp [viaTraj, hu])⟩
      · norm_num [Meaning, viaTraj, viaSample, waypointSample]
  · rw [hc]
    intro s hs c hcm
    rw [hco s (by simpa using hs)] at hcm
    simp at hcm

/-- C95 is false as stated: a path that can be driven from standstill to standstill cannot be driven
backwards.  (The last control interval must stop the robot, and is no time to drive.) -/
theorem C95_refuted : ∃ (dr : SwerveDrivetrain ℝ) (ops ops' : List (Op ℝ)),
    Backwards (table (run true ops Builder.new)) (table (run true ops' Builder.new)) ∧
    (∀ T, Solves (run true ops Builder.new) dr T → (T.state 0).vel = 0 ∧
      (T.state (waypointSample (table (run true ops Builder.new)).counts 2)).vel = 0) ∧
    (∃ T, Solves (run true ops Builder.new) dr T ∧ ∀ n, (T.state n).heading = 1 ∧ (T.state n).omega = 0) ∧
    Ready (run true ops' Builder.new) dr ∧ ¬ ∃ T, Solves (run true ops' Builder.new) dr T := by
  obtain ⟨hr, hc, hco, hi0, hi1, hi2⟩ := via_table 0 (25 / 1000) (34 / 1000)
  obtain ⟨hr', hc', hco', hi0', hi1', hi2'⟩ := via_table (34 / 1000) (25 / 1000) 0
  refine ⟨weakRobot, viaOps 0 (25 / 1000) (34 / 1000), viaOps (34 / 1000) (25 / 1000) 0, ⟨?_, ?_, ?_⟩, ?_,
    ⟨viaTraj, via_solves, fun n => ⟨rfl, rfl⟩⟩, hr', ?_⟩
  · rw [hc, hc']; rfl
  · rw [hc]
    intro w hw
    simp only [List.length_cons, List.length_nil] at hw
    obtain rfl | rfl | rfl : w = 0 ∨ w = 1 ∨ w = 2 := by omega
    · rw [hi0']; exact hi2.symm
    · rw [hi1']; exact hi1.symm
    · rw [hi2']; exact hi0.symm
  · rw [hc]
    intro s hs
    simp only [List.length_cons, List.length_nil] at hs ⊢
    rw [hco' s hs, hco _ (by omega)]
  · intro T hT
    refine ⟨?_, ?_⟩
    · have := hT.obeys.instant 0 (Nat.zero_le _) (.linearVelocityMaxMagnitude 0) (by rw [hi0]; simp)
      rw [show waypointSample _ 0 = 0 by simp [waypointSample]] at this
      simpa [Meaning] using this
    · simpa [Meaning] using hT.obeys.instant 2 (by rw [hc]; simp) (.linearVelocityMaxMagnitude 0) (by rw [hi2]; simp)
  · rintro ⟨T, h⟩
    generalize run true (viaOps (34 / 1000) (25 / 1000) 0) Builder.new = b at *
    have ho := h.obeys
    have i3 := ho.interval 1 (by rw [hc']; simp) 3 (by rw [hc']; simp [segmentSamples, waypointSample])
    have i4 := ho.interval 1 (by rw [hc']; simp) 4 (by rw [hc']; simp [segmentSamples, waypointSample])
    have p2 := (ho.instant 1 (by rw [hc']; simp) (.poseEquality (25 / 1000) 0 0) (by rw [hi1']; simp)).1
    have p4 := (ho.instant 2 (by rw [hc']; simp) (.poseEquality 0 0 0) (by rw [hi2']; simp)).1
    have v4 := ho.instant 2 (by rw [hc']; simp) (.linearVelocityMaxMagnitude 0) (by rw [hi2']; simp)
    have a4 := (C36_acceleration b weakRobot T h 4 (by rw [hc']; simp [sampleCount])).1 (by norm_num [weakRobot])
    have hcap := ho.stepCap 1 (by rw [hc']; simp) ⟨⟨5, 5⟩, 1, 10, 1 / 100⟩ (by simp [weakRobot]) 10
      ((gap_places _ _).mpr ⟨by norm_num, ⟨5, 5⟩, ⟨5, -5⟩, by simp [weakRobot], .inr (by norm_num)⟩)
    have hd := ho.time 1 (by rw [hc']; simp)
    rw [← topAcceleration, weak_top] at a4
    simp only [hc', waypointSample, List.take_succ_cons, List.take_zero, List.sum_cons, List.sum_nil, Meaning]
      at p2 p4 v4
    norm_num at p2 p4 v4 i3 i4 hcap
    have a4' := abs_le.mp ((Complex.abs_re_le_norm _).trans a4)
    have x3 := congrArg Complex.re i3.pos
    have x4 := congrArg Complex.re i4.pos
    have w4 := congrArg Complex.re i4.vel
    rw [p2] at x3
    rw [p4, v4] at x4
    rw [v4] at w4
    simp only [vec, Complex.add_re, Complex.re_ofReal_mul, mul_zero, add_zero, Complex.zero_re] at x3 x4 w4
    nlinarith [mul_nonneg hd hd, mul_nonneg hd (sub_nonneg.mpr a4'.2)]

/-! ### A path that can -/

/-- Along the x axis, standing at both ends, two control intervals. -/
noncomputable def stepOps (x₀ x₁ : ℝ) : List (Op ℝ) :=
  [.setDrivetrain weakRobot, .poseWpt 0 x₀ 0 0, .poseWpt 1 x₁ 0 0,
    .wptConstraint 0 (.linearVelocityMaxMagnitude 0), .wptConstraint 1 (.linearVelocityMaxMagnitude 0),
    .controlIntervalCounts [2]]

theorem step_table (x₀ x₁ : ℝ) :
    let b := run true (stepOps x₀ x₁) Builder.new
    Ready b weakRobot ∧ (table b).counts = [2] ∧ (table b).continuous 0 = [] ∧
    (table b).instant 0 = [.poseEquality x₀ 0 0, .linearVelocityMaxMagnitude 0] ∧
    (table b).instant 1 = [.poseEquality x₁ 0 0, .linearVelocityMaxMagnitude 0] := by
  intro b
  obtain ⟨e, hr⟩ : table b = PathTable.empty.afterAll (stepOps x₀ x₁) ∧ Ready b weakRobot := by
    refine ready_of ?_ _ rfl ?_ ?_ ?_ <;>
    simp [stepOps, PathTable.AcceptsAll, PathTable.Accepts, PathTable.afterAll, PathTable.after,
      PathTable.empty, PathTable.reach, PathTable.requireAt, PathTable.guessAt, sampleCount]
  refine ⟨hr, ?_⟩
  rw [e]
  simp [stepOps, PathTable.afterAll, PathTable.after,
    PathTable.empty, PathTable.reach, PathTable.requireAt, PathTable.guessAt]

noncomputable def stepSample : ℕ → ℝ × ℝ × ℝ
  | 0 => (0, 0, 0)
  | 1 => (9, 9, 9)
  | _ => (9, 0, -9)

noncomputable def stepTraj : Traj where
  state n := ⟨((stepSample n).1 / 1000 : ℝ), 1, ((stepSample n).2.1 / 1000 : ℝ), ((stepSample n).2.2 / 1000 : ℝ), 0, 0⟩
  force n _ := ((stepSample n).2.2 / 1000 : ℝ)
  dt _ := 1

theorem step_solves : Solves (run true (stepOps 0 (9 / 1000)) Builder.new) weakRobot stepTraj := by
  obtain ⟨hr, hc, hco, hi0, hi1⟩ := step_table 0 (9 / 1000)
  refine (solves_iff ⟨true, _, rfl⟩ hr fun m hm => by rw [(weak_radius m hm).1]; norm_num).mpr
    ⟨?_, ?_, ?_, ?_, ?_, ?_⟩
  · rw [hc]
    intro s hs n hn
    obtain rfl : s = 0 := by simpa using hs
    simp only [segmentSamples, waypointSample, Finset.mem_Ioc, List.take, List.sum_cons, List.sum_nil] at hn
    obtain rfl | rfl : n = 1 ∨ n = 2 := by omega
    all_goals
      refine ⟨?_, .inl (by simp [stepTraj, unitVec]), ?_, by simp [stepTraj]⟩
      all_goals norm_num [stepTraj, stepSample]
  · rw [hc]
    intro n hn
    simp only [sampleCount, List.sum_cons, List.sum_nil] at hn
    obtain rfl | rfl | rfl : n = 0 ∨ n = 1 ∨ n = 2 := by omega
    all_goals exact weak_dynamics _ _ _ (by rw [abs_le]; norm_num [stepSample]) (by rw [abs_le]; norm_num [stepSample])
  · intro s hs; simp [stepTraj]
  · intro s hs m hm g hg
    rw [weak_gap g hg, (weak_radius m hm).1, (weak_radius m hm).2]
    norm_num [stepTraj]
  · rw [hc]
    intro w hw c hcm
    simp only [List.length_cons, List.length_nil] at hw
    have hu : unitVec 0 = 1 := by simp [unitVec]
    obtain rfl | rfl : w = 0 ∨ w = 1 := by omega
    · rw [hi0] at hcm
      simp only [List.mem_cons, List.not_mem_nil, or_false] at hcm
      rcases hcm with rfl | rfl
      · exact ⟨by apply Complex.ext <;> norm_num [stepTraj, stepSample, vec, waypointSample],
          .inl (by simp [stepTraj, hu])⟩
      · norm_num [Meaning, stepTraj, stepSample, waypointSample]
    · rw [hi1] at hcm
      simp only [List.mem_cons, List.not_mem_nil, or_false] at hcm
      rcases hcm with rfl | rfl
      · exact ⟨by apply Complex.ext <;> norm_num [stepTraj, stepSample, vec, waypointSample],
          .inl (by simp [stepTraj, hu])⟩
      · norm_num [Meaning, stepTraj, stepSample, waypointSample]
  · rw [hc]
    intro s hs c hcm
    obtain rfl : s = 0 := by simpa using hs
    rw [hco] at hcm
    simp at hcm

/-- Nine millimetres there and back. -/
example : ∃ T', Solves (run true (stepOps (9 / 1000) 0) Builder.new) weakRobot T' ∧
    timeTaken [2] T' = timeTaken [2] stepTraj := by
  obtain ⟨hr, hc, hco, hi0, hi1⟩ := step_table 0 (9 / 1000)
  obtain ⟨hr', hc', hco', hi0', hi1'⟩ := step_table (9 / 1000) 0
  have := C95_straight_partial _ _ weakRobot stepTraj step_solves ⟨true, _, rfl⟩ hr' ⟨?_, ?_, ?_⟩ ?_ ?_ 1 (by simp)
    (fun n _ => ⟨rfl, rfl⟩) ?_
  · rwa [hc, hc'] at this
  · rw [hc, hc']; rfl
  · rw [hc]
    intro w hw
    simp only [List.length_cons, List.length_nil] at hw
    obtain rfl | rfl : w = 0 ∨ w = 1 := by omega
    · rw [hi0']; exact hi1.symm
    · rw [hi1']; exact hi0.symm
  · rw [hc]
    intro s hs
    obtain rfl : s = 0 := by simpa using hs
    rw [hco']; exact hco.symm
  · rw [hc]; simp
  · rw [hc]
    intro w hw
    simp only [List.length_cons, List.length_nil] at hw
    obtain rfl | rfl : w = 0 ∨ w = 1 := by omega
    · norm_num [stepTraj, stepSample, waypointSample]
    · norm_num [stepTraj, stepSample, waypointSample]
  · rw [hc]
    intro w hw m hm
    obtain rfl : w = 0 := by simpa using hw
    rw [hi0] at hm
    simp at hm

/-! ### Driving, then turning, and back -/

/-- By way of `(x₁, 0, θ₁)` from `(x₀, 0, θ₀)` to `(x₂, 0, θ₂)`, standing at all three, two control intervals for each
segment. -/
noncomputable def dashOps (x₀ θ₀ x₁ θ₁ x₂ θ₂ : ℝ) : List (Op ℝ) :=
  [.setDrivetrain demoRobot, .poseWpt 0 x₀ 0 θ₀, .poseWpt 1 x₁ 0 θ₁, .poseWpt 2 x₂ 0 θ₂,
    .wptConstraint 0 (.linearVelocityMaxMagnitude 0), .wptConstraint 0 (.angularVelocityMaxMagnitude 0),
    .wptConstraint 1 (.linearVelocityMaxMagnitude 0), .wptConstraint 1 (.angularVelocityMaxMagnitude 0),
    .wptConstraint 2 (.linearVelocityMaxMagnitude 0), .wptConstraint 2 (.angularVelocityMaxMagnitude 0),
    .controlIntervalCounts [2, 2]]

theorem dash_table (x₀ θ₀ x₁ θ₁ x₂ θ₂ : ℝ) :
    let b := run true (dashOps x₀ θ₀ x₁ θ₁ x₂ θ₂) Builder.new
    Ready b demoRobot ∧ (table b).counts = [2, 2] ∧ (∀ s < 2, (table b).continuous s = []) ∧
    (table b).instant 0 = [.poseEquality x₀ 0 θ₀, .linearVelocityMaxMagnitude 0, .angularVelocityMaxMagnitude 0] ∧
    (table b).instant 1 = [.poseEquality x₁ 0 θ₁, .linearVelocityMaxMagnitude 0, .angularVelocityMaxMagnitude 0] ∧
    (table b).instant 2 = [.poseEquality x₂ 0 θ₂, .linearVelocityMaxMagnitude 0, .angularVelocityMaxMagnitude 0] := by
  intro b
  obtain ⟨e, hr⟩ : table b = PathTable.empty.afterAll (dashOps x₀ θ₀ x₁ θ₁ x₂ θ₂) ∧ Ready b demoRobot := by
    refine ready_of ?_ _ rfl ?_ ?_ ?_ <;>
    simp [dashOps, PathTable.AcceptsAll, PathTable.Accepts, PathTable.afterAll, PathTable.after,
      PathTable.empty, PathTable.reach, PathTable.requireAt, PathTable.guessAt, sampleCount]
  refine ⟨hr, ?_⟩
  rw [e]
  simp [dashOps, PathTable.afterAll, PathTable.after,
    PathTable.empty, PathTable.reach, PathTable.requireAt, PathTable.guessAt]

/-- Position, velocity, acceleration, angle, angular velocity and angular acceleration, in tenths. -/
noncomputable def dashSample : ℕ → ℝ × ℝ × ℝ × ℝ × ℝ × ℝ
  | 0 => (0, 0, 0, 0, 0, 0)
  | 1 => (1, 1, 1, 0, 0, 0)
  | 2 => (1, 0, -1, 0, 0, 0)
  | 3 => (1, 0, 0, 1, 1, 1)
  | _ => (1, 0, 0, 1, 0, -1)

/-- A tenth of a metre, then a tenth of a radian. -/
noncomputable def dashTraj : Traj where
  state n := ⟨((dashSample n).1 / 10 : ℝ), unitVec ((dashSample n).2.2.2.1 / 10), ((dashSample n).2.1 / 10 : ℝ),
    ((dashSample n).2.2.1 / 10 : ℝ), (dashSample n).2.2.2.2.1 / 10, (dashSample n).2.2.2.2.2 / 10⟩
  force n j := ((dashSample n).2.2.1 / 10 : ℝ) + ((dashSample n).2.2.2.2.2 / 80 : ℝ) * Complex.I *
    (((demoRobot.modules[j]?).elim 0 fun m => vec m.translation) * unitVec ((dashSample n).2.2.2.1 / 10))
  dt _ := 1

theorem demo_lever (m : SwerveModule ℝ) (hm : m ∈ demoRobot.modules) : ‖vec m.translation‖ ^ 2 = 2 := by
  rw [← Complex.normSq_eq_norm_sq]
  simp only [demoRobot, List.mem_cons, List.not_mem_nil, or_false] at hm
  rcases hm with rfl | rfl | rfl | rfl <;> norm_num [vec, Complex.normSq_apply]

theorem demo_dynamics (p : ℂ) (θ v a w α : ℝ) (hv : |v| + 2 * |w| ≤ 2) (ha : |a| + |α| ≤ 2) :
    Dynamics demoRobot ⟨p, unitVec θ, v, a, w, α⟩ fun j => (a : ℂ) + ((α / 8 : ℝ) : ℂ) * Complex.I *
      (((demoRobot.modules[j]?).elim 0 fun m => vec m.translation) * unitVec θ) := by
  have hu : ‖unitVec θ‖ = 1 := by rw [unitVec, Complex.norm_exp_ofReal_mul_I]
  have hn : ∀ m ∈ demoRobot.modules, ‖vec m.translation‖ ≤ 2 := by
    intro m hm
    have := demo_lever m hm
    nlinarith [norm_nonneg (vec m.translation)]
  have hget : ∀ j : Fin demoRobot.modules.length,
      ((demoRobot.modules[(j : ℕ)]?).elim 0 fun m => vec m.translation) = vec demoRobot.modules[j].translation := by
    intro j
    rw [List.getElem?_eq_getElem j.2]
    rfl
  have hc : ∑ j : Fin demoRobot.modules.length, vec demoRobot.modules[j].translation = 0 := by
    have : (demoRobot.modules.map fun m => vec m.translation).sum = 0 := by
      simp [demoRobot, vec, Complex.ext_iff]
    rw [← List.ofFn_getElem_eq_map, List.sum_ofFn] at this
    exact this
  have hmod : demoRobot.modules.length = 4 := rfl
  refine ⟨?_, ?_, ?_, ?_⟩
  · simp only [hget]
    rw [Finset.sum_add_distrib, ← Finset.mul_sum, ← Finset.sum_mul, hc, Finset.sum_const, Finset.card_univ,
      Fintype.card_fin, hmod]
    simp [demoRobot]
  · have ht : ∀ j : Fin demoRobot.modules.length,
        torque (lever ⟨p, unitVec θ, v, a, w, α⟩ demoRobot.modules[j]) ((a : ℂ) + ((α / 8 : ℝ) : ℂ) * Complex.I *
          (vec demoRobot.modules[j].translation * unitVec θ)) =
        ((starRingEnd ℂ) (vec demoRobot.modules[j].translation) * ((starRingEnd ℂ) (unitVec θ) * a)).im + α / 4 := by
      intro j
      have h1 := unit_mul_conj hu
      have h2 : vec demoRobot.modules[j].translation * (starRingEnd ℂ) (vec demoRobot.modules[j].translation) = 2 := by
        rw [Complex.mul_conj, Complex.normSq_eq_norm_sq, demo_lever demoRobot.modules[j] (List.getElem_mem j.2)]
        simp
      simp only [torque, lever, map_mul]
      generalize vec demoRobot.modules[j].translation = r at *
      have : (starRingEnd ℂ) r * (starRingEnd ℂ) (unitVec θ) * ((a : ℂ) + ((α / 8 : ℝ) : ℂ) * Complex.I *
          (r * unitVec θ)) =
          (starRingEnd ℂ) r * ((starRingEnd ℂ) (unitVec θ) * a) + ((α / 4 : ℝ) : ℂ) * Complex.I := by
        push_cast
        linear_combination (α / 8 * Complex.I * (unitVec θ * (starRingEnd ℂ) (unitVec θ))) * h2 +
          (α / 4 * Complex.I) * h1
      rw [this, Complex.add_im, Complex.im_ofReal_mul, Complex.I_im, mul_one]
    simp only [hget, ht]
    rw [Finset.sum_add_distrib, ← Complex.im_sum, ← Finset.sum_mul, ← map_sum, hc, Finset.sum_const,
      Finset.card_univ, Fintype.card_fin, hmod]
    simp [demoRobot]
    ring
  · intro m hm
    have hs : maxSpeed m = 2 := by
      simp only [demoRobot, List.mem_cons, List.not_mem_nil, or_false] at hm
      rcases hm with rfl | rfl | rfl | rfl <;> norm_num [maxSpeed]
    rw [hs, wheelVelocity]
    refine (norm_add_le _ _).trans (le_trans ?_ hv)
    rw [norm_mul, norm_mul, norm_mul, RCLike.norm_conj, hu, Complex.norm_I, Complex.norm_real, Complex.norm_real,
      Real.norm_eq_abs, Real.norm_eq_abs]
    nlinarith [hn m hm, abs_nonneg w]
  · intro j
    have hs : ∀ m ∈ demoRobot.modules, maxForce m = 2 := by
      intro m hm
      simp only [demoRobot, List.mem_cons, List.not_mem_nil, or_false] at hm
      rcases hm with rfl | rfl | rfl | rfl <;> norm_num [maxForce]
    rw [hs demoRobot.modules[j] (List.getElem_mem j.2)]
    simp only [hget]
    refine (norm_add_le _ _).trans (le_trans ?_ ha)
    rw [norm_mul, norm_mul, norm_mul, hu, Complex.norm_I, Complex.norm_real, Complex.norm_real,
      Real.norm_eq_abs, Real.norm_eq_abs, abs_div, abs_of_pos (by norm_num : (0 : ℝ) < 8)]
    nlinarith [hn demoRobot.modules[j] (List.getElem_mem j.2), abs_nonneg α]

theorem dash_turn : ∀ n ∈ Finset.Icc 1 4, (dashTraj.state n).heading * (starRingEnd ℂ) (dashTraj.state (n - 1)).heading =
    unitVec ((dashTraj.state n).omega * 1) := by
  intro n hn
  obtain ⟨h1, h2⟩ := Finset.mem_Icc.mp hn
  simp only [dashTraj, conj_unitVec, ← unitVec_add]
  congr 1
  interval_cases n <;> norm_num [dashSample]

theorem dash_solves : Solves (run true (dashOps 0 0 (1 / 10) 0 (1 / 10) (1 / 10)) Builder.new) demoRobot dashTraj := by
  obtain ⟨hr, hc, hco, hi0, hi1, hi2⟩ := dash_table 0 0 (1 / 10) 0 (1 / 10) (1 / 10)
  refine (solves_iff ⟨true, _, rfl⟩ hr demo_radius).mpr ⟨?_, ?_, ?_, ?_, ?_, ?_⟩
  · rw [hc]
    intro s hs n hn
    have hs : s < 2 := hs
    have hn' := Finset.mem_Ioc.mp hn
    have h4 : 1 ≤ n ∧ n ≤ 4 := by
      interval_cases s <;> simp [waypointSample] at hn' <;> omega
    refine ⟨?_, .inl (dash_turn n (Finset.mem_Icc.mpr h4)), ?_, ?_⟩ <;> obtain ⟨h1, h2⟩ := h4 <;>
    interval_cases n <;> simp only [dashTraj, dashSample] <;> norm_num
  · rw [hc]
    intro n hn
    have hn : n < 5 := hn
    have := demo_dynamics ((dashSample n).1 / 10 : ℝ) ((dashSample n).2.2.2.1 / 10) ((dashSample n).2.1 / 10)
      ((dashSample n).2.2.1 / 10) ((dashSample n).2.2.2.2.1 / 10) ((dashSample n).2.2.2.2.2 / 10)
      (by interval_cases n <;> norm_num [dashSample, abs_of_pos]) (by interval_cases n <;> norm_num [dashSample, abs_of_pos])
    rw [div_div] at this
    norm_num only at this
    exact this
  · intro s _
    simp [dashTraj]
  · intro s _ m hm g hg
    rw [demo_gap g hg]
    simp only [demoRobot, List.mem_cons, List.not_mem_nil, or_false] at hm
    rcases hm with rfl | rfl | rfl | rfl <;> norm_num [dashTraj]
  · rw [hc]
    intro w hw c hcm
    have hw : w ≤ 2 := hw
    interval_cases w
    · rw [hi0] at hcm
      simp only [List.mem_cons, List.not_mem_nil, or_false] at hcm
      rcases hcm with rfl | rfl | rfl
      · exact ⟨by apply Complex.ext <;> norm_num [dashTraj, dashSample, vec, waypointSample],
          .inl (by norm_num [dashTraj, dashSample, waypointSample])⟩
      · norm_num [Meaning, dashTraj, dashSample, waypointSample]
      · norm_num [Meaning, dashTraj, dashSample, waypointSample]
    · rw [hi1] at hcm
      simp only [List.mem_cons, List.not_mem_nil, or_false] at hcm
      rcases hcm with rfl | rfl | rfl
      · exact ⟨by apply Complex.ext <;> norm_num [dashTraj, dashSample, vec, waypointSample],
          .inl (by norm_num [dashTraj, dashSample, waypointSample])⟩
      · norm_num [Meaning, dashTraj, dashSample, waypointSample]
      · norm_num [Meaning, dashTraj, dashSample, waypointSample]
    · rw [hi2] at hcm
      simp only [List.mem_cons, List.not_mem_nil, or_false] at hcm
      rcases hcm with rfl | rfl | rfl
      · exact ⟨by apply Complex.ext <;> norm_num [dashTraj, dashSample, vec, waypointSample],
          .inl (by norm_num [dashTraj, dashSample, waypointSample])⟩
      · norm_num [Meaning, dashTraj, dashSample, waypointSample]
      · norm_num [Meaning, dashTraj, dashSample, waypointSample]
  · rw [hc]
    intro s hs c hcm
    rw [hco s hs] at hcm
    simp at hcm

/-- A tenth of a metre and a tenth of a radian, there and back. -/
example : ∃ T', Solves (run true (dashOps (1 / 10) (1 / 10) (1 / 10) 0 0 0) Builder.new) demoRobot T' ∧
    timeTaken [2, 2] T' = timeTaken [2, 2] dashTraj := by
  obtain ⟨hr, hc, hco, hi0, hi1, hi2⟩ := dash_table 0 0 (1 / 10) 0 (1 / 10) (1 / 10)
  obtain ⟨hr', hc', hco', hi0', hi1', hi2'⟩ := dash_table (1 / 10) (1 / 10) (1 / 10) 0 0 0
  have := C95_calm_partial _ _ demoRobot dashTraj dash_solves ⟨true, _, rfl⟩ hr' ⟨?_, ?_, ?_⟩ ?_ ?_ ?_ ?_ ?_ ?_
  · rwa [hc, hc'] at this
  · rw [hc, hc']; rfl
  · rw [hc]
    intro w hw
    have hw : w ≤ 2 := hw
    interval_cases w
    · rw [hi0']; exact hi2.symm
    · rw [hi1']; exact hi1.symm
    · rw [hi2']; exact hi0.symm
  · rw [hc]
    intro s hs
    have hs : s < 2 := hs
    rw [hco' s hs]; exact (hco _ (by change 2 - 1 - s < 2; omega)).symm
  · rw [hc]; simp
  · rw [hc]
    intro w hw
    have hw : w ≤ 2 := hw
    interval_cases w <;> norm_num [dashTraj, dashSample, waypointSample]
  · rw [hc]
    intro s hs
    have hs : s < 2 := hs
    interval_cases s
    · left
      intro n hn
      have hn' : 0 < n ∧ n ≤ 2 := by simpa [waypointSample, segmentSamples] using hn
      obtain ⟨h1, h2⟩ := hn'
      interval_cases n <;> norm_num [dashTraj, dashSample]
    · right
      intro n hn
      have hn' : 2 < n ∧ n ≤ 4 := by simpa [waypointSample, segmentSamples] using hn
      obtain ⟨h1, h2⟩ := hn'
      interval_cases n <;> norm_num [dashTraj, dashSample]
  · intro n _
    simp only [dashTraj]
    rw [unitVec, Complex.norm_exp_ofReal_mul_I]
  · rw [hc]
    intro s hs n hn
    have hs : s < 2 := hs
    have hn' := Finset.mem_Ioc.mp hn
    exact dash_turn n (Finset.mem_Icc.mpr (by interval_cases s <;> simp [waypointSample] at hn' <;> omega))
  · rw [hc]
    intro w hw m hm
    have hw : w < 2 := hw
    interval_cases w
    · rw [hi0] at hm
      simp at hm
    · rw [hi1] at hm
      simp at hm

/-! ### Turning while driving -/

/-- Along the x axis while turning, standing at both ends, two control intervals. -/
noncomputable def arcOps (x₀ θ₀ x₁ θ₁ : ℝ) : List (Op ℝ) :=
  [.setDrivetrain demoRobot, .poseWpt 0 x₀ 0 θ₀, .poseWpt 1 x₁ 0 θ₁,
    .wptConstraint 0 (.linearVelocityMaxMagnitude 0), .wptConstraint 0 (.angularVelocityMaxMagnitude 0),
    .wptConstraint 1 (.linearVelocityMaxMagnitude 0), .wptConstraint 1 (.angularVelocityMaxMagnitude 0),
    .controlIntervalCounts [2]]

theorem arc_table (x₀ θ₀ x₁ θ₁ : ℝ) :
    let b := run true (arcOps x₀ θ₀ x₁ θ₁) Builder.new
    Ready b demoRobot ∧ (table b).counts = [2] ∧ (table b).continuous 0 = [] ∧
    (table b).instant 0 = [.poseEquality x₀ 0 θ₀, .linearVelocityMaxMagnitude 0, .angularVelocityMaxMagnitude 0] ∧
    (table b).instant 1 = [.poseEquality x₁ 0 θ₁, .linearVelocityMaxMagnitude 0, .angularVelocityMaxMagnitude 0] := by
  intro b
  obtain ⟨e, hr⟩ : table b = PathTable.empty.afterAll (arcOps x₀ θ₀ x₁ θ₁) ∧ Ready b demoRobot := by
    refine ready_of ?_ _ rfl ?_ ?_ ?_ <;>
    simp [arcOps, PathTable.AcceptsAll, PathTable.Accepts, PathTable.afterAll, PathTable.after,
      PathTable.empty, PathTable.reach, PathTable.requireAt, PathTable.guessAt, sampleCount]
  refine ⟨hr, ?_⟩
  rw [e]
  simp [arcOps, PathTable.afterAll, PathTable.after,
    PathTable.empty, PathTable.reach, PathTable.requireAt, PathTable.guessAt]

/-- Position, heading, velocity, acceleration, angular velocity and angular acceleration of the way there. -/
noncomputable def arcSample : ℕ → ℝ × ℝ × ℝ × ℝ × ℝ × ℝ
  | 0 => (0, Real.pi / 4, 0, 0, 0, 0)
  | 1 => (1, 0, 1, 1, -(Real.pi / 4), -(Real.pi / 4))
  | _ => (1, 0, 0, -1, 0, Real.pi / 4)

noncomputable def arcTraj : Traj where
  state n := ⟨((arcSample n).1 : ℝ), unitVec (arcSample n).2.1, ((arcSample n).2.2.1 : ℝ), ((arcSample n).2.2.2.1 : ℝ),
    (arcSample n).2.2.2.2.1, (arcSample n).2.2.2.2.2⟩
  force n j := ((arcSample n).2.2.2.1 : ℂ) + (((arcSample n).2.2.2.2.2 / 8 : ℝ) : ℂ) * Complex.I *
      (((demoRobot.modules[j]?).elim 0 fun m => vec m.translation) * unitVec (arcSample n).2.1)
  dt _ := 1

theorem arc_speed : ∀ m ∈ demoRobot.modules, ‖wheelVelocity (arcTraj.state 1) m‖ ≤ maxSpeed m := by
  intro m hm
  have hmax : maxSpeed m = 2 := by
    simp only [demoRobot, List.mem_cons, List.not_mem_nil, or_false] at hm
    rcases hm with rfl | rfl | rfl | rfl <;> norm_num [maxSpeed]
  rw [hmax]
  refine le_of_sq_le_sq ?_ (by norm_num)
  rw [← Complex.normSq_eq_norm_sq, Complex.normSq_apply]
  have h1 := Real.pi_gt_three
  have h2 := Real.pi_lt_d2
  simp only [demoRobot, List.mem_cons, List.not_mem_nil, or_false] at hm
  rcases hm with rfl | rfl | rfl | rfl <;>
  · simp [wheelVelocity, arcTraj, arcSample, unitVec, vec]
    nlinarith

theorem arc_solves : Solves (run true (arcOps 0 (Real.pi / 4) 1 0) Builder.new) demoRobot arcTraj := by
  obtain ⟨hr, hc, hco, hi0, hi1⟩ := arc_table 0 (Real.pi / 4) 1 0
  have hp : Real.pi / 4 ≤ 1 := by linarith [Real.pi_lt_d2]
  have hp0 : 0 ≤ Real.pi / 4 := by positivity
  refine (solves_iff ⟨true, _, rfl⟩ hr demo_radius).mpr ⟨?_, ?_, ?_, ?_, ?_, ?_⟩
  · rw [hc]
    intro s hs n hn
    obtain rfl : s = 0 := by simpa using hs
    have hn1 : 1 ≤ n ∧ n ≤ 2 := by
      simp only [segmentSamples, waypointSample, Finset.mem_Ioc, List.take, List.sum_cons, List.sum_nil] at hn
      omega
    obtain rfl | rfl : n = 1 ∨ n = 2 := by omega
    · refine ⟨by simp [arcTraj, arcSample], .inl ?_, by simp [arcTraj, arcSample], by simp [arcTraj, arcSample]⟩
      simp only [arcTraj, arcSample, conj_unitVec, ← unitVec_add, Nat.sub_self]
      congr 1
      ring
    · refine ⟨by simp [arcTraj, arcSample], .inl ?_, by simp [arcTraj, arcSample], by simp [arcTraj, arcSample]⟩
      simp [arcTraj, arcSample, unitVec]
  · rw [hc]
    intro n hn
    simp only [sampleCount, List.sum_cons, List.sum_nil] at hn
    obtain rfl | rfl | rfl : n = 0 ∨ n = 1 ∨ n = 2 := by omega
    · exact demo_dynamics _ _ _ _ _ _ (by simp [arcSample]) (by simp [arcSample])
    · obtain ⟨d1, d2, -, d4⟩ := demo_dynamics 1 0 0 1 0 (-(Real.pi / 4)) (by simp) (by
        rw [abs_neg, abs_of_nonneg hp0, abs_one]; linarith)
      exact ⟨by simpa [arcTraj, arcSample] using d1, by simpa [arcTraj, arcSample, lever] using d2, arc_speed, by
        simpa [arcTraj, arcSample] using d4⟩
    · exact demo_dynamics _ _ _ _ _ _ (by simp [arcSample]) (by
        simp only [arcSample, abs_neg, abs_one, abs_of_nonneg hp0]; linarith)
  · intro s hs; simp [arcTraj]
  · intro s hs m hm g hg
    rw [demo_gap g hg]
    simp only [demoRobot, List.mem_cons, List.not_mem_nil, or_false] at hm
    rcases hm with rfl | rfl | rfl | rfl <;> norm_num [arcTraj]
  · rw [hc]
    intro w hw c hcm
    simp only [List.length_cons, List.length_nil] at hw
    obtain rfl | rfl : w = 0 ∨ w = 1 := by omega
    · rw [hi0] at hcm
      simp only [List.mem_cons, List.not_mem_nil, or_false] at hcm
      rcases hcm with rfl | rfl | rfl
      · exact ⟨by apply Complex.ext <;> simp [arcTraj, arcSample, vec, waypointSample],
          .inl (by simp [arcTraj, arcSample, waypointSample])⟩
      · simp [Meaning, arcTraj, arcSample, waypointSample]
      · simp [Meaning, arcTraj, arcSample, waypointSample]
    · rw [hi1] at hcm
      simp only [List.mem_cons, List.not_mem_nil, or_false] at hcm
      rcases hcm with rfl | rfl | rfl
      · exact ⟨by apply Complex.ext <;> simp [arcTraj, arcSample, vec, waypointSample],
          .inl (by simp [arcTraj, arcSample, waypointSample])⟩
      · simp [Meaning, arcTraj, arcSample, waypointSample]
      · simp [Meaning, arcTraj, arcSample, waypointSample]
  · rw [hc]
    intro s hs c hcm
    obtain rfl : s = 0 := by simpa using hs
    rw [hco] at hcm
    simp at hcm

/-- Wheels at the corners: turning by an eighth of a turn or more while driving a metre takes one of them too far. -/
theorem arc_too_far {h : ℂ} {φ d : ℝ} (hh : h = unitVec (Real.pi / 4) ∨ h = -unitVec (Real.pi / 4))
    (hφ : Real.pi / 4 ≤ |φ|) (hd : d ≤ 1)
    (hw : ∀ σ : ℝ, σ = 1 ∨ σ = -1 →
      ‖(starRingEnd ℂ) h * (-1) + Complex.I * φ * (⟨σ, σ⟩ : ℂ)‖ ≤ 2 * d) : False := by
  set c : ℝ := Real.cos (Real.pi / 4) with hcdef
  have hc2 : c * c = 1 / 2 := by
    rw [hcdef, Real.cos_pi_div_four, div_mul_div_comm, Real.mul_self_sqrt (by norm_num)]; norm_num
  have hc0 : 0 < c := Real.cos_pos_of_mem_Ioo ⟨by linarith [Real.pi_pos], by linarith [Real.pi_pos]⟩
  have hu : unitVec (Real.pi / 4) = ⟨c, c⟩ := by
    apply Complex.ext
    · rw [unitVec, Complex.exp_ofReal_mul_I_re]
    · rw [unitVec, Complex.exp_ofReal_mul_I_im, Real.sin_pi_div_four, hcdef, Real.cos_pi_div_four]
  have key : ∀ ε : ℝ, h = ⟨ε * c, ε * c⟩ → ∀ σ : ℝ, σ = 1 ∨ σ = -1 → (ε * c + φ * σ) * (ε * c + φ * σ) ≤ 2 := by
    intro ε he σ hσ
    have h1 : ‖(starRingEnd ℂ) h * (-1) + Complex.I * φ * (⟨σ, σ⟩ : ℂ)‖ ^ 2 ≤ 2 ^ 2 :=
      pow_le_pow_left₀ (norm_nonneg _) ((hw σ hσ).trans (by linarith)) 2
    rw [← Complex.normSq_eq_norm_sq, Complex.normSq_apply, he] at h1
    simp at h1
    nlinarith
  have hp := Real.pi_gt_three
  have hbig : 2 < (c + |φ|) * (c + |φ|) := by
    have : 3 / 4 < |φ| := by linarith
    nlinarith [sq_nonneg (c - 7 / 10)]
  rcases hh with rfl | rfl
  · have k1 := key 1 (by rw [hu]; simp) 1 (.inl rfl)
    have k2 := key 1 (by rw [hu]; simp) (-1) (.inr rfl)
    rcases abs_cases φ with ⟨e, -⟩ | ⟨e, -⟩ <;> rw [e] at hbig <;> nlinarith
  · have k1 := key (-1) (by rw [hu]; apply Complex.ext <;> simp) 1 (.inl rfl)
    have k2 := key (-1) (by rw [hu]; apply Complex.ext <;> simp) (-1) (.inr rfl)
    rcases abs_cases φ with ⟨e, -⟩ | ⟨e, -⟩ <;> rw [e] at hbig <;> nlinarith

theorem arc_stands {x₀ θ₀ x₁ θ₁ : ℝ} {T : Traj}
    (h : Solves (run true (arcOps x₀ θ₀ x₁ θ₁) Builder.new) demoRobot T) :
    ((T.state 0).vel = 0 ∧ (T.state 0).omega = 0) ∧ ((T.state 2).vel = 0 ∧ (T.state 2).omega = 0) := by
  obtain ⟨hr, hc, hco, hi0, hi1⟩ := arc_table x₀ θ₀ x₁ θ₁
  have ho := h.obeys.instant
  rw [hc] at ho
  have e0 : waypointSample [2] 0 = 0 := rfl
  have e1 : waypointSample [2] 1 = 2 := rfl
  have a1 := ho 0 (by simp) (.linearVelocityMaxMagnitude 0) (by rw [hi0]; simp)
  have a2 := ho 0 (by simp) (.angularVelocityMaxMagnitude 0) (by rw [hi0]; simp)
  have a3 := ho 1 (by simp) (.linearVelocityMaxMagnitude 0) (by rw [hi1]; simp)
  have a4 := ho 1 (by simp) (.angularVelocityMaxMagnitude 0) (by rw [hi1]; simp)
  rw [e0] at a1 a2
  rw [e1] at a3 a4
  simp only [Meaning, abs_zero, norm_le_zero_iff, abs_nonpos_iff] at a1 a2 a3 a4
  exact ⟨⟨a1, a2⟩, a3, a4⟩

theorem unit_of_or {h : ℂ} {θ : ℝ} (hh : h = unitVec θ ∨ h = -unitVec θ) : h * (starRingEnd ℂ) h = 1 := by
  have : ‖unitVec θ‖ = 1 := by rw [unitVec, Complex.norm_exp_ofReal_mul_I]
  rcases hh with rfl | rfl <;> exact unit_mul_conj (by simp [this])

theorem arc_no_way_back (T : Traj) : ¬ Solves (run true (arcOps 1 0 0 (Real.pi / 4)) Builder.new) demoRobot T := by
  intro h
  obtain ⟨hr, hc, hco, hi0, hi1⟩ := arc_table 1 0 0 (Real.pi / 4)
  obtain ⟨⟨v0, w0⟩, v2, w2⟩ := arc_stands h
  have ho := h.obeys
  have e0 : waypointSample [2] 0 = 0 := rfl
  have e1 : waypointSample [2] 1 = 2 := rfl
  have i1 := ho.interval 0 (by rw [hc]; simp) 1 (by rw [hc]; simp [segmentSamples, waypointSample])
  have i2 := ho.interval 0 (by rw [hc]; simp) 2 (by rw [hc]; simp [segmentSamples, waypointSample])
  have p0 := ho.instant 0 (by rw [hc]; simp) (.poseEquality 1 0 0) (by rw [hi0]; simp)
  have p2 := ho.instant 1 (by rw [hc]; simp) (.poseEquality 0 0 (Real.pi / 4)) (by rw [hi1]; simp)
  rw [hc, e0] at p0
  rw [hc, e1] at p2
  have ht := ho.time 0 (by rw [hc]; simp)
  have hcap := ho.stepCap 0 (by rw [hc]; simp) ⟨⟨1, 1⟩, 1, 2, 2⟩ (by simp [demoRobot]) 2
    ⟨by norm_num, ⟨⟨1, 1⟩, 1, 2, 2⟩, ⟨⟨1, -1⟩, 1, 2, 2⟩, by simp [demoRobot], .inr (by norm_num)⟩
  have hdyn := (ho.dynamics 1 (by rw [hc]; simp [sampleCount])).speed
  have hd1 : T.dt 0 ≤ 1 := by
    have : T.dt 0 * 1 * 2 ≤ 2 := hcap
    linarith
  obtain ⟨x1, t1, -, -⟩ := i1
  obtain ⟨x2, t2, -, -⟩ := i2
  obtain ⟨q0, g0⟩ := p0
  obtain ⟨q2, g2⟩ := p2
  norm_num only at x1 x2 t1 t2
  rw [v2, mul_zero, add_zero] at x2
  rw [w2, zero_mul] at t2
  have hmove : (T.dt 0 : ℂ) * (T.state 1).vel = -1 := by
    rw [← x2, q2, q0] at x1
    have : (T.dt 0 : ℂ) * (T.state 1).vel = vec ⟨0, 0⟩ - vec ⟨1, 0⟩ := by rw [x1]; ring
    rw [this]; apply Complex.ext <;> simp [vec]
  have u2 := unit_of_or g2
  have u0 := unit_of_or g0
  have one : unitVec 0 = 1 := by simp [unitVec]
  rw [one] at t2 g0
  have hh1 : (T.state 1).heading = (T.state 2).heading ∨ (T.state 1).heading = -(T.state 2).heading := by
    have hcj : (T.state 2).heading * (starRingEnd ℂ) (T.state 1).heading = 1 →
        (T.state 1).heading = (T.state 2).heading := by
      intro e
      have e' := congrArg (starRingEnd ℂ) e
      simp only [map_mul, Complex.conj_conj, map_one] at e'
      calc (T.state 1).heading = (T.state 2).heading * (starRingEnd ℂ) (T.state 2).heading * (T.state 1).heading := by
            rw [u2, one_mul]
        _ = (T.state 2).heading * ((starRingEnd ℂ) (T.state 2).heading * (T.state 1).heading) := by ring
        _ = _ := by rw [e', mul_one]
    have hcj' : (T.state 2).heading * (starRingEnd ℂ) (T.state 1).heading = -1 →
        (T.state 1).heading = -(T.state 2).heading := by
      intro e
      have e' := congrArg (starRingEnd ℂ) e
      simp only [map_mul, Complex.conj_conj, map_one, map_neg] at e'
      calc (T.state 1).heading = (T.state 2).heading * (starRingEnd ℂ) (T.state 2).heading * (T.state 1).heading := by
            rw [u2, one_mul]
        _ = (T.state 2).heading * ((starRingEnd ℂ) (T.state 2).heading * (T.state 1).heading) := by ring
        _ = _ := by rw [e']; ring
    exact t2.imp hcj hcj'
  have g1 : (T.state 1).heading = unitVec (Real.pi / 4) ∨ (T.state 1).heading = -unitVec (Real.pi / 4) := by
    rcases hh1 with e | e <;> rcases g2 with e' | e' <;> rw [e, e'] <;> simp
  have hturn : unitVec ((T.state 1).omega * T.dt 0) = unitVec (Real.pi / 4) ∨
      unitVec ((T.state 1).omega * T.dt 0) = -unitVec (Real.pi / 4) := by
    rcases g0 with e0 | e0 <;> rcases g1 with e1 | e1 <;> rcases t1 with e | e <;> rw [e0, e1] at e <;>
      simp only [map_one, map_neg, mul_one, mul_neg, neg_neg, neg_inj] at e <;>
      first | exact .inl e.symm | exact .inr e.symm | exact .inr (neg_eq_iff_eq_neg.mp e.symm)
  refine arc_too_far (h := (T.state 1).heading) (φ := (T.state 1).omega * T.dt 0) (d := T.dt 0) g1 ?_ hd1 ?_
  · by_contra hlt
    push Not at hlt
    have hpp := Real.pi_pos
    have hcos : Real.cos (Real.pi / 4) < Real.cos ((T.state 1).omega * T.dt 0) := by
      rw [← Real.cos_abs ((T.state 1).omega * T.dt 0)]
      exact Real.cos_lt_cos_of_nonneg_of_le_pi (abs_nonneg _) (by linarith) hlt
    have hc0 : 0 < Real.cos (Real.pi / 4) :=
      Real.cos_pos_of_mem_Ioo ⟨by linarith, by linarith⟩
    have hre : ∀ x : ℝ, (unitVec x).re = Real.cos x := fun x => by
      rw [unitVec, Complex.exp_ofReal_mul_I_re]
    rcases hturn with e | e
    · have := congrArg Complex.re e
      rw [hre, hre] at this
      linarith
    · have := congrArg Complex.re e
      rw [Complex.neg_re, hre, hre] at this
      linarith
  · intro σ hσ
    have hm : (⟨⟨σ, σ⟩, 1, 2, 2⟩ : SwerveModule ℝ) ∈ demoRobot.modules := by
      rcases hσ with rfl | rfl <;> simp [demoRobot]
    have := hdyn _ hm
    have hms : maxSpeed (⟨⟨σ, σ⟩, 1, 2, 2⟩ : SwerveModule ℝ) = 2 := by norm_num [maxSpeed]
    rw [hms] at this
    have e : (starRingEnd ℂ) (T.state 1).heading * (-1) +
        Complex.I * (((T.state 1).omega * T.dt 0 : ℝ) : ℂ) * (⟨σ, σ⟩ : ℂ) =
        (T.dt 0 : ℂ) * wheelVelocity (T.state 1) ⟨⟨σ, σ⟩, 1, 2, 2⟩ := by
      rw [wheelVelocity, ← hmove, vec]
      push_cast
      ring
    rw [e, norm_mul, Complex.norm_real, Real.norm_eq_abs, abs_of_nonneg ht, mul_comm (2 : ℝ)]
    exact mul_le_mul_of_nonneg_left this ht

/-- C95 is false also of a robot that stands at every waypoint and makes no half turns, if it turns while it drives:
its wheels are checked with the heading it has at the end of a control interval, which is not the one it has there
on the way back. -/
theorem C95_refuted_turning : ∃ (dr : SwerveDrivetrain ℝ) (ops ops' : List (Op ℝ)),
    let t := table (run true ops Builder.new)
    Backwards t (table (run true ops' Builder.new)) ∧
    (∀ T, Solves (run true ops Builder.new) dr T → ∀ w ≤ t.counts.length,
      (T.state (waypointSample t.counts w)).vel = 0 ∧ (T.state (waypointSample t.counts w)).omega = 0) ∧
    (∃ T, Solves (run true ops Builder.new) dr T ∧ (∀ n, ‖(T.state n).heading‖ = 1) ∧
      ∀ s < t.counts.length, ∀ n ∈ segmentSamples t.counts s,
        (T.state n).heading * (starRingEnd ℂ) (T.state (n - 1)).heading = unitVec ((T.state n).omega * T.dt s)) ∧
    Ready (run true ops' Builder.new) dr ∧ ¬ ∃ T, Solves (run true ops' Builder.new) dr T := by
  obtain ⟨hr, hc, hco, hi0, hi1⟩ := arc_table 0 (Real.pi / 4) 1 0
  obtain ⟨hr', hc', hco', hi0', hi1'⟩ := arc_table 1 0 0 (Real.pi / 4)
  refine ⟨demoRobot, arcOps 0 (Real.pi / 4) 1 0, arcOps 1 0 0 (Real.pi / 4), ⟨?_, ?_, ?_⟩, ?_,
    ⟨arcTraj, arc_solves, ?_, ?_⟩, hr', fun ⟨T, h⟩ => arc_no_way_back T h⟩
  · rw [hc, hc']; rfl
  · rw [hc]
    intro w hw
    have hw : w ≤ 1 := hw
    interval_cases w
    · rw [hi0']; exact hi1.symm
    · rw [hi1']; exact hi0.symm
  · rw [hc]
    intro s hs
    obtain rfl : s = 0 := by simpa using hs
    rw [hco']; exact hco.symm
  · rw [hc]
    intro T h w hw
    have hw : w ≤ 1 := hw
    interval_cases w
    · exact (arc_stands h).1
    · exact (arc_stands h).2
  · intro n
    simp only [arcTraj]
    rw [unitVec, Complex.norm_exp_ofReal_mul_I]
  · rw [hc]
    intro s hs n hn
    obtain rfl : s = 0 := by simpa using hs
    have hn' : 0 < n ∧ n ≤ 2 := by simpa [waypointSample, segmentSamples] using hn
    obtain ⟨h1, h2⟩ := hn'
    simp only [arcTraj, conj_unitVec, ← unitVec_add]
    congr 1
    interval_cases n <;> norm_num [arcSample]

end Trajopt.Props
