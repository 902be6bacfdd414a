import Verif.Spec.Limit
import Verif.Props.Slow
import Verif.Props.Throttle
import Verif.Props.Examples

/-!
# C113 Fastest trajectories reach a limit (real arithmetic)
-/

set_option autoImplicit false

namespace Trajopt.Props

open Spec Builder Filter Topology

theorem interval_paced {k dt : ℝ} (hk : 0 < k) {a b : State} (h : Interval dt a b) :
    Interval (k * dt) (a.slower k) (b.slower k) := by
  have hkc : (k : ℂ) ≠ 0 := by exact_mod_cast hk.ne'
  constructor
  · change b.pos = a.pos + _ * (b.vel / k)
    rw [h.pos]
    push_cast
    field_simp
  · change b.heading * (starRingEnd ℂ) a.heading = unitVec (b.omega / k * (k * dt)) ∨
      b.heading * (starRingEnd ℂ) a.heading = -unitVec (b.omega / k * (k * dt))
    rw [show b.omega / k * (k * dt) = b.omega * dt by field_simp]
    exact h.turn
  · change b.vel / k = a.vel / k + _ * (b.acc / k ^ 2)
    rw [h.vel]
    push_cast
    field_simp
  · change b.omega / k = a.omega / k + k * dt * (b.alpha / k ^ 2)
    rw [h.omega]
    field_simp

/-- What an interval requires of its first state. -/
theorem interval_start {dt : ℝ} {a a' b : State} (h1 : a'.pos = a.pos) (h2 : a'.heading = a.heading)
    (h3 : a'.vel = a.vel) (h4 : a'.omega = a.omega) (h : Interval dt a b) : Interval dt a' b := by
  obtain ⟨p, t, v, o⟩ := h
  exact ⟨by rw [h1]; exact p, by rw [h2]; exact t, by rw [h3]; exact v, by rw [h4]; exact o⟩

/-- A quantity below its limit, or zero, stays within it when everything is a little faster. -/
theorem near_one {q L : ℝ} (p : ℕ) (h : q ≤ L) (h0 : 0 ≤ q) (hq : ¬ (q ≠ 0 ∧ q = L)) :
    ∀ᶠ k in 𝓝 (1 : ℝ), q / k ^ p ≤ L := by
  by_cases hz : q = 0
  · exact Eventually.of_forall fun k => by rw [hz, zero_div]; exact h0.trans h
  · have hlt : q < L := lt_of_le_of_ne h fun e => hq ⟨hz, e⟩
    have hc : ContinuousAt (fun k : ℝ => q / k ^ p) 1 :=
      continuousAt_const.div (continuousAt_id.pow p) (by simp)
    have : (fun k : ℝ => q / k ^ p) 1 < L := by simpa using hlt
    exact (hc.eventually_lt continuousAt_const this).mono fun k hk => hk.le

theorem wheel_slower (k : ℝ) (s : State) (m : SwerveModule ℝ) :
    wheelVelocity (s.slower k) m = wheelVelocity s m / k := by
  simp only [wheelVelocity, State.slower]
  push_cast
  ring

theorem dynamics_near {dr : SwerveDrivetrain ℝ} {s : State} {F : ℕ → ℂ} (h : Dynamics dr s F)
    (h1 : ¬ ∃ m ∈ dr.modules, wheelVelocity s m ≠ 0 ∧ ‖wheelVelocity s m‖ = maxSpeed m)
    (h2 : ¬ ∃ j : Fin dr.modules.length, F j ≠ 0 ∧ ‖F j‖ = maxForce dr.modules[j]) :
    ∀ᶠ k in 𝓝 (1 : ℝ), Dynamics dr (s.slower k) (fun j => F j / k ^ 2) := by
  have e1 : ∀ᶠ k in 𝓝 (1 : ℝ), ∀ m ∈ dr.modules.toFinset, ‖wheelVelocity s m‖ / k ^ 1 ≤ maxSpeed m := by
    rw [eventually_all_finset]
    intro m hm
    have hm := List.mem_toFinset.mp hm
    exact near_one 1 (h.speed m hm) (norm_nonneg _) fun h => h1 ⟨m, hm, norm_ne_zero_iff.mp h.1, h.2⟩
  have e2 : ∀ᶠ k in 𝓝 (1 : ℝ), ∀ j : Fin dr.modules.length, ‖F j‖ / k ^ 2 ≤ maxForce dr.modules[j] := by
    rw [eventually_all]
    intro j
    exact near_one 2 (h.limit j) (norm_nonneg _) fun h => h2 ⟨j, norm_ne_zero_iff.mp h.1, h.2⟩
  have e3 : ∀ᶠ k in 𝓝 (1 : ℝ), 0 < k := lt_mem_nhds one_pos
  filter_upwards [e1, e2, e3] with k h3 h4 hk
  constructor
  · change _ = dr.mass * (s.acc / k ^ 2)
    rw [← Finset.sum_div, h.force, mul_div_assoc]
  · change ∑ j : Fin dr.modules.length, Spec.torque (lever s dr.modules[j]) (F j / k ^ 2) =
      dr.moi * (s.alpha / k ^ 2)
    rw [← mul_div_assoc, ← h.torque, Finset.sum_div]
    refine Finset.sum_congr rfl fun j _ => ?_
    rw [Spec.torque, Spec.torque, ← mul_div_assoc, ← Complex.ofReal_pow, Complex.div_ofReal_im]
  · intro m hm
    rw [wheel_slower, norm_div, Complex.norm_real, Real.norm_of_nonneg hk.le]
    simpa using h3 m (List.mem_toFinset.mpr hm)
  · intro j
    rw [norm_div, norm_pow, Complex.norm_real, Real.norm_of_nonneg hk.le]
    exact h4 j

theorem meaning_near {c : Constraint ℝ} {s : State} (h : Meaning c s) (hl : ¬ LimitReached c s) :
    ∀ᶠ k in 𝓝 (1 : ℝ), Meaning c (s.slower k) := by
  have e3 : ∀ᶠ k in 𝓝 (1 : ℝ), 0 < k := lt_mem_nhds one_pos
  cases c with
  | angularVelocityMaxMagnitude m =>
    filter_upwards [near_one 1 (h : |s.omega| ≤ m) (abs_nonneg _) fun g => hl ⟨abs_ne_zero.mp g.1, g.2⟩, e3]
      with k hk h0
    change |s.omega / k| ≤ m
    rw [abs_div, abs_of_pos h0]
    simpa using hk
  | linearAccelerationMaxMagnitude m =>
    filter_upwards [near_one 2 (h : ‖s.acc‖ ≤ |m|) (norm_nonneg _) fun g => hl ⟨norm_ne_zero_iff.mp g.1, g.2⟩, e3]
      with k hk h0
    change ‖s.acc / k ^ 2‖ ≤ |m|
    rw [norm_div, norm_pow, Complex.norm_real, Real.norm_of_nonneg h0.le]
    exact hk
  | linearVelocityMaxMagnitude m =>
    filter_upwards [near_one 1 (h : ‖s.vel‖ ≤ |m|) (norm_nonneg _) fun g => hl ⟨norm_ne_zero_iff.mp g.1, g.2⟩, e3]
      with k hk h0
    change ‖s.vel / k‖ ≤ |m|
    rw [norm_div, Complex.norm_real, Real.norm_of_nonneg h0.le]
    simpa using hk
  | linearVelocityDirection a =>
    obtain ⟨t, ht⟩ := h
    refine Eventually.of_forall fun k => ⟨t / k, ?_⟩
    change s.vel / k = _
    rw [ht]
    push_cast
    ring
  | pointAt p tol => exact Eventually.of_forall fun _ => h
  | linePoint a b p d => exact Eventually.of_forall fun _ => h
  | pointLine r a b d => exact Eventually.of_forall fun _ => h
  | pointPoint r p d => exact Eventually.of_forall fun _ => h
  | poseEquality x y a => exact Eventually.of_forall fun _ => h
  | translationEquality t => exact Eventually.of_forall fun _ => h

/-- The samples whose states change when the stretch from waypoint `i` to waypoint `j` is driven at another pace. -/
def Along (N : List ℕ) (i j n : ℕ) : Prop :=
  (i ≠ 0 → waypointSample N i < n) ∧ n ≤ waypointSample N j

open Classical in
/-- The stretch from waypoint `i` to waypoint `j` takes `k` times as long. -/
noncomputable def paced (N : List ℕ) (i j : ℕ) (k : ℝ) (T : Traj) : Traj where
  state n := if Along N i j n then (T.state n).slower k else T.state n
  force n l := if Along N i j n then T.force n l / k ^ 2 else T.force n l
  dt s := if i ≤ s ∧ s < j then k * T.dt s else T.dt s

theorem sample_mono (N : List ℕ) {i j : ℕ} (h : i ≤ j) : waypointSample N i ≤ waypointSample N j := by
  rw [waypointSample, waypointSample]
  exact (List.take_sublist_take_left h).sum_le_sum fun _ _ => Nat.zero_le _

theorem slower_rest {s : State} (h : s.Rests) (k : ℝ) :
    (s.slower k).vel = s.vel ∧ (s.slower k).omega = s.omega := by
  simp [State.slower, h.1, h.2]

theorem paced_interval {N : List ℕ} {i j : ℕ} (hij : i < j) {T : Traj}
    (hi : i ≠ 0 → (T.state (waypointSample N i)).Rests)
    (hjr : j ≠ N.length → (T.state (waypointSample N j)).Rests) {k : ℝ} (hk : 0 < k)
    (h : ∀ s < N.length, ∀ n ∈ segmentSamples N s, Interval (T.dt s) (T.state (n - 1)) (T.state n)) :
    ∀ s < N.length, ∀ n ∈ segmentSamples N s,
      Interval ((paced N i j k T).dt s) ((paced N i j k T).state (n - 1)) ((paced N i j k T).state n) := by
  intro s hs n hn
  have h := h s hs n hn
  obtain ⟨n1, n2⟩ := Finset.mem_Ioc.mp hn
  simp only [paced]
  by_cases hc : i ≤ s ∧ s < j
  · have m1 := sample_mono N hc.1
    have m2 := sample_mono N (show s + 1 ≤ j by omega)
    rw [if_pos hc, if_pos (show Along N i j n from ⟨fun _ => by omega, by omega⟩)]
    have h' := interval_paced hk h
    split
    · exact h'
    next hna =>
      have h0 : i ≠ 0 := by
        rintro rfl
        exact hna ⟨fun h => absurd rfl h, by omega⟩
      have he : n - 1 = waypointSample N i := by
        by_contra hne
        exact hna ⟨fun _ => by omega, by omega⟩
      obtain ⟨r1, r2⟩ := slower_rest (he ▸ hi h0) k
      exact interval_start (a := (T.state (n - 1)).slower k) rfl rfl r1.symm r2.symm h'
  · rw [if_neg hc]
    by_cases hsi : s < i
    · have m1 := sample_mono N (show s + 1 ≤ i by omega)
      rw [if_neg (fun h : Along N i j n => by have := h.1 (by omega); omega),
        if_neg (fun h : Along N i j (n - 1) => by have := h.1 (by omega); omega)]
      exact h
    · have hsj : j ≤ s := by omega
      have m1 := sample_mono N hsj
      rw [if_neg (fun h : Along N i j n => by have := h.2; omega)]
      split
      next ha =>
        have he : n - 1 = waypointSample N j := by have := ha.2; omega
        obtain ⟨r1, r2⟩ := slower_rest (he ▸ hjr (by omega)) k
        exact interval_start (a := T.state (n - 1)) rfl rfl r1 r2 h
      · exact h

/-- C113: in a fastest trajectory, a limit is reached on every stretch from one stop to the next that takes time.  (The
beginning and the end of the path need not be stops.) -/
theorem C113_stretch (b : Builder ℝ) (dr : SwerveDrivetrain ℝ) (T : Traj) (h : Fastest b dr T) (i j : ℕ) (hij : i < j)
    (hj : j ≤ (table b).counts.length)
    (hi : i ≠ 0 → (T.state (waypointSample (table b).counts i)).Rests)
    (hjr : j ≠ (table b).counts.length → (T.state (waypointSample (table b).counts j)).Rests)
    (ht : ∃ s, i ≤ s ∧ s < j ∧ 0 < (table b).counts.getD s 0 ∧ 0 < T.dt s) :
    ∃ n, (i ≠ 0 → waypointSample (table b).counts i < n) ∧ n ≤ waypointSample (table b).counts j ∧
      AtLimit (table b) dr T n := by
  by_contra hno
  have hlim : ∀ n, Along (table b).counts i j n → ¬ AtLimit (table b) dr T n := fun n hn ha =>
    hno ⟨n, hn.1, hn.2, ha⟩
  obtain ⟨o1, o2, o3, o4, o5, o6⟩ := h.solves.obeys
  set N := (table b).counts with hN
  have hlast : ∀ w, waypointSample N w ≤ N.sum := fun w => (List.take_sublist w N).sum_le_sum fun _ _ => Nat.zero_le _
  have e1 : ∀ᶠ k in 𝓝 (1 : ℝ), ∀ n ∈ Finset.range (sampleCount N), Along N i j n →
      Dynamics dr ((T.state n).slower k) (fun l => T.force n l / k ^ 2) := by
    rw [eventually_all_finset]
    intro n hn
    by_cases ha : Along N i j n
    · have := hlim n ha
      exact (dynamics_near (o2 n (Finset.mem_range.mp hn)) (fun h => this (.inl h)) fun h => this (.inr (.inl h))).mono
        fun _ h _ => h
    · exact Eventually.of_forall fun _ h => absurd h ha
  have e2 : ∀ᶠ k in 𝓝 (1 : ℝ), ∀ w ∈ Finset.range (1 + N.length), ∀ c ∈ (table b).instant w,
      Along N i j (waypointSample N w) → Meaning c ((T.state (waypointSample N w)).slower k) := by
    rw [eventually_all_finset]
    intro w hw
    have hw : w ≤ N.length := by have := Finset.mem_range.mp hw; omega
    refine (eventually_all_finite (List.finite_toSet ((table b).instant w))).mpr fun c hc => ?_
    by_cases ha : Along N i j (waypointSample N w)
    · exact (meaning_near (o5 w hw c hc) fun hl => hlim _ ha (.inr (.inr ⟨c, .inl ⟨w, hw, rfl, hc⟩, hl⟩))).mono
        fun _ h _ => h
    · exact Eventually.of_forall fun _ h => absurd h ha
  have e3 : ∀ᶠ k in 𝓝 (1 : ℝ), ∀ s ∈ Finset.range N.length, ∀ c ∈ (table b).continuous s, ∀ n ∈ segmentSamples N s,
      Along N i j n → Meaning c ((T.state n).slower k) := by
    rw [eventually_all_finset]
    intro s hs
    have hs := Finset.mem_range.mp hs
    refine (eventually_all_finite (List.finite_toSet ((table b).continuous s))).mpr fun c hc => ?_
    rw [eventually_all_finset]
    intro n hn
    by_cases ha : Along N i j n
    · exact (meaning_near (o6 s hs c hc n hn) fun hl => hlim _ ha (.inr (.inr ⟨c, .inr ⟨s, hs, hn, hc⟩, hl⟩))).mono
        fun _ h _ => h
    · exact Eventually.of_forall fun _ h => absurd h ha
  have e4 : ∀ᶠ k in 𝓝 (1 : ℝ), 0 < k := lt_mem_nhds one_pos
  obtain ⟨k, ⟨k1, k2, k3, k4⟩, k5⟩ := (((e1.and (e2.and (e3.and e4))).filter_mono
    (nhdsWithin_le_nhds (s := Set.Iio 1))).and self_mem_nhdsWithin).exists
  have k5 : k < 1 := k5
  have hs : Solves b dr (paced N i j k T) := by
    rw [solves_iff h.solves.reachable h.solves.ready h.solves.radius]
    refine ⟨paced_interval hij hi hjr k4 o1, ?_, ?_, ?_, ?_, ?_⟩
    · intro n hn
      simp only [paced]
      split
      next ha => exact k1 n (Finset.mem_range.mpr hn) ha
      · exact o2 n hn
    · intro s hs
      simp only [paced]
      split
      · exact mul_nonneg k4.le (o3 s hs)
      · exact o3 s hs
    · intro s hs m hm g hg
      have hX := o4 s hs m hm g hg
      have hg0 : 0 < g := by
        obtain ⟨h0, _, _, -, e⟩ := hg
        refine lt_of_le_of_ne ?_ h0.symm
        rcases e with e | e <;> exact e ▸ abs_nonneg _
      simp only [paced]
      split
      · rw [show k * T.dt s * m.wheelRadius * m.wheelMaxAngularVelocity =
          k * (T.dt s * m.wheelRadius * m.wheelMaxAngularVelocity) by ring]
        rcases le_or_gt 0 (T.dt s * m.wheelRadius * m.wheelMaxAngularVelocity) with hx | hx
        · exact (mul_le_of_le_one_left hx k5.le).trans hX
        · exact (mul_neg_of_pos_of_neg k4 hx).le.trans hg0.le
      · exact hX
    · intro w hw c hc
      simp only [paced]
      split
      next ha => exact k2 w (Finset.mem_range.mpr (by have : w ≤ N.length := hw; omega)) c hc ha
      · exact o5 w hw c hc
    · intro s hs c hc n hn
      simp only [paced]
      split
      next ha => exact k3 s (Finset.mem_range.mpr hs) c hc n hn ha
      · exact o6 s hs c hc n hn
  have hle := h.least _ hs
  refine absurd hle (not_le.mpr ?_)
  rw [timeTaken, timeTaken]
  obtain ⟨s, s1, s2, s3, s4⟩ := ht
  refine Finset.sum_lt_sum (fun s hs => ?_) ⟨s, Finset.mem_range.mpr (s2.trans_le hj), ?_⟩
  · refine mul_le_mul_of_nonneg_left ?_ (Nat.cast_nonneg _)
    simp only [paced]
    split
    · exact mul_le_of_le_one_left (o3 s (Finset.mem_range.mp hs)) k5.le
    · exact le_rfl
  · refine mul_lt_mul_of_pos_left ?_ (by exact_mod_cast s3)
    simp only [paced]
    rw [if_pos ⟨s1, s2⟩]
    exact mul_lt_of_lt_one_left s4 k5

/-- C113: a fastest trajectory that takes any time reaches a limit somewhere. -/
theorem C113_fastest (b : Builder ℝ) (dr : SwerveDrivetrain ℝ) (T : Traj) (h : Fastest b dr T)
    (ht : 0 < timeTaken (table b).counts T) : ∃ n < sampleCount (table b).counts, AtLimit (table b) dr T n := by
  obtain ⟨s, hs, hpos⟩ : ∃ s ∈ Finset.range (table b).counts.length,
      0 < ((table b).counts.getD s 0 : ℝ) * T.dt s := by
    by_contra hno
    push Not at hno
    exact absurd ht (not_lt.mpr (Finset.sum_nonpos hno))
  have hs := Finset.mem_range.mp hs
  have hdt := h.solves.obeys.time s hs
  have hN : 0 < (table b).counts.getD s 0 := by
    rcases Nat.eq_zero_or_pos ((table b).counts.getD s 0) with e | e
    · rw [e] at hpos; simp at hpos
    · exact e
  have hd : 0 < T.dt s := lt_of_le_of_ne hdt fun e => by rw [← e] at hpos; simp at hpos
  obtain ⟨n, -, hn, ha⟩ := C113_stretch b dr T h 0 (table b).counts.length (by omega) le_rfl
    (fun h => absurd rfl h) (fun h => absurd rfl h) ⟨s, Nat.zero_le _, hs, hN, hd⟩
  refine ⟨n, ?_, ha⟩
  rw [waypointSample, List.take_length] at hn
  rw [sampleCount]
  omega

/-- Where no time passes, the robot does not move. -/
theorem stays {N : List ℕ} {T : Traj} {s : ℕ}
    (h : ∀ n ∈ segmentSamples N s, Interval (T.dt s) (T.state (n - 1)) (T.state n)) (h0 : T.dt s = 0) :
    ∀ d, waypointSample N s + d ≤ waypointSample N (s + 1) →
      (T.state (waypointSample N s + d)).pos = (T.state (waypointSample N s)).pos := by
  intro d
  induction d with
  | zero => exact fun _ => rfl
  | succ d ih =>
    intro hd
    have := (h (waypointSample N s + (d + 1)) (Finset.mem_Ioc.mpr ⟨by omega, hd⟩)).pos
    rw [this, h0, show waypointSample N s + (d + 1) - 1 = waypointSample N s + d by omega, ih (by omega)]
    simp

/-- C113: in a fastest trajectory, a limit is reached between any two stops at different places.  (The beginning and the
end of the path need not be stops.) -/
theorem C113_moves (b : Builder ℝ) (dr : SwerveDrivetrain ℝ) (T : Traj) (h : Fastest b dr T) (i j : ℕ) (hij : i < j)
    (hj : j ≤ (table b).counts.length)
    (hi : i ≠ 0 → (T.state (waypointSample (table b).counts i)).Rests)
    (hjr : j ≠ (table b).counts.length → (T.state (waypointSample (table b).counts j)).Rests)
    (hp : (T.state (waypointSample (table b).counts i)).pos ≠ (T.state (waypointSample (table b).counts j)).pos) :
    ∃ n, (i ≠ 0 → waypointSample (table b).counts i < n) ∧ n ≤ waypointSample (table b).counts j ∧
      AtLimit (table b) dr T n := by
  refine C113_stretch b dr T h i j hij hj hi hjr ?_
  by_contra hno
  push Not at hno
  refine hp (Nat.le_induction (P := fun m _ => m ≤ j → (T.state (waypointSample (table b).counts i)).pos =
    (T.state (waypointSample (table b).counts m)).pos) (fun _ => rfl) (fun m him ih hm => ?_) j hij.le le_rfl)
  rw [ih (by omega)]
  have hml : m < (table b).counts.length := by omega
  have hstep : waypointSample (table b).counts (m + 1) =
      waypointSample (table b).counts m + (table b).counts.getD m 0 := by
    rw [waypointSample, waypointSample, List.sum_take_succ _ _ hml, getD_lt hml]
  rcases Nat.eq_zero_or_pos ((table b).counts.getD m 0) with e | e
  · rw [hstep, e, Nat.add_zero]
  · have h0 : T.dt m = 0 := le_antisymm (hno m him (by omega) e) (h.solves.obeys.time m hml)
    rw [hstep]
    exact (stays (h.solves.obeys.interval m hml) h0 _ hstep.ge).symm

/-- The first example program. -/
example : ∃ T, Fastest (run true (Examples.cpp1 : List (Op ℝ)) Builder.new) shippedRobot T ∧
    ∃ n < sampleCount (table (run true (Examples.cpp1 : List (Op ℝ)) Builder.new)).counts,
      AtLimit (table (run true (Examples.cpp1 : List (Op ℝ)) Builder.new)) shippedRobot T n := by
  obtain ⟨⟨T, hT⟩, ht⟩ := C85_example true Examples.cpp1 (.inl rfl)
  exact ⟨T, hT, C113_fastest _ _ T hT (by rw [ht T hT]; positivity)⟩

/-- A path with a stop on the way. -/
noncomputable def pauseOps : List (Op ℝ) :=
  [.setDrivetrain shippedRobot, .poseWpt 0 0 0 0, .poseWpt 1 1 0 0, .poseWpt 2 2 0 0,
    .wptConstraint 1 (.linearVelocityMaxMagnitude 0), .wptConstraint 1 (.angularVelocityMaxMagnitude 0),
    .controlIntervalCounts [40, 40]]

local macro "pause" : tactic => `(tactic|
  simp [pauseOps, PathTable.AcceptsAll, PathTable.Accepts, PathTable.afterAll, PathTable.after, PathTable.empty,
    PathTable.reach, PathTable.requireAt, PathTable.Suits, PathTable.guessAt, sampleCount])

theorem pause_fastest : ∃ T, Fastest (run true pauseOps Builder.new) shippedRobot T := by
  refine (shipped_straight true pauseOps (by pause) _ rfl (by pause) (by pause) (by pause) (by pause)
    (fun w => ([0, 1, 2] : List ℂ).getD w 0) (fun _ => 0) ?_ ?_ (by pause) 0 0 0 (by pause)).2
  · intro s hs
    replace hs : s < 2 := hs
    interval_cases s <;> norm_num
  · intro w hw
    replace hw : w ≤ 2 := hw
    interval_cases w <;> pause
    · exact stop_pose (by simp [Complex.ext_iff]) (by simp)
    · exact ⟨stop_pose (by simp [Complex.ext_iff]) (by simp), stop_noSpeed, stop_noTurn⟩
    · exact stop_pose (by simp [Complex.ext_iff]) (by simp)

/-- On this path a limit is reached before the stop, and again after it. -/
example : ∃ T, Fastest (run true pauseOps Builder.new) shippedRobot T ∧
    (∃ n ≤ 40, AtLimit (table (run true pauseOps Builder.new)) shippedRobot T n) ∧
    ∃ n, 40 < n ∧ n ≤ 80 ∧ AtLimit (table (run true pauseOps Builder.new)) shippedRobot T n := by
  obtain ⟨T, hT⟩ := pause_fastest
  have e : table (run true pauseOps Builder.new) = PathTable.empty.afterAll pauseOps :=
    (C81_history true pauseOps (by pause)).1
  have hc : (table (run true pauseOps Builder.new)).counts = [40, 40] := by rw [e]; pause
  have o := hT.solves.obeys
  have hat : ∀ w ≤ 2, ∀ c ∈ (table (run true pauseOps Builder.new)).instant w,
      Meaning c (T.state (waypointSample [40, 40] w)) := by
    intro w hw c h
    have := o.instant w (by rw [hc]; exact hw) c h
    rwa [hc] at this
  have h0 : (T.state 0).pos = ⟨0, 0⟩ := (hat 0 (by omega) (.poseEquality 0 0 0) (by rw [e]; pause)).1
  have h1 : (T.state 40).pos = ⟨1, 0⟩ := (hat 1 (by omega) (.poseEquality 1 0 0) (by rw [e]; pause)).1
  have h2 : (T.state 80).pos = ⟨2, 0⟩ := (hat 2 (by omega) (.poseEquality 2 0 0) (by rw [e]; pause)).1
  have hv : ‖(T.state 40).vel‖ ≤ |(0 : ℝ)| := hat 1 (by omega) (.linearVelocityMaxMagnitude 0) (by rw [e]; pause)
  have ho : |(T.state 40).omega| ≤ 0 := hat 1 (by omega) (.angularVelocityMaxMagnitude 0) (by rw [e]; pause)
  have hr : (T.state 40).Rests := ⟨by simpa using hv, by simpa using ho⟩
  refine ⟨T, hT, ?_, ?_⟩
  · have := C113_moves _ _ T hT 0 1 (by omega) (by rw [hc]; simp) (fun h => absurd rfl h)
      (fun _ => by rw [hc]; exact hr) (by
        rw [hc]; change (T.state 0).pos ≠ (T.state 40).pos; rw [h0, h1]; simp)
    rw [hc] at this
    obtain ⟨n, -, hn, ha⟩ := this
    exact ⟨n, hn, ha⟩
  · have := C113_moves _ _ T hT 1 2 (by omega) (by rw [hc]; simp) (fun _ => by rw [hc]; exact hr)
      (fun h => absurd (by rw [hc]; rfl) h) (by
        rw [hc]; change (T.state 40).pos ≠ (T.state 80).pos; rw [h1, h2]; simp)
    rw [hc] at this
    obtain ⟨n, hn, hn', ha⟩ := this
    exact ⟨n, hn (by omega), hn', ha⟩

end Trajopt.Props
