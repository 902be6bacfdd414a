import Verif.Props.Physics
import Verif.Lemmas.Tolerance

/-!
# C69, C70 What a trajectory within the solver's tolerance satisfies (real arithmetic)
-/

set_option autoImplicit false

namespace Trajopt.Props

open Spec Builder

theorem feasible_within (ε : ℝ) (hε : 0 ≤ ε) (b : Builder ℝ) (dr : SwerveDrivetrain ℝ) (sol : SwerveSolution ℝ)
    (handle : ℤ) (σ : ℕ → ℝ) :
    (closedGenerator b.path dr b.controlIntervalCounts sol handle).problem.FeasibleWithin ε σ ↔
      ObeysWithin ε (table b) dr (decode (closedGenerator b.path dr b.controlIntervalCounts sol handle).vars
        σ) := by
  set N := b.controlIntervalCounts with hN
  set m := dr.modules.length with hm
  have hcounts : (table b).counts = N := rfl
  simp only [closedGenerator, Problem.FeasibleWithin, allCons, List.forall_mem_append, ← hm]
  have hdt : ∀ s < N.length, (List.range' ((1 + N.sum) * stride m) N.length).getD s 0 =
      (1 + N.sum) * stride m + s := by
    intro s hs
    rw [getD_lt (by simpa using hs)]; simp
  -- the six groups of constraints
  have e1 : (∀ c ∈ (List.range' ((1 + N.sum) * stride m) N.length).flatMap
      (fun dt => dr.modules.map (stepCap (minWidth dr.modules) dt)), c.HoldsWithin ε σ) ↔
      ∀ s < N.length, ∀ md ∈ dr.modules, ∀ g, Gap dr g →
        σ ((1 + N.sum) * stride m + s) * md.wheelRadius * md.wheelMaxAngularVelocity ≤ g + ε := by
    simp only [List.mem_flatMap, List.mem_map, forall_exists_index, and_imp]
    constructor
    · intro h s hs md hmd
      exact (stepCap_within σ ε dr _ md).mp (h _ _ (by rw [List.mem_range'_1]; omega) md hmd rfl)
    · rintro h c v hv md hmd rfl
      rw [List.mem_range'_1] at hv
      rw [stepCap_within]
      have := h (v - (1 + N.sum) * stride m) (by omega) md hmd
      rwa [Nat.add_sub_cancel' hv.1] at this
  have e2 : (∀ c ∈ ((List.range' ((1 + N.sum) * stride m) N.length).zip N).map
      (fun x => Con.ge (.var x.1) (Num.lit 0)), c.HoldsWithin ε σ) ↔
      ∀ s < N.length, 0 ≤ σ ((1 + N.sum) * stride m + s) + ε := by
    simp only [List.mem_map, forall_exists_index, and_imp]
    constructor
    · intro h s hs
      have := h _ ((1 + N.sum) * stride m + s, N[s]) (by
        rw [List.mem_iff_getElem]
        refine ⟨s, by simpa using hs, by simp⟩) rfl
      simpa [Con.HoldsWithin] using this
    · rintro h c ⟨v, k⟩ hv rfl
      rw [List.mem_iff_getElem] at hv
      obtain ⟨s, hs, hv⟩ := hv
      simp only [List.length_zip, List.length_range', min_self] at hs
      simp only [List.getElem_zip, List.getElem_range', Prod.mk.injEq] at hv
      have := h s hs
      simp only [Con.HoldsWithin, defined_var, defined_lit, eval_var, eval_lit, Rat.cast_zero, true_and]
      rw [← hv.1]; simpa using this
  have e3 : (∀ c ∈ kinList m N (List.range' ((1 + N.sum) * stride m) N.length), c.HoldsWithin ε σ) ↔
      ∀ s (hs : s < N.length), ∀ k < N[s], IntervalWithin ε (σ ((1 + N.sum) * stride m + s))
        (decodeSample σ (sampleVars m ((N.take s).sum + k)))
        (decodeSample σ (sampleVars m ((N.take s).sum + 1 + k))) := by
    simp only [kinList, List.mem_flatMap, List.mem_range, forall_exists_index, and_imp]
    constructor
    · intro h s hs k hk
      rw [← kinCons_within σ ε hε _ _ _ (sampleVars_defined σ _ _) (sampleVars_defined σ _ _)]
      intro c hc
      refine h c s hs k (by rwa [getD_lt hs]) ?_
      rwa [hdt s hs]
    · intro h c s hs k hk hc
      rw [getD_lt hs] at hk
      rw [hdt s hs] at hc
      exact (kinCons_within σ ε hε _ _ _ (sampleVars_defined σ _ _) (sampleVars_defined σ _ _)).mpr
        (h s hs k hk) c hc
  have e4 : (∀ c ∈ (List.range (1 + N.sum)).flatMap (dynCons dr), c.HoldsWithin ε σ) ↔
      ∀ n < 1 + N.sum, DynamicsWithin ε dr (decodeSample σ (sampleVars m n)) (forceOf σ m n) := by
    simp only [List.mem_flatMap, List.mem_range, forall_exists_index, and_imp]
    constructor
    · intro h n hn
      exact (dynCons_within σ ε dr n).mp fun c hc => h c n hn hc
    · intro h c n hn hc
      exact (dynCons_within σ ε dr n).mpr (h n hn) c hc
  have e5 : (∀ c ∈ wptList m b.path N, c.HoldsWithin ε σ) ↔ ∀ w ≤ N.length, ∀ c ∈ (table b).instant w,
      MeaningWithin ε c (decodeSample σ (sampleVars m (waypointSample N w))) := by
    simp only [wptList, List.mem_flatMap, List.mem_range, forall_exists_index, and_imp]
    constructor
    · intro h w hw c hc
      rw [← constraint_within σ ε _ _ (sampleVars_defined σ _ _)]
      exact fun k hk => h k w (by omega) c hc hk
    · intro h k w hw c hc hk
      exact (constraint_within σ ε _ _ (sampleVars_defined σ _ _)).mpr (h w (by omega) c hc) k hk
  have e6 : (∀ c ∈ sgmtList m b.path N, c.HoldsWithin ε σ) ↔ ∀ s < N.length,
      ∀ c ∈ (table b).continuous s, ∀ n ∈ segmentSamples N s,
      MeaningWithin ε c (decodeSample σ (sampleVars m n)) := by
    simp only [sgmtList, List.mem_flatMap, List.mem_range, List.mem_range'_1, forall_exists_index,
      and_imp]
    constructor
    · intro h s hs c hc n hn
      obtain ⟨k, hk, rfl⟩ := (mem_segmentSamples hs).mp hn
      rw [← constraint_within σ ε _ _ (sampleVars_defined σ _ _)]
      exact fun k' hk' => h k' s hs c hc _ (by omega) (by rw [getD_lt hs]; omega) hk'
    · intro h k s hs c hc n h1 h2 hk
      rw [getD_lt hs] at h2
      refine (constraint_within σ ε _ _ (sampleVars_defined σ _ _)).mpr (h s hs c hc n ?_) k hk
      rw [mem_segmentSamples hs]
      exact ⟨n - (N.take s).sum - 1, by omega, by omega⟩
  rw [e1, e2, e3, e4, e5, e6]
  have hst : ∀ n < 1 + N.sum, (decode (closedVars m (1 + N.sum)
      (List.range' ((1 + N.sum) * stride m) N.length)) σ).state n =
      decodeSample σ (sampleVars m n) := fun n hn => decode_state _ _ _ _ hn
  have hseg : ∀ s (hs : s < N.length), ∀ k < N[s], (N.take s).sum + 1 + k < 1 + N.sum := by
    intro s hs k hk
    have h1 := sum_take_le N (s + 1)
    have h2 := sum_take_succ N hs
    omega
  have hdt' : ∀ s < N.length, (decode (closedVars m (1 + N.sum)
      (List.range' ((1 + N.sum) * stride m) N.length)) σ).dt s =
      σ ((1 + N.sum) * stride m + s) := by
    intro s hs
    simp only [decode, closedVars, hdt s hs]
  have hfor : ∀ n < 1 + N.sum, ∀ j : Fin dr.modules.length, (decode (closedVars m (1 + N.sum)
      (List.range' ((1 + N.sum) * stride m) N.length)) σ).force n j = forceOf σ m n j :=
    fun n hn j => decode_force _ _ _ _ hn j.2
  constructor
  · rintro ⟨⟨⟨⟨⟨h1, h2⟩, h3⟩, h4⟩, h5⟩, h6⟩
    constructor <;> simp only [hcounts]
    · intro s hs n hn
      obtain ⟨k, hk, rfl⟩ := (mem_segmentSamples hs).mp hn
      have := hseg s hs k hk
      rw [hst _ this, hst _ (by omega), hdt' s hs,
        show (N.take s).sum + 1 + k - 1 = (N.take s).sum + k by omega]
      exact h3 s hs k hk
    · intro n hn
      rw [hst n hn]
      obtain ⟨a, b', c, d⟩ := h4 n hn
      refine ⟨?_, ?_, c, ?_⟩
      · simp only [hfor n hn]; exact a
      · simp only [hfor n hn]; exact b'
      · intro j; rw [hfor n hn j]; exact d j
    · intro s hs; rw [hdt' s hs]; exact h2 s hs
    · intro s hs; rw [hdt' s hs]; exact h1 s hs
    · intro w hw c hc
      have := sum_take_le N w
      rw [hst _ (by simp only [waypointSample]; omega)]
      exact h5 w hw c hc
    · intro s hs c hc n hn
      obtain ⟨k, hk, rfl⟩ := (mem_segmentSamples hs).mp hn
      rw [hst _ (hseg s hs k hk)]
      exact h6 s hs c hc _ hn
  · rintro ⟨h3, h4, h2, h1, h5, h6⟩
    simp only [hcounts] at h1 h2 h3 h4 h5 h6
    refine ⟨⟨⟨⟨⟨?_, ?_⟩, ?_⟩, ?_⟩, ?_⟩, ?_⟩
    · intro s hs; rw [← hdt' s hs]; exact h1 s hs
    · intro s hs; rw [← hdt' s hs]; exact h2 s hs
    · intro s hs k hk
      have := hseg s hs k hk
      have := h3 s hs _ ((mem_segmentSamples hs).mpr ⟨k, hk, rfl⟩)
      rwa [hst _ (by omega), hst _ (by omega), hdt' s hs,
        show (N.take s).sum + 1 + k - 1 = (N.take s).sum + k by omega] at this
    · intro n hn
      have := h4 n hn
      rw [hst n hn] at this
      obtain ⟨a, b', c, d⟩ := this
      simp only [hfor n hn] at a b'
      refine ⟨a, b', c, ?_⟩
      · intro j; rw [← hfor n hn j]; exact d j
    · intro w hw c hc
      have := sum_take_le N w
      rw [← hst _ (by simp only [waypointSample]; omega)]
      exact h5 w hw c hc
    · intro s hs c hc n hn
      have h' := hn
      obtain ⟨k, hk, rfl⟩ := (mem_segmentSamples hs).mp hn
      rw [← hst _ (hseg s hs k hk)]
      exact h6 s hs c hc _ h'


theorem obeysWithin_congr {ε : ℝ} {t : PathTable ℝ} {dr : SwerveDrivetrain ℝ} {T T' : Traj}
    (h : Traj.Agree (sampleCount t.counts) dr.modules.length t.counts.length T T')
    (o : ObeysWithin ε t dr T) : ObeysWithin ε t dr T' := by
  have hs : ∀ s < t.counts.length, ∀ n ∈ segmentSamples t.counts s, n < sampleCount t.counts := by
    intro s hs n hn
    rw [segmentSamples, Finset.mem_Ioc, waypointSample, waypointSample] at hn
    have := sum_take_le t.counts (s + 1)
    simp only [sampleCount]; omega
  constructor
  · intro s hs' n hn
    have := hs s hs' n hn
    rw [← h.state n this, ← h.state (n - 1) (by omega), ← h.dt s hs']
    exact o.interval s hs' n hn
  · intro n hn
    have hd := o.dynamics n hn
    rw [← h.state n hn]
    have hf : ∀ j : Fin dr.modules.length, T'.force n j = T.force n j :=
      fun j => (h.force n hn j j.2).symm
    refine ⟨?_, ?_, hd.speed, ?_⟩
    · simp only [hf]; exact hd.force
    · simp only [hf]; exact hd.torque
    · intro j; rw [hf]; exact hd.limit j
  · intro s hs; rw [← h.dt s hs]; exact o.time s hs
  · intro s hs; rw [← h.dt s hs]; exact o.stepCap s hs
  · intro w hw c hc
    have := sum_take_le t.counts w
    rw [← h.state _ (by simp only [sampleCount, waypointSample]; omega)]
    exact o.instant w hw c hc
  · intro s hs' c hc n hn
    rw [← h.state n (hs s hs' n hn)]
    exact o.continuous s hs' c hc n hn

/-- C69: the generated problem up to a tolerance: an assignment violates no generated constraint by
more than `ε` exactly when the trajectory it encodes obeys path and drivetrain up to `ε`. -/
theorem C69_problem (ε : ℝ) (hε : 0 ≤ ε) (b : Builder ℝ) (hb : Reachable b)
    (dr : SwerveDrivetrain ℝ) (hr : Ready b dr)
    (_hradius : ∀ m ∈ dr.modules, m.wheelRadius ≠ 0) (handle : ℤ) :
    ∃ g, Generator.construct b handle = .ok g ∧
      (∀ σ, g.problem.FeasibleWithin ε σ ↔ ObeysWithin ε (table b) dr (decode g.vars σ)) ∧
      (∀ T, ObeysWithin ε (table b) dr T ↔ ∃ σ, g.problem.FeasibleWithin ε σ ∧
        Traj.Agree (sampleCount (table b).counts) dr.modules.length
          (table b).counts.length (decode g.vars σ) T) := by
  obtain ⟨sol, -, -, hc⟩ := construct_closed hb hr handle
  have hf := feasible_within ε hε b dr sol handle
  have he := fun T => encode_decode dr.modules.length (sampleCount (table b).counts)
    (table b).counts.length T
  refine ⟨_, hc, hf, fun T => ⟨fun h => ⟨_, (hf _).mpr ?_, he T⟩, ?_⟩⟩
  · exact obeysWithin_congr ⟨fun n hn => ((he T).state n hn).symm,
      fun n hn j hj => ((he T).force n hn j hj).symm, fun s hs => ((he T).dt s hs).symm⟩ h
  · rintro ⟨σ, h1, h2⟩
    exact obeysWithin_congr h2 ((hf σ).mp h1)

/-- `T` is encoded by an assignment that violates no constraint of the problem generated for `b` by
more than `ε`. -/
structure SolvesWithin (ε : ℝ) (b : Builder ℝ) (dr : SwerveDrivetrain ℝ) (T : Traj) : Prop where
  reachable : Reachable b
  ready : Ready b dr
  radius : ∀ m ∈ dr.modules, m.wheelRadius ≠ 0
  feasible : ∃ handle g σ, Generator.construct b handle = .ok g ∧ g.problem.FeasibleWithin ε σ ∧
    Traj.Agree (sampleCount (table b).counts) dr.modules.length (table b).counts.length
      (decode g.vars σ) T

theorem solvesWithin_iff {ε : ℝ} (hε : 0 ≤ ε) {b : Builder ℝ} {dr : SwerveDrivetrain ℝ} {T : Traj}
    (hb : Reachable b) (hr : Ready b dr) (hR : ∀ m ∈ dr.modules, m.wheelRadius ≠ 0) :
    SolvesWithin ε b dr T ↔ ObeysWithin ε (table b) dr T := by
  constructor
  · rintro ⟨-, -, -, handle, g, σ, hg, hσ, ha⟩
    obtain ⟨g', hg', -, h'⟩ := C69_problem ε hε b hb dr hr hR handle
    rw [hg] at hg'
    cases hg'
    exact (h' T).mpr ⟨σ, hσ, ha⟩
  · intro h
    obtain ⟨g, hg, -, h'⟩ := C69_problem ε hε b hb dr hr hR 0
    obtain ⟨σ, hσ, ha⟩ := (h' T).mp h
    exact ⟨hb, hr, hR, 0, g, σ, hg, hσ, ha⟩

theorem SolvesWithin.obeys {ε : ℝ} (hε : 0 ≤ ε) {b : Builder ℝ} {dr : SwerveDrivetrain ℝ} {T : Traj}
    (h : SolvesWithin ε b dr T) : ObeysWithin ε (table b) dr T :=
  (solvesWithin_iff hε h.reachable h.ready h.radius).mp h

theorem SolvesWithin.interval {ε : ℝ} (hε : 0 ≤ ε) {b : Builder ℝ} {dr : SwerveDrivetrain ℝ}
    {T : Traj} (h : SolvesWithin ε b dr T)
    {n : ℕ} (h0 : 0 < n) (hn : n < sampleCount (table b).counts) :
    IntervalWithin ε (stepTime (table b).counts T n) (T.state (n - 1)) (T.state n) := by
  obtain ⟨s, hs, hns⟩ := segment_of_sample h0 hn
  rw [stepTime_eq T hs hns]
  exact (h.obeys hε).interval s hs n hns

theorem near_add {ε δ : ℝ} {a b c d : ℂ} (h1 : Near ε a b) (h2 : Near δ c d) :
    Near (ε + δ) (a + c) (b + d) := by
  simp only [Near, abs_le, Complex.add_re, Complex.add_im] at *
  obtain ⟨⟨a1, a2⟩, a3, a4⟩ := h1
  obtain ⟨⟨b1, b2⟩, b3, b4⟩ := h2
  refine ⟨⟨?_, ?_⟩, ?_, ?_⟩ <;> linarith

/-- C69: displacement, velocity and angular velocity integrate up to `ε` per control interval and
coordinate. -/
theorem C69_integration (ε : ℝ) (hε : 0 ≤ ε) (b : Builder ℝ) (dr : SwerveDrivetrain ℝ) (T : Traj)
    (h : SolvesWithin ε b dr T) (i j : ℕ) (hij : i ≤ j) (hj : j < sampleCount (table b).counts) :
    Near ((j - i : ℕ) * ε) ((T.state j).pos - (T.state i).pos)
      (∑ n ∈ Finset.Ioc i j, stepTime (table b).counts T n * (T.state n).vel) ∧
    Near ((j - i : ℕ) * ε) ((T.state j).vel - (T.state i).vel)
      (∑ n ∈ Finset.Ioc i j, stepTime (table b).counts T n * (T.state n).acc) ∧
    |(T.state j).omega - (T.state i).omega -
      ∑ n ∈ Finset.Ioc i j, stepTime (table b).counts T n * (T.state n).alpha| ≤
        (j - i : ℕ) * ε := by
  induction j, hij using Nat.le_induction with
  | base => simp [Near]
  | succ j hij ih =>
    obtain ⟨h1, h2, h3⟩ := ih (by omega)
    have hI := h.interval hε (n := j + 1) (by omega) hj
    rw [Nat.add_sub_cancel] at hI
    have hd : ((j + 1 - i : ℕ) : ℝ) * ε = (j - i : ℕ) * ε + ε := by
      rw [Nat.succ_sub hij]; push_cast; ring
    have hshift : ∀ x y z : ℂ, Near ε y (x + z) → Near ε (y - x) z := by
      intro x y z hn
      simp only [Near, Complex.add_re, Complex.add_im, Complex.sub_re, Complex.sub_im] at *
      rw [sub_sub, sub_sub]
      exact hn
    rw [Finset.sum_Ioc_succ_top (by omega), Finset.sum_Ioc_succ_top (by omega),
      Finset.sum_Ioc_succ_top (by omega), hd]
    refine ⟨?_, ?_, ?_⟩
    · rw [show (T.state (j + 1)).pos - (T.state i).pos =
        ((T.state j).pos - (T.state i).pos) + ((T.state (j + 1)).pos - (T.state j).pos) by ring]
      exact near_add h1 (hshift _ _ _ hI.pos)
    · rw [show (T.state (j + 1)).vel - (T.state i).vel =
        ((T.state j).vel - (T.state i).vel) + ((T.state (j + 1)).vel - (T.state j).vel) by ring]
      exact near_add h2 (hshift _ _ _ hI.vel)
    · have h4 := hI.omega
      rw [abs_le] at h3 h4 ⊢
      constructor <;> linarith

/-- C69: with a pose fixed at any waypoint, `n` control intervals away from it the squared norm of
the heading is 1 up to a factor that grows like `((1 + ε) / (1 - ε)) ^ n`. -/
theorem C69_heading (ε : ℝ) (hε : 0 ≤ ε) (hε1 : ε < 1) (b : Builder ℝ) (dr : SwerveDrivetrain ℝ)
    (T : Traj) (h : SolvesWithin ε b dr T)
    (w : ℕ) (hw : w ≤ (table b).counts.length) (x y θ : ℝ)
    (hc : .poseEquality x y θ ∈ (table b).instant w)
    (n : ℕ) (hn : n < sampleCount (table b).counts) (k : ℕ)
    (hk : k = max n (waypointSample (table b).counts w) - min n (waypointSample (table b).counts w)) :
    (1 - ε) * ((1 - ε) / (1 + ε)) ^ k ≤ ‖(T.state n).heading‖ ^ 2 ∧
    ‖(T.state n).heading‖ ^ 2 ≤ (1 + ε) * ((1 + ε) / (1 - ε)) ^ k := by
  set v := waypointSample (table b).counts w with hv
  have hvlt : v < sampleCount (table b).counts := by
    have := sum_take_le (table b).counts w
    simp only [hv, waypointSample, sampleCount]; omega
  have h1 : 0 < 1 - ε := by linarith
  have h2 : 0 < 1 + ε := by linarith
  set r := (1 + ε) / (1 - ε) with hr
  have hr' : (1 - ε) / (1 + ε) = r⁻¹ := by rw [hr, inv_div]
  have hr0 : 0 < r := by positivity
  have hrm : r * (1 - ε) = 1 + ε := div_mul_cancel₀ _ h1.ne'
  rw [hr']
  -- neighbouring squared norms are reciprocal up to ε
  have hstep : ∀ m, m + 1 < sampleCount (table b).counts →
      |‖(T.state (m + 1)).heading‖ ^ 2 * ‖(T.state m).heading‖ ^ 2 - 1| ≤ ε := by
    intro m hm
    have := (h.interval hε (n := m + 1) (by omega) hm).turn.2
    rwa [Nat.add_sub_cancel, norm_mul, Complex.norm_conj, mul_pow] at this
  -- one step away
  have key : ∀ (a c : ℝ) (d : ℕ), 0 ≤ c → |c * a - 1| ≤ ε →
      (1 - ε) * r⁻¹ ^ d ≤ a ∧ a ≤ (1 + ε) * r ^ d →
      (1 - ε) * r⁻¹ ^ (d + 1) ≤ c ∧ c ≤ (1 + ε) * r ^ (d + 1) := by
    intro a c d hc0 hca ⟨hl, hu⟩
    rw [abs_le] at hca
    have hrd : 0 < r ^ d := by positivity
    have hrdi : 0 < r⁻¹ ^ d := by positivity
    have hinv : r⁻¹ ^ d * r ^ d = 1 := by rw [inv_pow]; exact inv_mul_cancel₀ hrd.ne'
    have ha0 : 0 < a := lt_of_lt_of_le (by positivity) hl
    constructor
    · -- (1-ε) r⁻¹^(d+1) ≤ 1/r^(d+1) = (1-ε)/((1+ε) r^d) ≤ (1-ε)/a ≤ c
      have e : (1 - ε) * r⁻¹ ^ (d + 1) * ((1 + ε) * r ^ d) = (1 - ε) * (1 - ε) := by
        rw [pow_succ]
        calc _ = (1 - ε) * (r⁻¹ ^ d * r ^ d) * (r⁻¹ * (1 + ε)) := by ring
          _ = _ := by rw [hinv, ← hrm, inv_mul_cancel_left₀ hr0.ne', mul_one]
      have hp : 0 ≤ (1 - ε) * r⁻¹ ^ (d + 1) := by positivity
      have : (1 - ε) * r⁻¹ ^ (d + 1) * a ≤ c * a := by
        calc (1 - ε) * r⁻¹ ^ (d + 1) * a ≤ (1 - ε) * r⁻¹ ^ (d + 1) * ((1 + ε) * r ^ d) :=
              mul_le_mul_of_nonneg_left hu hp
          _ = (1 - ε) * (1 - ε) := e
          _ ≤ 1 - ε := by nlinarith
          _ ≤ c * a := by linarith
      exact le_of_mul_le_mul_right this ha0
    · have e : (1 + ε) * r ^ (d + 1) * ((1 - ε) * r⁻¹ ^ d) = (1 + ε) * (1 + ε) := by
        rw [pow_succ]
        calc _ = (1 + ε) * (r⁻¹ ^ d * r ^ d) * (r * (1 - ε)) := by ring
          _ = _ := by rw [hinv, hrm, mul_one]
      have hp : 0 ≤ (1 + ε) * r ^ (d + 1) := by positivity
      have : c * a ≤ (1 + ε) * r ^ (d + 1) * a := by
        calc c * a ≤ 1 + ε := by linarith
          _ ≤ (1 + ε) * (1 + ε) := by nlinarith
          _ = _ := e.symm
          _ ≤ (1 + ε) * r ^ (d + 1) * a := mul_le_mul_of_nonneg_left hl hp
      exact le_of_mul_le_mul_right this ha0
  have hbase : (1 - ε) * r⁻¹ ^ 0 ≤ ‖(T.state v).heading‖ ^ 2 ∧
      ‖(T.state v).heading‖ ^ 2 ≤ (1 + ε) * r ^ 0 := by
    have := ((h.obeys hε).instant w hw _ hc).2.2
    rw [abs_le] at this
    rw [pow_zero, pow_zero, mul_one, mul_one]
    constructor <;> linarith
  have up : ∀ d, v + d < sampleCount (table b).counts →
      (1 - ε) * r⁻¹ ^ d ≤ ‖(T.state (v + d)).heading‖ ^ 2 ∧
      ‖(T.state (v + d)).heading‖ ^ 2 ≤ (1 + ε) * r ^ d := by
    intro d
    induction d with
    | zero => intro _; exact hbase
    | succ d ih =>
      intro hd
      exact key _ _ d (sq_nonneg _) (hstep (v + d) (by omega)) (ih (by omega))
  have down : ∀ d, d ≤ v →
      (1 - ε) * r⁻¹ ^ d ≤ ‖(T.state (v - d)).heading‖ ^ 2 ∧
      ‖(T.state (v - d)).heading‖ ^ 2 ≤ (1 + ε) * r ^ d := by
    intro d
    induction d with
    | zero => intro _; exact hbase
    | succ d ih =>
      intro hd
      have hs := hstep (v - (d + 1)) (by omega)
      rw [show v - (d + 1) + 1 = v - d by omega, mul_comm] at hs
      exact key _ _ d (sq_nonneg _) hs (ih (by omega))
  rcases le_total n v with hnv | hnv
  · rw [max_eq_right hnv, min_eq_left hnv] at hk
    have := down k (by omega)
    rwa [hk, show v - (v - n) = n by omega, ← hk] at this
  · rw [max_eq_left hnv, min_eq_right hnv] at hk
    have := up k (by omega)
    rwa [hk, show v + (n - v) = n by omega, ← hk] at this

theorem holds_within {ε : ℝ} (hε : 0 ≤ ε) {σ : ℕ → ℝ} {c : Con ℝ} (h : c.Holds σ) :
    c.HoldsWithin ε σ := by
  cases c with
  | eq a b => exact ⟨h.1, h.2.1, by rw [h.2.2, sub_self, abs_zero]; exact hε⟩
  | le a b => exact ⟨h.1, h.2.1, by linarith [h.2.2]⟩
  | ge a b => exact ⟨h.1, h.2.1, by linarith [h.2.2]⟩
  | leInf a => exact h

theorem holds_of_within {σ : ℕ → ℝ} {c : Con ℝ} (h : ∀ ε > 0, c.HoldsWithin ε σ) : c.Holds σ := by
  cases c with
  | eq a b =>
    refine ⟨(h 1 one_pos).1, (h 1 one_pos).2.1, sub_eq_zero.mp (abs_eq_zero.mp ?_)⟩
    refine le_antisymm (le_of_forall_pos_le_add fun ε hε => ?_) (abs_nonneg _)
    rw [zero_add]; exact (h ε hε).2.2
  | le a b =>
    exact ⟨(h 1 one_pos).1, (h 1 one_pos).2.1, le_of_forall_pos_le_add fun ε hε => (h ε hε).2.2⟩
  | ge a b =>
    exact ⟨(h 1 one_pos).1, (h 1 one_pos).2.1, le_of_forall_pos_le_add fun ε hε => (h ε hε).2.2⟩
  | leInf a => exact h 1 one_pos

/-- C69: an exactly feasible trajectory is feasible up to any tolerance, and a trajectory feasible
up to every positive tolerance is exactly feasible. -/
theorem C69_limit (b : Builder ℝ) (dr : SwerveDrivetrain ℝ) (T : Traj) :
    Solves b dr T ↔ ∀ ε > 0, SolvesWithin ε b dr T := by
  constructor
  · rintro ⟨hb, hr, hR, handle, g, σ, hg, hσ, ha⟩ ε hε
    exact ⟨hb, hr, hR, handle, g, σ, hg, fun c hc => holds_within hε.le (hσ c hc), ha⟩
  · intro h
    obtain ⟨hb, hr, hR, -⟩ := h 1 one_pos
    obtain ⟨sol, -, -, hc⟩ := construct_closed hb hr 0
    have he := encode_decode dr.modules.length (sampleCount (table b).counts)
      (table b).counts.length T
    refine ⟨hb, hr, hR, 0, _, _, hc, fun c hcm => holds_of_within fun ε hε => ?_, he⟩
    have hf := feasible_within ε hε.le b dr sol 0
    refine (hf _).mpr (obeysWithin_congr ?_ ((h ε hε).obeys hε.le)) c hcm
    exact ⟨fun n hn => (he.state n hn).symm,
      fun n hn j hj => (he.force n hn j hj).symm, fun s hs => (he.dt s hs).symm⟩

/-! ### C70 "tolerance of 1e-4 is 0.1 mm" -/

/-- C70, what holds: a fixed position is met up to `ε` in each coordinate; a keep-out distance
between points is kept up to `ε / d`, which is at most `ε` from one metre on.  Missing: shorter
keep-out distances, and those of lines. -/
theorem C70_partial (ε : ℝ) (hε : 0 ≤ ε) (b : Builder ℝ) (dr : SwerveDrivetrain ℝ) (T : Traj)
    (h : SolvesWithin ε b dr T) (w : ℕ) (hw : w ≤ (table b).counts.length) :
    let s := T.state (waypointSample (table b).counts w)
    (∀ p, .translationEquality p ∈ (table b).instant w → |s.pos.re - p.x| ≤ ε ∧ |s.pos.im - p.y| ≤ ε) ∧
    (∀ x y θ, .poseEquality x y θ ∈ (table b).instant w → |s.pos.re - x| ≤ ε ∧ |s.pos.im - y| ≤ ε) ∧
    (∀ r p d, .pointPoint r p d ∈ (table b).instant w → 0 < d →
      d - ε / d ≤ dist (s.onRobot r) (vec p)) := by
  intro s
  refine ⟨fun p hp => (h.obeys hε).instant w hw _ hp, fun x y θ hp =>
    ((h.obeys hε).instant w hw _ hp).1, fun r p d hp hd => ?_⟩
  have hm : d ^ 2 ≤ dist (s.onRobot r) (vec p) ^ 2 + ε := (h.obeys hε).instant w hw _ hp
  have h0 : 0 ≤ dist (s.onRobot r) (vec p) := dist_nonneg
  by_contra hlt
  push Not at hlt
  have h1 : dist (s.onRobot r) (vec p) * d < d ^ 2 - ε := by
    have := mul_lt_mul_of_pos_right hlt hd
    rwa [sub_mul, div_mul_cancel₀ _ hd.ne', ← sq] at this
  have h2 : dist (s.onRobot r) (vec p) < d := by
    by_contra hge
    push Not at hge
    nlinarith
  nlinarith

/-- C70: a keep-out distance whose square is at most the tolerance has no effect: any state meets it
up to the tolerance (lines must not be degenerate). -/
theorem C70_no_effect (ε : ℝ) (d : ℝ) (hd : d ^ 2 ≤ ε) (s : State) (r p a c : Translation2 ℝ) :
    MeaningWithin ε (.pointPoint r p d) s ∧
    (vec a ≠ vec c → MeaningWithin ε (.pointLine r a c d) s) ∧
    (s.onRobot a ≠ s.onRobot c → MeaningWithin ε (.linePoint a c p d) s) := by
  refine ⟨?_, fun h => ⟨h, fun q _ => ?_⟩, fun h => ⟨h, fun q _ => ?_⟩⟩
  · have := sq_nonneg (dist (s.onRobot r) (vec p))
    simp only [MeaningWithin]; linarith
  · have : 0 ≤ dist q (s.onRobot r) ^ 4 := by positivity
    linarith
  · have : 0 ≤ dist q (vec p) ^ 4 := by positivity
    linarith

/-- A further constraint at a waypoint. -/
theorem obeysWithin_requireAt {ε : ℝ} {t : PathTable ℝ} {dr : SwerveDrivetrain ℝ} {T : Traj}
    (h : ObeysWithin ε t dr T) (i : ℕ) (c : Constraint ℝ)
    (hc : MeaningWithin ε c (T.state (waypointSample t.counts i))) :
    ObeysWithin ε (t.requireAt i c) dr T := by
  refine ⟨h.interval, h.dynamics, h.time, h.stepCap, ?_, h.continuous⟩
  intro w hw c' hc'
  simp only [PathTable.requireAt] at hc'
  split at hc'
  next he =>
    rw [List.mem_append, List.mem_singleton] at hc'
    rcases hc' with hc' | rfl
    · exact h.instant w hw c' hc'
    · subst he; exact hc
  next => exact h.instant w hw c' hc'

/-- C70 is false for the problems that the library generates: a robot drives one metre and must
then be at least 10 mm (the safety distance that the Rust interface uses,
/repo/src/RustFFI.cpp:51) away from a point.  Within the solver's tolerance of `1e-4` it may stop
right on that point, although no trajectory at all satisfies the constraints exactly. -/
theorem C70_refuted : ∃ b, Reachable b ∧ (table b).counts = [1] ∧
    .pointPoint ⟨0, 0⟩ ⟨1, 0⟩ 0.01 ∈ (table b).instant 1 ∧
    (∃ T, SolvesWithin 1e-4 b demoRobot T ∧
      dist ((T.state (waypointSample (table b).counts 1)).onRobot ⟨0, 0⟩) (vec ⟨1, 0⟩) = 0) ∧
    ¬ ∃ T, Solves b demoRobot T := by
  have hr : Reachable demoBuilder := ⟨true, demoOps, rfl⟩
  obtain ⟨b, e, t⟩ := C11_wpt_constraint demoBuilder hr 1 (by norm_num)
    (.pointPoint ⟨0, 0⟩ ⟨1, 0⟩ 0.01)
  have hb : Reachable b := ⟨_, _, run_snoc (rfl : demoBuilder = run true demoOps Builder.new)
    (op := .wptConstraint 1 (.pointPoint ⟨0, 0⟩ ⟨1, 0⟩ 0.01)) e⟩
  obtain ⟨d1, d2, d3, d4, d5, d6, d7⟩ := demo_table
  have hreach : (table demoBuilder).reach 1 = table demoBuilder := by
    generalize table demoBuilder = u at d1
    simp only [PathTable.reach, d1]
    cases u; simp_all
  have ht : table b = (table demoBuilder).requireAt 1 (.pointPoint ⟨0, 0⟩ ⟨1, 0⟩ 0.01) := by
    rw [t, hreach]
  have hi : (table b).instant 1 =
      [.poseEquality 1 0 0, .linearVelocityMaxMagnitude 2, .pointPoint ⟨0, 0⟩ ⟨1, 0⟩ 0.01] := by
    rw [ht]; simp [PathTable.requireAt, d5]
  have hready : Ready b demoRobot := by
    refine ⟨by rw [ht]; exact d3, by rw [ht]; exact demo_ready.counts, by rw [ht]; exact demo_ready.size⟩
  refine ⟨b, hb, by rw [ht]; exact d2, by rw [hi]; simp, ⟨driveTraj 1 1, ?_, ?_⟩, ?_⟩
  · rw [solvesWithin_iff (by norm_num) hb hready demo_radius, ht]
    refine obeysWithin_requireAt (((C69_limit _ _ _).mp (demo_solves_flip 1 (.inl rfl)) 1e-4
      (by norm_num)).obeys (by norm_num)) 1 _ ?_
    exact (C70_no_effect 1e-4 0.01 (by norm_num) _ _ _ ⟨0, 0⟩ ⟨0, 0⟩).1
  · have : (table b).counts = [1] := by rw [ht]; exact d2
    rw [this]
    simp [waypointSample, driveTraj, State.onRobot, vec, Complex.ext_iff]
  · rintro ⟨T, h⟩
    have h1 := h.obeys.instant 1 (by rw [ht]; simp [PathTable.requireAt, d2]) (.poseEquality 1 0 0)
      (by rw [hi]; simp)
    have h2 := h.obeys.instant 1 (by rw [ht]; simp [PathTable.requireAt, d2])
      (.pointPoint ⟨0, 0⟩ ⟨1, 0⟩ 0.01) (by rw [hi]; simp)
    simp only [Meaning, State.onRobot] at h1 h2
    rw [h1.1, show vec ⟨0, 0⟩ = 0 by simp [vec, Complex.ext_iff], zero_mul, add_zero,
      dist_self] at h2
    norm_num at h2

/-- C69: time and speed: a path never takes less than `-ε` per control interval, and speed limits
may be exceeded to `√(m² + ε)` (a limit of zero: to `ε` per coordinate). -/
theorem C69_limits (ε : ℝ) (hε : 0 ≤ ε) (b : Builder ℝ) (dr : SwerveDrivetrain ℝ) (T : Traj)
    (h : SolvesWithin ε b dr T) :
    (-ε * ((sampleCount (table b).counts : ℝ) - 1) ≤
      ∑ s ∈ Finset.range (table b).counts.length, ((table b).counts.getD s 0 : ℝ) * T.dt s) ∧
    (∀ n < sampleCount (table b).counts, ∀ m ∈ dr.modules,
      ‖wheelVelocity (T.state n) m‖ ≤ Real.sqrt (maxSpeed m ^ 2 + ε)) ∧
    (∀ w ≤ (table b).counts.length, ∀ m, .linearVelocityMaxMagnitude m ∈ (table b).instant w → m ≠ 0 →
      ‖(T.state (waypointSample (table b).counts w)).vel‖ ≤ Real.sqrt (m ^ 2 + ε)) := by
  have o := h.obeys hε
  refine ⟨?_, fun n hn m hm => Real.le_sqrt_of_sq_le ((o.dynamics n hn).speed m hm),
    fun w hw m hm h0 => Real.le_sqrt_of_sq_le ((o.instant w hw _ hm).2 h0)⟩
  have key : ∀ (N : List ℕ), (∀ s < N.length, 0 ≤ T.dt s + ε) → -ε * (N.sum : ℝ) ≤
      ∑ s ∈ Finset.range N.length, (N.getD s 0 : ℝ) * T.dt s := by
    intro N hN
    have hs : (N.sum : ℝ) = ∑ s ∈ Finset.range N.length, (N.getD s 0 : ℝ) := by
      rw [Finset.sum_range]
      simp
    rw [hs, Finset.mul_sum]
    refine Finset.sum_le_sum fun s hs => ?_
    have := hN s (Finset.mem_range.mp hs)
    have h0 : (0 : ℝ) ≤ (N.getD s 0 : ℝ) := Nat.cast_nonneg _
    nlinarith
  have := key (table b).counts o.time
  rwa [sampleCount, Nat.cast_add, Nat.cast_one, add_sub_cancel_left]

/-! ### Examples -/

/-- The demonstration drive is feasible up to any tolerance, and moves. -/
example : SolvesWithin 1e-4 demoBuilder demoRobot (driveTraj 1 1) ∧
    ((driveTraj 1 1).state 0).pos ≠ ((driveTraj 1 1).state 1).pos ∧
    (.poseEquality 0 0 0) ∈ (table demoBuilder).instant 0 :=
  ⟨(C69_limit _ _ _).mp (demo_solves_flip 1 (.inl rfl)) 1e-4 (by norm_num), by simp [driveTraj],
    by rw [demo_table.2.2.2.1]; simp⟩

end Trajopt.Props
