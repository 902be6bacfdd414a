import Verif.Lemmas.Interior
import Verif.Props.Slow
import Verif.Props.Smooth
import Verif.Props.Unique

/-!
# C122 Solutions that leave every limit some room (real arithmetic)
-/

set_option autoImplicit false

namespace Trajopt.Props

open Spec Builder

theorem inside_closed (b : Builder ℝ) (dr : SwerveDrivetrain ℝ) (sol : SwerveSolution ℝ) (handle : ℤ) (σ : ℕ → ℝ)
    (ho : Obeys (table b) dr (decode (closedGenerator b.path dr b.controlIntervalCounts sol handle).vars σ)) :
    (∀ c ∈ (closedGenerator b.path dr b.controlIntervalCounts sol handle).problem.cons, c.Less σ) ↔
      Roomy (table b) dr (decode (closedGenerator b.path dr b.controlIntervalCounts sol handle).vars σ) := by
  set N := b.controlIntervalCounts with hN
  set m := dr.modules.length with hm
  have hcounts : (table b).counts = N := rfl
  simp only [closedGenerator, allCons, List.forall_mem_append, ← hm] at ho ⊢
  have hdt : ∀ s < N.length, (List.range' ((1 + N.sum) * stride m) N.length).getD s 0 =
      (1 + N.sum) * stride m + s := by
    intro s hs
    rw [getD_lt (by simpa using hs)]; simp
  have hst : ∀ n < 1 + N.sum, (decode (closedVars m (1 + N.sum)
      (List.range' ((1 + N.sum) * stride m) N.length)) σ).state n =
      decodeSample σ (sampleVars m n) := fun n hn => decode_state _ _ _ _ hn
  have hseg : ∀ s (hs : s < N.length), ∀ k < N[s], (N.take s).sum + 1 + k < 1 + N.sum := by
    intro s hs k hk
    have h1 := sum_take_le N (s + 1)
    have h2 := sum_take_succ N hs
    omega
  have hdt' : ∀ s < N.length, (decode (closedVars m (1 + N.sum)
      (List.range' ((1 + N.sum) * stride m) N.length)) σ).dt s =
      σ ((1 + N.sum) * stride m + s) := by
    intro s hs
    simp only [decode, closedVars, hdt s hs]
  have hfor : ∀ n < 1 + N.sum, ∀ j : Fin dr.modules.length, (decode (closedVars m (1 + N.sum)
      (List.range' ((1 + N.sum) * stride m) N.length)) σ).force n j = forceOf σ m n j :=
    fun n hn j => decode_force _ _ _ _ hn j.2
  have hwlt : ∀ w, waypointSample N w < 1 + N.sum := by
    intro w
    have := sum_take_le N w
    simp only [waypointSample]; omega
  -- the six groups of constraints
  have e1 : (∀ c ∈ (List.range' ((1 + N.sum) * stride m) N.length).flatMap
      (fun dt => dr.modules.map (stepCap (minWidth dr.modules) dt)), c.Less σ) ↔
      ∀ s < N.length, ∀ md ∈ dr.modules, ∀ g, Gap dr g →
        σ ((1 + N.sum) * stride m + s) * md.wheelRadius * md.wheelMaxAngularVelocity < g := by
    simp only [List.mem_flatMap, List.mem_map, forall_exists_index, and_imp]
    constructor
    · intro h s hs md hmd
      exact (stepCap_less σ dr _ md).mp (h _ _ (by rw [List.mem_range'_1]; omega) md hmd rfl)
    · rintro h c v hv md hmd rfl
      rw [List.mem_range'_1] at hv
      rw [stepCap_less]
      have := h (v - (1 + N.sum) * stride m) (by omega) md hmd
      rwa [Nat.add_sub_cancel' hv.1] at this
  have e2 : (∀ c ∈ ((List.range' ((1 + N.sum) * stride m) N.length).zip N).map
      (fun x => Con.ge (.var x.1) (Num.lit 0)), c.Less σ) ↔
      ∀ s < N.length, 0 < σ ((1 + N.sum) * stride m + s) := by
    simp only [List.mem_map, forall_exists_index, and_imp]
    constructor
    · intro h s hs
      have := h _ ((1 + N.sum) * stride m + s, N[s]) (by
        rw [List.mem_iff_getElem]
        refine ⟨s, by simpa using hs, by simp⟩) rfl
      simpa [Con.Less] using this
    · rintro h c ⟨v, k⟩ hv rfl
      rw [List.mem_iff_getElem] at hv
      obtain ⟨s, hs, hv⟩ := hv
      simp only [List.length_zip, List.length_range', min_self] at hs
      simp only [List.getElem_zip, List.getElem_range', Prod.mk.injEq] at hv
      have := h s hs
      simp only [Con.Less, eval_var, eval_lit, Rat.cast_zero]
      rw [← hv.1]; simpa using this
  have e3 : ∀ c ∈ kinList m N (List.range' ((1 + N.sum) * stride m) N.length), c.Less σ := by
    simp only [kinList, List.mem_flatMap, List.mem_range, forall_exists_index, and_imp]
    intro c s hs k hk hc
    exact kinCons_less σ _ _ _ c hc
  have e4 : (∀ c ∈ (List.range (1 + N.sum)).flatMap (dynCons dr), c.Less σ) ↔
      ∀ n < 1 + N.sum, (∀ md ∈ dr.modules, ‖wheelVelocity (decodeSample σ (sampleVars m n)) md‖ < maxSpeed md) ∧
        ∀ j : Fin dr.modules.length, ‖forceOf σ m n j‖ < maxForce dr.modules[j] := by
    simp only [List.mem_flatMap, List.mem_range, forall_exists_index, and_imp]
    constructor
    · intro h n hn
      exact (dynCons_less σ dr n).mp fun c hc => h c n hn hc
    · intro h c n hn hc
      exact (dynCons_less σ dr n).mpr (h n hn) c hc
  have e5 : (∀ c ∈ wptList m b.path N, c.Less σ) ↔ ∀ w ≤ N.length, ∀ c ∈ (table b).instant w,
      Room c (decodeSample σ (sampleVars m (waypointSample N w))) := by
    have hmean : ∀ w ≤ N.length, ∀ c ∈ (table b).instant w,
        Meaning c (decodeSample σ (sampleVars m (waypointSample N w))) := by
      intro w hw c hc
      rw [← hst _ (hwlt w)]
      exact ho.instant w hw c hc
    simp only [wptList, List.mem_flatMap, List.mem_range, forall_exists_index, and_imp]
    constructor
    · intro h w hw c hc
      rw [← constraint_less σ _ _ (hmean w hw c hc)]
      exact fun k hk => h k w (by omega) c hc hk
    · intro h k w hw c hc hk
      exact (constraint_less σ _ _ (hmean w (by omega) c hc)).mpr (h w (by omega) c hc) k hk
  have e6 : (∀ c ∈ sgmtList m b.path N, c.Less σ) ↔ ∀ s < N.length,
      ∀ c ∈ (table b).continuous s, ∀ n ∈ segmentSamples N s,
      Room c (decodeSample σ (sampleVars m n)) := by
    have hmean : ∀ s < N.length, ∀ c ∈ (table b).continuous s, ∀ n ∈ segmentSamples N s,
        Meaning c (decodeSample σ (sampleVars m n)) := by
      intro s hs c hc n hn
      have h' := ho.continuous s hs c hc n hn
      obtain ⟨k, hk, rfl⟩ := (mem_segmentSamples hs).mp hn
      rwa [hst _ (hseg s hs k hk)] at h'
    simp only [sgmtList, List.mem_flatMap, List.mem_range, List.mem_range'_1, forall_exists_index,
      and_imp]
    constructor
    · intro h s hs c hc n hn
      rw [← constraint_less σ _ _ (hmean s hs c hc n hn)]
      obtain ⟨k, hk, rfl⟩ := (mem_segmentSamples hs).mp hn
      exact fun k' hk' => h k' s hs c hc _ (by omega) (by rw [getD_lt hs]; omega) hk'
    · intro h k s hs c hc n h1 h2 hk
      rw [getD_lt hs] at h2
      have hn : n ∈ segmentSamples N s := by
        rw [mem_segmentSamples hs]
        exact ⟨n - (N.take s).sum - 1, by omega, by omega⟩
      exact (constraint_less σ _ _ (hmean s hs c hc n hn)).mpr (h s hs c hc n hn) k hk
  rw [e1, e2, e4, e5, e6]
  constructor
  · rintro ⟨⟨⟨⟨⟨h1, h2⟩, -⟩, h4⟩, h5⟩, h6⟩
    constructor <;> simp only [hcounts]
    · intro n hn
      rw [hst n hn]
      exact (h4 n hn).1
    · intro n hn j
      rw [hfor n hn j]
      exact (h4 n hn).2 j
    · intro s hs; rw [hdt' s hs]; exact h2 s hs
    · intro s hs; rw [hdt' s hs]; exact h1 s hs
    · intro w hw c hc
      rw [hst _ (hwlt w)]
      exact h5 w hw c hc
    · intro s hs c hc n hn
      obtain ⟨k, hk, rfl⟩ := (mem_segmentSamples hs).mp hn
      rw [hst _ (hseg s hs k hk)]
      exact h6 s hs c hc _ hn
  · rintro ⟨h3, h4, h2, h1, h5, h6⟩
    simp only [hcounts] at h1 h2 h3 h4 h5 h6
    refine ⟨⟨⟨⟨⟨?_, ?_⟩, e3⟩, ?_⟩, ?_⟩, ?_⟩
    · intro s hs; rw [← hdt' s hs]; exact h1 s hs
    · intro s hs; rw [← hdt' s hs]; exact h2 s hs
    · intro n hn
      refine ⟨?_, fun j => ?_⟩
      · rw [← hst n hn]; exact h3 n hn
      · rw [← hfor n hn j]; exact h4 n hn j
    · intro w hw c hc
      rw [← hst _ (hwlt w)]
      exact h5 w hw c hc
    · intro s hs c hc n hn
      have h' := hn
      obtain ⟨k, hk, rfl⟩ := (mem_segmentSamples hs).mp hn
      rw [← hst _ (hseg s hs k hk)]
      exact h6 s hs c hc _ h'

theorem roomy_congr {t : PathTable ℝ} {dr : SwerveDrivetrain ℝ} {T T' : Traj}
    (h : Traj.Agree (sampleCount t.counts) dr.modules.length t.counts.length T T')
    (o : Roomy t dr T) : Roomy t dr T' := by
  have hs : ∀ s < t.counts.length, ∀ n ∈ segmentSamples t.counts s, n < sampleCount t.counts := by
    intro s hs n hn
    rw [segmentSamples, Finset.mem_Ioc, waypointSample, waypointSample] at hn
    have := sum_take_le t.counts (s + 1)
    simp only [sampleCount]; omega
  constructor
  · intro n hn
    rw [← h.state n hn]
    exact o.speed n hn
  · intro n hn j
    rw [← h.force n hn j j.2]
    exact o.limit n hn j
  · intro s hs; rw [← h.dt s hs]; exact o.time s hs
  · intro s hs; rw [← h.dt s hs]; exact o.stepCap s hs
  · intro w hw c hc
    have := sum_take_le t.counts w
    rw [← h.state _ (by simp only [sampleCount, waypointSample]; omega)]
    exact o.instant w hw c hc
  · intro s hs' c hc n hn
    rw [← h.state n (hs s hs' n hn)]
    exact o.continuous s hs' c hc n hn

/-- `T` is encoded by an assignment that lies inside all constraints of the problem generated for `b`, whose drivetrain
is `dr`. -/
structure LiesInside (b : Builder ℝ) (dr : SwerveDrivetrain ℝ) (T : Traj) : Prop where
  reachable : Reachable b
  ready : Ready b dr
  radius : ∀ m ∈ dr.modules, m.wheelRadius ≠ 0
  inside : ∃ handle g σ, Generator.construct b handle = .ok g ∧ g.problem.Inside σ ∧
    Traj.Agree (sampleCount (table b).counts) dr.modules.length (table b).counts.length
      (decode g.vars σ) T

/-- C122: the inside of the generated problem is made up of the solutions that leave room everywhere. -/
theorem C122_inside (b : Builder ℝ) (dr : SwerveDrivetrain ℝ) (T : Traj) :
    LiesInside b dr T ↔ Solves b dr T ∧ Roomy (table b) dr T := by
  constructor
  · rintro ⟨hb, hr, hR, handle, g, σ, hg, hσ, ha⟩
    have hf : g.problem.Feasible σ := fun c hc => ((inside_con_iff σ c).mp (hσ c hc)).1
    obtain ⟨sol, -, -, hc⟩ := construct_closed hb hr handle
    rw [hg] at hc
    cases hc
    have ho := (feasible_closed b dr sol handle σ).mp hf
    exact ⟨⟨hb, hr, hR, handle, _, σ, hg, hf, ha⟩, roomy_congr ha ((inside_closed b dr sol handle σ ho).mp
      fun c hc => ((inside_con_iff σ c).mp (hσ c hc)).2)⟩
  · rintro ⟨⟨hb, hr, hR, handle, g, σ, hg, hf, ha⟩, hroom⟩
    obtain ⟨sol, -, -, hc⟩ := construct_closed hb hr handle
    rw [hg] at hc
    cases hc
    have ho := (feasible_closed b dr sol handle σ).mp hf
    have hl := (inside_closed b dr sol handle σ ho).mpr (roomy_congr ⟨fun n hn => (ha.state n hn).symm,
      fun n hn j hj => (ha.force n hn j hj).symm, fun s hs => (ha.dt s hs).symm⟩ hroom)
    exact ⟨hb, hr, hR, handle, _, σ, hg, fun c hc => (inside_con_iff σ c).mpr ⟨hf c hc, hl c hc⟩, ha⟩

/-! ### Room for speeds and forces -/

theorem room_slower {k : ℝ} (hk : 1 < k) {c : Constraint ℝ} {s : State} (h : Meaning c s) (hp : OfPlace c → Room c s) :
    Room c (s.slower k) := by
  have hk0 : (0 : ℝ) < k := by linarith
  have hk2 : (1 : ℝ) < k ^ 2 := one_lt_pow₀ hk two_ne_zero
  have key : ∀ {x m r : ℝ}, 0 ≤ x → 1 < r → x ≤ m → 0 < m → x / r < m := by
    intro x m r hx hr hm h0
    rw [div_lt_iff₀ (by linarith)]
    nlinarith
  cases c with
  | angularVelocityMaxMagnitude m =>
    intro hm
    change |s.omega / k| < m
    rw [abs_div, abs_of_pos hk0]
    exact key (abs_nonneg _) hk h (lt_of_le_of_ne ((abs_nonneg _).trans h) (Ne.symm hm))
  | linearAccelerationMaxMagnitude m =>
    intro hm
    change ‖s.acc / k ^ 2‖ < |m|
    rw [norm_div, norm_pow, Complex.norm_real, Real.norm_of_nonneg hk0.le]
    exact key (norm_nonneg _) hk2 h (abs_pos.mpr hm)
  | linearVelocityMaxMagnitude m =>
    intro hm
    change ‖s.vel / k‖ < |m|
    rw [norm_div, Complex.norm_real, Real.norm_of_nonneg hk0.le]
    exact key (norm_nonneg _) hk h (abs_pos.mpr hm)
  | linearVelocityDirection a => trivial
  | pointAt p tol => exact hp trivial
  | linePoint a b p d => exact hp trivial
  | pointLine r a b d => exact hp trivial
  | pointPoint r p d => exact hp trivial
  | poseEquality x y a => trivial
  | translationEquality t => trivial

/-- C122, what holds: limits of speed, acceleration, wheel speed and wheel force never are what leaves no room.  A solution
that leaves room in place and heading, and whose time steps are neither 0 nor at their cap, becomes one that leaves
room everywhere if driven a little more slowly.  Missing: steps at the cap, places at the limit, and wheels without
speed or torque; there the claim is false. -/
theorem C122_slower_partial (b : Builder ℝ) (dr : SwerveDrivetrain ℝ) (T : Traj) (h : Solves b dr T)
    (hwheel : ∀ m ∈ dr.modules, 0 < maxSpeed m ∧ 0 < maxForce m)
    (htime : ∀ s < (table b).counts.length, 0 < T.dt s)
    (hcap : ∀ s < (table b).counts.length, ∀ m ∈ dr.modules, ∀ g, Gap dr g →
      T.dt s * m.wheelRadius * m.wheelMaxAngularVelocity < g)
    (hi : ∀ w ≤ (table b).counts.length, ∀ c ∈ (table b).instant w, OfPlace c →
      Room c (T.state (waypointSample (table b).counts w)))
    (hc : ∀ s < (table b).counts.length, ∀ c ∈ (table b).continuous s, OfPlace c →
      ∀ n ∈ segmentSamples (table b).counts s, Room c (T.state n)) :
    ∃ k > 1, LiesInside b dr (T.slower k) := by
  have hev : ∀ᶠ k : ℝ in nhds 1, ∀ s ∈ Finset.range (table b).counts.length, ∀ m ∈ {m | m ∈ dr.modules},
      Below (k * T.dt s * m.wheelRadius * m.wheelMaxAngularVelocity) (minWidth dr.modules) := by
    rw [Filter.eventually_all_finset]
    intro s hs
    rw [Filter.eventually_all_finite (List.finite_toSet dr.modules)]
    intro m hm
    have h0 := (below_minWidth dr _).mpr (hcap s (Finset.mem_range.mp hs) m hm)
    cases hw : minWidth dr.modules with
    | none => exact Filter.Eventually.of_forall fun _ => trivial
    | some w =>
      rw [hw] at h0
      have hcont : Continuous fun k : ℝ => k * T.dt s * m.wheelRadius * m.wheelMaxAngularVelocity := by fun_prop
      exact hcont.continuousAt.eventually_lt continuousAt_const (by rw [one_mul]; exact h0)
  obtain ⟨k, hk1, hk⟩ := ((hev.filter_mono nhdsWithin_le_nhds).and (self_mem_nhdsWithin (s := Set.Ioi (1 : ℝ)))).exists.imp
    fun k h => And.intro h.2 h.1
  have hk1 : 1 < k := hk1
  have hk0 : (0 : ℝ) < k := by linarith
  have hk2 : (1 : ℝ) < k ^ 2 := one_lt_pow₀ hk1 two_ne_zero
  have key : ∀ {x m r : ℝ}, 0 ≤ x → 1 < r → x ≤ m → 0 < m → x / r < m := by
    intro x m r hx hr hm h0
    rw [div_lt_iff₀ (by linarith)]
    nlinarith
  have hbelow : ∀ s < (table b).counts.length, ∀ m ∈ dr.modules, ∀ g, Gap dr g →
      k * T.dt s * m.wheelRadius * m.wheelMaxAngularVelocity < g := fun s hs m hm =>
    (below_minWidth dr _).mp (hk s (Finset.mem_range.mpr hs) m hm)
  refine ⟨k, hk1, (C122_inside b dr _).mpr ⟨(C103_slower_partial k hk1.le b dr T h).mpr
    fun s hs m hm g hg => (hbelow s hs m hm g hg).le, ?_⟩⟩
  constructor
  · intro n hn m hm
    have e : wheelVelocity ((T.state n).slower k) m = wheelVelocity (T.state n) m / k := by
      simp only [wheelVelocity, State.slower]
      push_cast
      ring
    change ‖wheelVelocity ((T.state n).slower k) m‖ < _
    rw [e, norm_div, Complex.norm_real, Real.norm_of_nonneg hk0.le]
    exact key (norm_nonneg _) hk1 ((h.obeys.dynamics n hn).speed m hm) (hwheel m hm).1
  · intro n hn j
    change ‖T.force n j / k ^ 2‖ < _
    rw [norm_div, norm_pow, Complex.norm_real, Real.norm_of_nonneg hk0.le]
    exact key (norm_nonneg _) hk2 ((h.obeys.dynamics n hn).limit j) (hwheel _ (List.getElem_mem _)).2
  · intro s hs
    exact mul_pos hk0 (htime s hs)
  · exact hbelow
  · intro w hw c hcm
    exact room_slower hk1 (h.obeys.instant w hw c hcm) (hi w hw c hcm)
  · intro s hs c hcm n hn
    exact room_slower hk1 (h.obeys.continuous s hs c hcm n hn) fun hp => hc s hs c hcm hp n hn

/-- The first example program's problem has an inside. -/
example (asserts : Bool) : ∃ T, LiesInside (run asserts Examples.cpp1 Builder.new) shippedRobot T := by
  obtain ⟨hc, hco, hi0, hi1⟩ := cpp1_stored asserts
  obtain ⟨⟨T, hT⟩, htime⟩ := C85_example asserts Examples.cpp1 (.inl rfl)
  have hdt : T.dt 0 = 3 / √10 / 40 := by
    have := htime T hT
    rw [hc] at this
    simp only [timeTaken, List.length_singleton, Finset.range_one, Finset.sum_singleton, List.getD_cons_zero] at this
    push_cast at this
    linarith
  have h10 : 3 ≤ √10 := Real.le_sqrt_of_sq_le (by norm_num)
  have hpos : 0 < √10 := by linarith
  have h1 : 3 / √10 ≤ 1 := by rw [div_le_one hpos]; exact h10
  obtain ⟨k, -, h⟩ := C122_slower_partial _ shippedRobot T hT.solves
    (by
      intro m hm
      simp only [shippedRobot, List.mem_cons, List.not_mem_nil, or_false] at hm
      rcases hm with rfl | rfl | rfl | rfl <;> norm_num [maxSpeed, maxForce])
    (by
      intro s hs
      rw [hc, List.length_singleton, Nat.lt_one_iff] at hs
      rw [hs, hdt]
      positivity)
    (by
      intro s hs m hm g hg
      rw [hc, List.length_singleton, Nat.lt_one_iff] at hs
      rw [shipped_gap g hg, hs, hdt]
      simp only [shippedRobot, List.mem_cons, List.not_mem_nil, or_false] at hm
      rcases hm with rfl | rfl | rfl | rfl <;> norm_num <;> linarith)
    (by
      intro w hw c hcm hp
      rw [hc, List.length_singleton] at hw
      interval_cases w
      · rw [hi0] at hcm
        simp only [List.mem_cons, List.not_mem_nil, or_false] at hcm
        rcases hcm with rfl | rfl <;> exact hp.elim
      · rw [hi1] at hcm
        simp only [List.mem_cons, List.not_mem_nil, or_false] at hcm
        rcases hcm with rfl | rfl <;> exact hp.elim)
    (by
      intro s hs c hcm
      rw [hc, List.length_singleton, Nat.lt_one_iff] at hs
      rw [hs, hco] at hcm
      simp at hcm)
  exact ⟨_, h⟩

/-! ### No room -/

/-- C122 is false for a robot that has to face a point exactly (tolerance 0, or a whole turn) anywhere on a path with a
pose: no solution leaves room.  Limits of 0 on speeds and accelerations, in contrast, are made equations. -/
theorem C122_facing_refuted (b : Builder ℝ) (dr : SwerveDrivetrain ℝ)
    (v : ℕ) (hv : v ≤ (table b).counts.length) (x y θ : ℝ) (hpose : .poseEquality x y θ ∈ (table b).instant v)
    (w : ℕ) (hw : w ≤ (table b).counts.length) (p : Translation2 ℝ) (tol : ℝ) (htol : Real.cos tol = 1)
    (hface : .pointAt p tol ∈ (table b).instant w) : ¬ ∃ T, LiesInside b dr T := by
  rintro ⟨T, hT⟩
  obtain ⟨hs, hroom⟩ := (C122_inside b dr T).mp hT
  have hle := sum_take_le (table b).counts w
  have hu := C33_pose_partial b dr T hs v hv x y θ hpose (waypointSample (table b).counts w)
    (by simp only [waypointSample, sampleCount]; omega)
  have := hroom.instant w hw _ hface
  simp only [Room, htol, one_mul] at this
  refine absurd ((Complex.re_le_norm _).trans_eq ?_) (not_le.mpr this)
  rw [norm_mul, Complex.norm_conj, hu, mul_one, dist_comm, dist_eq_norm]

/-- Facing a point exactly at a first waypoint can be done, but not with room. -/
example : ∃ ops : List (Op ℝ), (∃ T, Solves (run true ops Builder.new) demoRobot T) ∧
    ¬ ∃ T, LiesInside (run true ops Builder.new) demoRobot T := by
  obtain ⟨hr, hc, hco, hi0, hi1⟩ := stand_table (.pointAt ⟨1, 0⟩ 0)
  refine ⟨_, ⟨_, (solves_iff ⟨true, _, rfl⟩ hr demo_radius).mpr (stand_obeys (.pointAt ⟨1, 0⟩ 0) ?_)⟩,
    C122_facing_refuted _ _ 0 (Nat.zero_le _) 0 0 0 (by rw [hi0]; simp) 0 (Nat.zero_le _) ⟨1, 0⟩ 0 Real.cos_zero
      (by rw [hi0]; simp)⟩
  have e : vec (⟨1, 0⟩ : Translation2 ℝ) = 1 := rfl
  simp [Meaning, standTraj, e, unitVec]

/-- C122 is false for a robot with a wheel that cannot turn, or has no torque: then no solution leaves room. -/
theorem C122_wheel_refuted (b : Builder ℝ) (dr : SwerveDrivetrain ℝ) (m : SwerveModule ℝ) (hm : m ∈ dr.modules)
    (h0 : m.wheelMaxAngularVelocity = 0 ∨ m.wheelMaxTorque = 0) : ¬ ∃ T, LiesInside b dr T := by
  rintro ⟨T, hT⟩
  obtain ⟨hs, hroom⟩ := (C122_inside b dr T).mp hT
  have hn : 0 < sampleCount (table b).counts := by simp only [sampleCount]; omega
  rcases h0 with h0 | h0
  · have := hroom.speed 0 hn m hm
    rw [maxSpeed, h0, mul_zero, abs_zero] at this
    exact absurd this (not_lt.mpr (norm_nonneg _))
  · obtain ⟨i, hi, rfl⟩ := List.getElem_of_mem hm
    have := hroom.limit 0 hn ⟨i, hi⟩
    simp only [maxForce, Fin.getElem_fin, h0, zero_div, abs_zero] at this
    exact absurd this (not_lt.mpr (norm_nonneg _))

/-- Without torque a robot can still roll, but not with room. -/
example : ∃ dr : SwerveDrivetrain ℝ, (∃ T, Solves (run true (straightOps dr 3 0 0 1 0 0) Builder.new) dr T) ∧
    ¬ ∃ T, LiesInside (run true (straightOps dr 3 0 0 1 0 0) Builder.new) dr T := by
  let dr : SwerveDrivetrain ℝ := ⟨2, 1, [⟨⟨1, 1⟩, 1, 2, 0⟩, ⟨⟨-1, -1⟩, 1, 2, 0⟩]⟩
  have hmem : ∀ m ∈ dr.modules, m = ⟨⟨1, 1⟩, 1, 2, 0⟩ ∨ m = ⟨⟨-1, -1⟩, 1, 2, 0⟩ := by
    intro m hm
    simpa [dr] using hm
  refine ⟨dr, (C67_reach dr (by simp [Centred, dr, vec, Complex.ext_iff]) ?_ 2 (by norm_num) ?_ 3 (by norm_num)
    (by norm_num) 0 0 1 0 0).mpr ?_, C122_wheel_refuted _ dr ⟨⟨1, 1⟩, 1, 2, 0⟩ (by simp [dr]) (.inr rfl)⟩
  · intro m hm
    rcases hmem m hm with rfl | rfl <;> norm_num
  · intro m hm
    rcases hmem m hm with rfl | rfl <;> norm_num
  · intro g hg
    have : g = 2 := by
      obtain ⟨h0, m, m', hmm, hg⟩ := hg
      have : m = ⟨⟨1, 1⟩, 1, 2, 0⟩ ∧ m' = ⟨⟨-1, -1⟩, 1, 2, 0⟩ := by
        simpa [dr] using hmm
      obtain ⟨rfl, rfl⟩ := this
      norm_num at hg
      exact hg
    rw [this]
    norm_num

/-- C122: with wheels of equal top speed, centred and with torque, the straight path from pose to pose can be driven with
room to spare exactly if it is shorter than the number of control intervals times the least gap.  At exactly that
length it can be driven (`C67_reach`), but without room. -/
theorem C122_reach (dr : SwerveDrivetrain ℝ) (hcentre : Centred dr) (hsome : dr.modules ≠ [])
    (hradius : ∀ m ∈ dr.modules, m.wheelRadius ≠ 0) (htorque : ∀ m ∈ dr.modules, m.wheelMaxTorque ≠ 0)
    (V : ℝ) (hV0 : 0 < V) (hV : ∀ m ∈ dr.modules, m.wheelRadius * m.wheelMaxAngularVelocity = V)
    (N : ℕ) (hN0 : 0 < N) (hN : N + 1 < 2 ^ 64) (x₀ y₀ x₁ y₁ θ : ℝ) :
    (∃ T, LiesInside (run true (straightOps dr N x₀ y₀ x₁ y₁ θ) Builder.new) dr T) ↔
      ∀ g, Gap dr g → √((x₁ - x₀) ^ 2 + (y₁ - y₀) ^ 2) < N * g := by
  obtain ⟨h1, h2, h3, h4, h5, h6⟩ := straight_table dr N x₀ y₀ x₁ y₁ θ
  set b := run true (straightOps dr N x₀ y₀ x₁ y₁ θ) Builder.new with hb
  have hreach : Reachable b := ⟨true, _, hb⟩
  have hr : Ready b dr := ⟨h3, by rw [h1, h2]; simp, by rw [h2]; simp [sampleCount]; omega⟩
  have hdist : √((x₁ - x₀) ^ 2 + (y₁ - y₀) ^ 2) = ‖vec (⟨x₁, y₁⟩ : Translation2 ℝ) - vec ⟨x₀, y₀⟩‖ := by
    rw [Complex.norm_eq_sqrt_sq_add_sq]
    simp [vec]
  have hw0 : waypointSample (table b).counts 0 = 0 := rfl
  have hw1 : waypointSample (table b).counts 1 = N := by rw [h2]; simp [waypointSample]
  have huv : ∀ a, ‖unitVec a‖ = 1 := fun a => by rw [unitVec]; exact Complex.norm_exp_ofReal_mul_I a
  have hNr : (0 : ℝ) < N := by exact_mod_cast hN0
  have hNc : (N : ℂ) ≠ 0 := by exact_mod_cast hN0.ne'
  have hM : (0 : ℝ) < dr.modules.length := by exact_mod_cast List.length_pos_iff.mpr hsome
  rw [hdist]
  constructor
  · rintro ⟨T, hT⟩ g hg
    obtain ⟨hs, hroom⟩ := (C122_inside b dr T).mp hT
    have hu := fun n hn => C33_pose_partial b dr T hs 0 (Nat.zero_le _) x₀ y₀ θ (by rw [h4]; simp) n hn
    have hspeed : ∀ n ≤ N, ‖(T.state n).vel‖ ≤ V := by
      intro n hn
      have hn' : n < sampleCount (table b).counts := by rw [h2]; simp [sampleCount]; omega
      have := (C65_speeds b dr T hs hcentre n hn' (hu n hn')).1
      rw [List.map_congr_left (g := fun _ => V) fun m hm => by rw [hV m hm, abs_of_pos hV0]] at this
      simp only [List.map_const', List.sum_replicate, nsmul_eq_mul] at this
      exact le_of_mul_le_mul_left this hM
    obtain ⟨m, hm⟩ := List.exists_mem_of_ne_nil _ hsome
    have hs0 : 0 < (table b).counts.length := by rw [h2]; simp
    have hget : (table b).counts[0] = N := by simp [h2]
    have hcap := hroom.stepCap 0 hs0 m hm g hg
    rw [mul_assoc, hV m hm] at hcap
    have hdt := hroom.time 0 hs0
    have hi0 := (hs.obeys.instant 0 (Nat.zero_le _) (.poseEquality x₀ y₀ θ) (by rw [h4]; simp)).1
    have hi1 := (hs.obeys.instant 1 (by rw [h2]; simp) (.poseEquality x₁ y₁ θ) (by rw [h5]; simp)).1
    have hsum := segment_sum hs hs0 (k := N) hget.ge
    rw [hw0, Nat.zero_add] at hsum
    rw [hw0] at hi0
    rw [hw1] at hi1
    rw [hi0, hi1] at hsum
    rw [hsum, norm_mul, Complex.norm_real, Real.norm_of_nonneg hdt.le]
    calc T.dt 0 * ‖∑ i ∈ Finset.range N, (T.state (0 + (i + 1))).vel‖ ≤ T.dt 0 * (N * V) := by
          refine mul_le_mul_of_nonneg_left ((norm_sum_le _ _).trans ?_) hdt.le
          refine (Finset.sum_le_sum fun i hi => hspeed (0 + (i + 1)) ?_).trans_eq ?_
          · have := Finset.mem_range.mp hi; omega
          · simp
      _ = N * (T.dt 0 * V) := by ring
      _ < N * g := mul_lt_mul_of_pos_left hcap hNr
  · intro hlt
    obtain ⟨dt, hlow, hhigh⟩ : ∃ dt, ‖vec (⟨x₁, y₁⟩ : Translation2 ℝ) - vec ⟨x₀, y₀⟩‖ / (N * V) < dt ∧
        ∀ g, Gap dr g → dt * V < g := by
      have hb := (below_minWidth dr (‖vec (⟨x₁, y₁⟩ : Translation2 ℝ) - vec ⟨x₀, y₀⟩‖ / N)).mpr fun g hg => by
        rw [div_lt_iff₀ hNr, mul_comm]; exact hlt g hg
      have : ∃ x, ‖vec (⟨x₁, y₁⟩ : Translation2 ℝ) - vec ⟨x₀, y₀⟩‖ / N < x ∧ Below x (minWidth dr.modules) := by
        cases hw : minWidth dr.modules with
        | none => exact ⟨_, lt_add_one _, trivial⟩
        | some w =>
          rw [hw] at hb
          exact exists_between hb
      obtain ⟨x, hx1, hx2⟩ := this
      refine ⟨x / V, ?_, ?_⟩
      · rw [← div_div]
        exact div_lt_div_of_pos_right hx1 hV0
      · rw [div_mul_cancel₀ _ hV0.ne']
        exact (below_minWidth dr x).mp hx2
    set d := vec (⟨x₁, y₁⟩ : Translation2 ℝ) - vec ⟨x₀, y₀⟩ with hd
    have hdt0 : 0 < dt := lt_of_le_of_lt (by positivity) hlow
    have hdtd : d / N = dt * (d / (N * dt)) := by
      have : (dt : ℂ) ≠ 0 := by exact_mod_cast hdt0.ne'
      field_simp
    have hvel : ‖d / (N * dt)‖ < V := by
      rw [norm_div, norm_mul, Complex.norm_natCast, Complex.norm_real, Real.norm_of_nonneg hdt0.le]
      rw [div_lt_iff₀ (by positivity)] at hlow ⊢
      linarith
    have seg : ∀ s < (table b).counts.length, s = 0 := by
      intro s hs; rw [h2] at hs; simpa using hs
    refine ⟨straightTraj (vec ⟨x₀, y₀⟩) d θ dt N, (C122_inside b dr _).mpr
      ⟨(solves_iff hreach hr hradius).mpr ⟨?_, ?_, ?_, ?_, ?_, ?_⟩, ?_, ?_, ?_, ?_, ?_, ?_⟩⟩
    · intro s hs n hn
      obtain rfl := seg s hs
      simp only [segmentSamples, hw0, Nat.zero_add, hw1, Finset.mem_Ioc] at hn
      constructor
      · obtain ⟨k, rfl⟩ : ∃ k, n = k + 1 := ⟨n - 1, by omega⟩
        simp only [straightTraj, Nat.add_sub_cancel]
        rw [← hdtd]
        push_cast
        ring
      · left
        simp only [straightTraj, zero_mul]
        rw [Complex.mul_conj, Complex.normSq_eq_norm_sq, huv]
        simp [unitVec]
      · simp [straightTraj]
      · simp [straightTraj]
    · intro n hn
      refine ⟨by simp [straightTraj], by simp [straightTraj, torque], ?_, ?_⟩
      · intro m hm
        simp only [wheelVelocity, straightTraj, Complex.ofReal_zero, mul_zero, zero_mul, add_zero,
          norm_mul, Complex.norm_conj, huv, one_mul]
        rw [maxSpeed, hV m hm, abs_of_pos hV0]
        exact hvel.le
      · intro j
        simp [straightTraj, maxForce]
    · intro s hs; exact hdt0.le
    · intro s hs m hm g hgap
      simp only [straightTraj]
      rw [mul_assoc, hV m hm]
      exact (hhigh g hgap).le
    · intro w hw c hc
      have hw' : w = 0 ∨ w = 1 := by rw [h2, List.length_singleton] at hw; omega
      rcases hw' with rfl | rfl
      · rw [h4, List.mem_singleton] at hc
        subst hc
        exact ⟨by simp [straightTraj, hw0], .inl rfl⟩
      · rw [h5, List.mem_singleton] at hc
        subst hc
        refine ⟨?_, .inl rfl⟩
        rw [hw1]
        simp only [straightTraj]
        rw [mul_div_cancel₀ _ hNc, hd]
        ring
    · intro s hs c hc
      obtain rfl := seg s hs
      rw [h6] at hc
      simp at hc
    · intro n hn m hm
      simp only [wheelVelocity, straightTraj, Complex.ofReal_zero, mul_zero, zero_mul, add_zero,
        norm_mul, Complex.norm_conj, huv, one_mul]
      rw [maxSpeed, hV m hm, abs_of_pos hV0]
      exact hvel
    · intro n hn j
      simp only [straightTraj, norm_zero, maxForce]
      exact abs_pos.mpr (div_ne_zero (htorque _ (List.getElem_mem _)) (hradius _ (List.getElem_mem _)))
    · intro s hs; exact hdt0
    · intro s hs m hm g hgap
      simp only [straightTraj]
      rw [mul_assoc, hV m hm]
      exact hhigh g hgap
    · intro w hw c hc
      have hw' : w = 0 ∨ w = 1 := by rw [h2, List.length_singleton] at hw; omega
      rcases hw' with rfl | rfl
      · rw [h4, List.mem_singleton] at hc
        subst hc
        trivial
      · rw [h5, List.mem_singleton] at hc
        subst hc
        trivial
    · intro s hs c hc
      obtain rfl := seg s hs
      rw [h6] at hc
      simp at hc

/-- The demonstration robot reaches 6 m in three control intervals, but without room; 5 m with room. -/
theorem C122_refuted : (∃ T, Solves (run true (straightOps demoRobot 3 0 0 6 0 0) Builder.new) demoRobot T) ∧
    (¬ ∃ T, LiesInside (run true (straightOps demoRobot 3 0 0 6 0 0) Builder.new) demoRobot T) ∧
    ∃ T, LiesInside (run true (straightOps demoRobot 3 0 0 5 0 0) Builder.new) demoRobot T := by
  have hc : Centred demoRobot := by simp [Centred, demoRobot, vec, Complex.ext_iff]
  have hV : ∀ m ∈ demoRobot.modules, m.wheelRadius * m.wheelMaxAngularVelocity = 2 := by
    intro m hm
    simp only [demoRobot, List.mem_cons, List.not_mem_nil, or_false] at hm
    rcases hm with rfl | rfl | rfl | rfl <;> norm_num
  have ht : ∀ m ∈ demoRobot.modules, m.wheelMaxTorque ≠ 0 := by
    intro m hm
    simp only [demoRobot, List.mem_cons, List.not_mem_nil, or_false] at hm
    rcases hm with rfl | rfl | rfl | rfl <;> norm_num
  have key := fun x₁ => C122_reach demoRobot hc (by simp [demoRobot]) demo_radius ht 2 (by norm_num) hV 3 (by norm_num)
    (by norm_num) 0 0 x₁ 0 0
  have hgap : Gap demoRobot 2 := ⟨by norm_num, ⟨⟨1, 1⟩, 1, 2, 2⟩, ⟨⟨1, -1⟩, 1, 2, 2⟩, by simp [demoRobot],
    .inr (by norm_num)⟩
  have h6 : √(((6 : ℝ) - 0) ^ 2 + (0 - 0) ^ 2) = 6 := by
    rw [show ((6 : ℝ) - 0) ^ 2 + (0 - 0) ^ 2 = 6 ^ 2 by norm_num, Real.sqrt_sq (by norm_num)]
  have h5 : √(((5 : ℝ) - 0) ^ 2 + (0 - 0) ^ 2) = 5 := by
    rw [show ((5 : ℝ) - 0) ^ 2 + (0 - 0) ^ 2 = 5 ^ 2 by norm_num, Real.sqrt_sq (by norm_num)]
  refine ⟨(C67_reach demoRobot hc demo_radius 2 (by norm_num) hV 3 (by norm_num) (by norm_num) 0 0 6 0 0).mpr ?_,
    fun h => ?_, (key 5).mpr fun g hg => ?_⟩
  · intro g hg
    rw [demo_gap g hg, h6]
    norm_num
  · have := (key 6).mp h 2 hgap
    rw [h6] at this
    norm_num at this
  · rw [demo_gap g hg, h5]
    norm_num

end Trajopt.Props
