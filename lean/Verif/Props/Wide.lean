import Verif.Lemmas.WideProblem

/-!
# C88 Infinities and NaN
-/

set_option autoImplicit false

namespace Trajopt.Props

open Spec Wide

/-- C88: finite values satisfy all constraints generated for a path and a drivetrain containing
infinities or NaN exactly if they encode a trajectory obeying both, and every such trajectory is
encoded. -/
theorem C88_exact (b : Builder Wide) (hb : Reachable b) (dr : SwerveDrivetrain Wide) (hr : Ready b dr)
    (handle : ℤ) :
    ∃ g, Generator.construct b handle = .ok g ∧
      (∀ σ : ℕ → ℝ, (∀ c ∈ g.problem.cons, c.Test (finite σ)) ↔ ObeysW (table b) dr (decode g.vars σ)) ∧
      ∀ T, ObeysW (table b) dr T → ∃ σ : ℕ → ℝ, (∀ c ∈ g.problem.cons, c.Test (finite σ)) ∧
        Traj.Agree (sampleCount (table b).counts) dr.modules.length
          (table b).counts.length (decode g.vars σ) T := by
  obtain ⟨sol, -, -, hc⟩ := construct_closed hb hr handle
  refine ⟨_, hc, testW_closed b dr sol handle, fun T h => ?_⟩
  have he := encode_decode dr.modules.length (sampleCount (table b).counts)
    (table b).counts.length T
  refine ⟨_, (testW_closed b dr sol handle _).mpr ?_, he⟩
  exact obeysWith_congr (m := dr.modules.length) (dyn := DynamicsW dr)
    (fun s F F' h o => dynamicsW_forces h o) (T := T)
    ⟨fun n hn => (he.state n hn).symm, fun n hn j hj => (he.force n hn j hj).symm,
      fun s hs => (he.dt s hs).symm⟩ h

/-! ### finite data -/

theorem weaker_wide {m₀ m : SwerveModule ℝ} (hr : m.wheelRadius ≠ 0) :
    Weaker m₀ ⟨m.translation.wide, .fin m.wheelRadius, .fin m.wheelMaxAngularVelocity,
      .fin m.wheelMaxTorque⟩ ↔
      m.translation = m₀.translation ∧ maxSpeed m₀ ≤ maxSpeed m ∧ maxForce m₀ ≤ maxForce m := by
  constructor
  · rintro ⟨h1, h2, h3⟩
    rw [fin_div, if_neg hr] at h3
    exact ⟨wideT_inj.mp h1, h2, h3⟩
  · rintro ⟨h1, h2, h3⟩
    refine ⟨wideT_inj.mpr h1, h2, ?_⟩
    rw [fin_div, if_neg hr]
    exact h3

theorem dynamicsW_wide {dr : SwerveDrivetrain ℝ} (hr : ∀ m ∈ dr.modules, m.wheelRadius ≠ 0) (s : State)
    (F : ℕ → ℂ) : DynamicsW dr.wide s F ↔ Dynamics dr s F := by
  constructor
  · rintro ⟨⟨mass, moi, mods⟩, hm, hi, hw, hd⟩
    obtain rfl : dr.mass = mass := by simpa [SwerveDrivetrain.wide] using hm
    obtain rfl : dr.moi = moi := by simpa [SwerveDrivetrain.wide] using hi
    have hl : mods.length = dr.modules.length := by simpa [SwerveDrivetrain.wide] using hw.length_eq
    have hw' : ∀ (i : ℕ) (h1 : i < mods.length) (h2 : i < dr.modules.length),
        (dr.modules[i]).translation = (mods[i]).translation ∧ maxSpeed mods[i] ≤ maxSpeed dr.modules[i] ∧
        maxForce mods[i] ≤ maxForce dr.modules[i] := by
      intro i h1 h2
      have := hw.get h1 (by simpa [SwerveDrivetrain.wide] using h2)
      simp only [SwerveDrivetrain.wide, List.get_eq_getElem, List.getElem_map] at this
      exact (weaker_wide (hr _ (List.getElem_mem _))).mp this
    obtain ⟨h1, h2, h3, h4⟩ := hd
    refine ⟨?_, ?_, ?_, ?_⟩
    · simpa [Fin.sum_univ_eq_sum_range, hl] using h1
    · rw [← h2]
      refine (Fintype.sum_equiv (finCongr hl) _ _ fun j => ?_).symm
      have := (hw' j j.2 (hl ▸ j.2)).1
      simp [lever, this]
    · intro m hm
      obtain ⟨i, hi, rfl⟩ := List.getElem_of_mem hm
      obtain ⟨e1, e2, -⟩ := hw' i (hl ▸ hi) hi
      have := h3 _ (List.getElem_mem (hl ▸ hi : i < mods.length))
      simp only [wheelVelocity, e1] at this ⊢
      exact this.trans e2
    · intro j
      have hj : (j : ℕ) < mods.length := by rw [hl]; exact j.2
      exact (h4 ⟨j, hj⟩).trans (hw' j hj j.2).2.2
  · intro h
    refine ⟨dr, rfl, rfl, ?_, h⟩
    simp only [SwerveDrivetrain.wide, List.forall₂_map_right_iff]
    rw [List.forall₂_same]
    intro m hm
    exact (weaker_wide (hr m hm)).mpr ⟨rfl, le_rfl, le_rfl⟩

theorem gapW_wide (dr : SwerveDrivetrain ℝ) (g : ℝ) : GapW dr.wide g ↔ Gap dr g := by
  simp only [Gap, GapW, SwerveDrivetrain.wide, ← List.map_tail, List.zip_map, List.mem_map]
  refine and_congr Iff.rfl ⟨?_, ?_⟩
  · rintro ⟨a, b, ⟨⟨p, q⟩, hpq, he⟩, t, u, h1, h2, h⟩
    simp only [Prod.map_apply, Prod.mk.injEq] at he
    obtain ⟨rfl, rfl⟩ := he
    obtain rfl := wideT_inj.mp h1
    obtain rfl := wideT_inj.mp h2
    exact ⟨_, _, hpq, h⟩
  · rintro ⟨a, b, hab, h⟩
    exact ⟨_, _, ⟨_, hab, rfl⟩, _, _, rfl, rfl, h⟩

theorem stepW_wide (dr : SwerveDrivetrain ℝ) (dt : ℝ) : StepW dr.wide dt ↔
    ∀ m ∈ dr.modules, ∀ g, Gap dr g → dt * m.wheelRadius * m.wheelMaxAngularVelocity ≤ g := by
  rw [StepW]
  simp only [gapW_wide]
  simp only [SwerveDrivetrain.wide, List.forall_mem_map, fin_mul, reduceCtorEq, false_or]
  refine forall₂_congr fun m _ => ?_
  simp

/-- C88: with finite numbers only (and wheel radii not zero) obeying means what it does over the reals
(C29). -/
theorem C88_finite (t : PathTable Wide) (t₀ : PathTable ℝ) (dr : SwerveDrivetrain ℝ)
    (hr : ∀ m ∈ dr.modules, m.wheelRadius ≠ 0) (hcounts : t.counts = t₀.counts)
    (hinstant : ∀ w, t.instant w = (t₀.instant w).map Constraint.wide)
    (hcontinuous : ∀ s, t.continuous s = (t₀.continuous s).map Constraint.wide) (T : Traj) :
    ObeysW t dr.wide T ↔ Obeys t₀ dr T := by
  constructor
  · rintro ⟨h1, h2, h3, h4, h5, h6⟩
    simp only [hcounts, hinstant, hcontinuous, List.forall_mem_map, meaningW_wide, dynamicsW_wide hr,
      stepW_wide] at h1 h2 h3 h4 h5 h6
    exact ⟨h1, h2, h3, h4, h5, h6⟩
  · rintro ⟨h1, h2, h3, h4, h5, h6⟩
    refine ⟨?_, ?_, ?_, ?_, ?_, ?_⟩ <;>
      simpa only [hcounts, hinstant, hcontinuous, List.forall_mem_map, meaningW_wide,
        dynamicsW_wide hr, stepW_wide]

/-- The hypotheses can be met: finite data of a robot driving one metre. -/
example : ∃ (t : PathTable Wide) (t₀ : PathTable ℝ) (dr : SwerveDrivetrain ℝ),
    (∀ m ∈ dr.modules, m.wheelRadius ≠ 0) ∧ t.counts = t₀.counts ∧
    (∀ w, t.instant w = (t₀.instant w).map Constraint.wide) ∧
    (∀ s, t.continuous s = (t₀.continuous s).map Constraint.wide) ∧ dr.modules ≠ [] ∧
    t₀.instant 1 ≠ [] :=
  ⟨⟨2, fun w => [.poseEquality (.fin w) (.fin 0) (.fin 0)], fun _ => [], fun _ => [], [1], none, [], []⟩,
    ⟨2, fun w => [.poseEquality w 0 0], fun _ => [], fun _ => [], [1], none, [], []⟩,
    ⟨2, 1, [⟨⟨1, 0⟩, 1, 3, 4⟩]⟩, by simp, rfl, fun _ => rfl, fun _ => rfl, by simp, by simp⟩

/-! ### NaN -/

theorem apply_nan (c : Constraint Wide) (h : nan ∈ c.data) (s : SampleVars Wide) (σ : ℕ → Wide) :
    ∃ k ∈ c.apply s, ¬ k.Test σ := by
  have hz : Dbl.eq nan (Num.lit 0 : Wide) ≠ true := by
    rw [show Dbl.eq nan (Num.lit 0 : Wide) = false from rfl]; simp
  cases c with
  | angularVelocityMaxMagnitude m =>
    obtain rfl : nan = m := by simpa [Constraint.data] using h
    rw [Constraint.apply, if_neg hz]
    exact ⟨_, List.mem_cons_self, by simp [Con.Test, value_const, nonneg_nan]⟩
  | linearAccelerationMaxMagnitude m =>
    obtain rfl : nan = m := by simpa [Constraint.data] using h
    rw [Constraint.apply, if_neg hz]
    exact ⟨_, List.mem_cons_self, by simp [Con.Test, value_const, nonneg_nan]⟩
  | linearVelocityMaxMagnitude m =>
    obtain rfl : nan = m := by simpa [Constraint.data] using h
    rw [Constraint.apply, if_neg hz]
    exact ⟨_, List.mem_cons_self, by simp [Con.Test, value_const, nonneg_nan]⟩
  | linearVelocityDirection a =>
    obtain rfl : nan = a := by simpa [Constraint.data] using h
    simp [Constraint.apply, Con.Test, Translation2.dot, value_add, value_mul, value_const,
      Rotation2.ofAngle]
  | poseEquality x y a =>
    simp only [Constraint.data, List.mem_cons, List.not_mem_nil, or_false] at h
    rcases h with rfl | rfl | rfl <;>
    simp [Constraint.apply, Con.Test, Pose2.eqCons, Translation2.eqCons, Rotation2.eqCons,
      Translation2.toV, Rotation2.toV, Pose2.ofXYHeading, Rotation2.ofAngle, value_add, value_mul,
      value_const, value_sub]
  | translationEquality p =>
    obtain ⟨x, y⟩ := p
    simp only [Constraint.data, Translation2.data, List.mem_cons, List.not_mem_nil, or_false] at h
    rcases h with rfl | rfl <;>
    simp [Constraint.apply, Con.Test, Translation2.eqCons, Translation2.toV, value_const]
  | pointAt p t =>
    obtain ⟨x, y⟩ := p
    simp only [Constraint.data, Translation2.data, List.mem_cons, List.not_mem_nil, or_false] at h
    rcases h with rfl | rfl | rfl <;>
    simp [Constraint.apply, Con.Test, value_add, value_mul, value_const, value_sub, nonneg_nan]
  | pointPoint r p d =>
    obtain ⟨x, y⟩ := p
    obtain ⟨x', y'⟩ := r
    simp only [Constraint.data, Translation2.data, List.mem_cons, List.not_mem_nil, or_false,
      List.mem_append] at h
    rcases h with rfl | (rfl | rfl) | (rfl | rfl) <;>
    simp [Constraint.apply, Con.Test, value_add, value_mul, value_const, value_sub, Translation2.add,
      Translation2.rotateBy, Translation2.toV, nonneg_nan]
  | linePoint a b p d =>
    refine ⟨_, List.mem_cons_self, lpd_con_false _ _ _ _ _ ?_⟩
    obtain ⟨ax, ay⟩ := a
    obtain ⟨bx, bY⟩ := b
    obtain ⟨x, y⟩ := p
    simp only [Constraint.data, Translation2.data, List.mem_cons, List.not_mem_nil, or_false,
      List.mem_append] at h
    rcases h with rfl | ((rfl | rfl) | (rfl | rfl)) | (rfl | rfl) <;>
    simp [valueT, value_add, value_mul, value_const, value_sub, Translation2.add,
      Translation2.rotateBy, Translation2.toV]
  | pointLine r a b d =>
    refine ⟨_, List.mem_cons_self, lpd_con_false _ _ _ _ _ ?_⟩
    obtain ⟨ax, ay⟩ := a
    obtain ⟨bx, bY⟩ := b
    obtain ⟨x, y⟩ := r
    simp only [Constraint.data, Translation2.data, List.mem_cons, List.not_mem_nil, or_false,
      List.mem_append] at h
    rcases h with rfl | ((rfl | rfl) | (rfl | rfl)) | (rfl | rfl) <;>
    simp [valueT, value_add, value_mul, value_const, value_sub, Translation2.add,
      Translation2.rotateBy, Translation2.toV]

theorem torqueExpr_nan (σ : ℕ → Wide) (m n : ℕ) (mods : List (SwerveModule Wide)) (i : ℕ)
    (tau : Expr Wide)
    (h : tau.value σ = nan ∨ ∃ md ∈ mods, nan ∈ md.translation.data) :
    (torqueExpr m n mods i tau).value σ = nan := by
  induction mods generalizing i tau with
  | nil => simpa [torqueExpr] using h
  | cons md rest ih =>
    rw [torqueExpr]
    apply ih
    rcases h with h | ⟨md', hmd, h⟩
    · left; simp [value_add, h]
    · rcases List.mem_cons.mp hmd with rfl | hmd
      · left
        simp only [Translation2.data, List.mem_cons, List.not_mem_nil, or_false] at h
        rcases h with h | h <;>
          simp [Translation2.cross, Translation2.rotateBy, Translation2.toV, value_add, value_sub,
            value_mul, value_const, ← h]
      · exact .inr ⟨md', hmd, h⟩

theorem powerList_nan (σ : ℕ → Wide) (m n : ℕ) (mods : List (SwerveModule Wide)) (i : ℕ)
    (md : SwerveModule Wide) (hmd : md ∈ mods)
    (h : nan ∈ [md.wheelRadius, md.wheelMaxAngularVelocity, md.wheelMaxTorque]) :
    ∃ c ∈ powerList m n mods i, ¬ c.Test σ := by
  induction mods generalizing i with
  | nil => simp at hmd
  | cons md' rest ih =>
    rw [powerList]
    rcases List.mem_cons.mp hmd with rfl | hmd
    · have : ∃ c ∈ powerCons (sampleVars m n) (forceVars m n i) md, ¬ c.Test σ := by
        simp only [List.mem_cons, List.not_mem_nil, or_false] at h
        rcases h with h | h | h <;>
          simp [powerCons, Con.Test, value_const, ← h, nonneg_nan]
      obtain ⟨c, hc, hc'⟩ := this
      exact ⟨c, List.mem_append_left _ hc, hc'⟩
    · obtain ⟨c, hc, hc'⟩ := ih (i + 1) hmd
      exact ⟨c, List.mem_append_right _ hc, hc'⟩

theorem dynCons_nan (σ : ℕ → Wide) (dr : SwerveDrivetrain Wide) (h : nan ∈ dr.data) (n : ℕ) :
    ∃ c ∈ dynCons dr n, ¬ c.Test σ := by
  simp only [SwerveDrivetrain.data, List.mem_cons, List.mem_flatMap] at h
  rcases h with h | h | ⟨md, hmd, h⟩
  · refine ⟨_, List.mem_append_right _ List.mem_cons_self, ?_⟩
    simp [Con.Test, value_mul, value_const, ← h]
  · refine ⟨_, List.mem_append_right _ (List.mem_cons_of_mem _ (List.mem_cons_of_mem _
      List.mem_cons_self)), ?_⟩
    simp [Con.Test, value_mul, value_const, ← h]
  · rcases List.mem_append.mp h with h | h
    · obtain ⟨c, hc, hc'⟩ := powerList_nan σ dr.modules.length n dr.modules 0 md hmd h
      exact ⟨c, List.mem_append_left _ hc, hc'⟩
    · refine ⟨_, List.mem_append_right _ (List.mem_cons_of_mem _ (List.mem_cons_of_mem _
        List.mem_cons_self)), ?_⟩
      simp [Con.Test, torqueExpr_nan σ _ _ _ _ _ (.inr ⟨md, hmd, h⟩)]

/-- C88: with NaN in a constraint that is used or in the drivetrain, no values whatever of the decision
variables satisfy all constraints. -/
theorem C88_nan (b : Builder Wide) (hb : Reachable b) (dr : SwerveDrivetrain Wide) (hr : Ready b dr)
    (handle : ℤ)
    (h : nan ∈ dr.data ∨
      (∃ w ≤ (table b).counts.length, ∃ c ∈ (table b).instant w, nan ∈ c.data) ∨
      ∃ s, ∃ hs : s < (table b).counts.length, 0 < (table b).counts[s] ∧
        ∃ c ∈ (table b).continuous s, nan ∈ c.data) :
    ∃ g, Generator.construct b handle = .ok g ∧ ∀ σ : ℕ → Wide, ∃ c ∈ g.problem.cons, ¬ c.Test σ := by
  obtain ⟨sol, -, -, hc⟩ := construct_closed hb hr handle
  refine ⟨_, hc, fun σ => ?_⟩
  change ∃ c ∈ allCons b.path dr b.controlIntervalCounts, _
  rcases h with h | ⟨w, hw, c, hc, h⟩ | ⟨s, hs, hN, c, hc, h⟩
  · obtain ⟨c, hc, hc'⟩ := dynCons_nan σ dr h 0
    refine ⟨c, ?_, hc'⟩
    simp only [allCons, List.mem_append, List.mem_flatMap (f := dynCons dr)]
    exact .inl (.inl (.inr ⟨0, by simp, hc⟩))
  · obtain ⟨k, hk, hk'⟩ := apply_nan c h
      (sampleVars dr.modules.length (b.controlIntervalCounts.take w).sum) σ
    refine ⟨k, ?_, hk'⟩
    simp only [allCons, List.mem_append, wptList, List.mem_flatMap, List.mem_range]
    exact .inl (.inr ⟨w, Nat.lt_one_add_iff.mpr hw, c, hc, hk⟩)
  · obtain ⟨k, hk, hk'⟩ := apply_nan c h
      (sampleVars dr.modules.length (1 + (b.controlIntervalCounts.take s).sum)) σ
    refine ⟨k, ?_, hk'⟩
    rw [allCons, List.mem_append]
    right
    simp only [sgmtList, List.mem_flatMap, List.mem_range]
    refine ⟨s, hs, c, hc, _, ?_, hk⟩
    have hs' : s < b.controlIntervalCounts.length := hs
    rw [List.mem_range'_1, getD_lt hs']
    exact ⟨le_rfl, Nat.lt_add_of_pos_right hN⟩

/-- C88: constructors that check their argument stop at NaN, with asserts compiled in. -/
theorem C88_assert (a b p : Translation2 Wide) :
    Constraint.mkAngularVelocityMaxMagnitude true nan = .error .assertFailed ∧
    Constraint.mkLinearAccelerationMaxMagnitude true nan = .error .assertFailed ∧
    Constraint.mkLinearVelocityMaxMagnitude true nan = .error .assertFailed ∧
    Constraint.mkPointAt true p nan = .error .assertFailed ∧
    Constraint.mkLinePoint true a b p nan = .error .assertFailed ∧
    Constraint.mkPointLine true p a b nan = .error .assertFailed ∧
    Constraint.mkPointPoint true a p nan = .error .assertFailed := by
  have h : Dbl.le (Num.lit 0) nan = false := rfl
  have h' : ∀ c : Constraint Wide, Constraint.assertNonneg true nan c = .error .assertFailed := by
    intro c
    rw [Constraint.assertNonneg, h]; rfl
  exact ⟨h' _, h' _, h' _, h' _, h' _, h' _, h' _⟩

/-- C88: they stop at minus infinity and accept infinity: "no limit" is a limit, but an infinite distance
to keep passes unnoticed. -/
theorem C88_assert_infinite (a b p : Translation2 Wide) (s : Bool) :
    Constraint.mkAngularVelocityMaxMagnitude true (Wide.inf s) =
      (if s then .error .assertFailed else .ok (.angularVelocityMaxMagnitude (Wide.inf s))) ∧
    Constraint.mkLinearAccelerationMaxMagnitude true (Wide.inf s) =
      (if s then .error .assertFailed else .ok (.linearAccelerationMaxMagnitude (Wide.inf s))) ∧
    Constraint.mkLinearVelocityMaxMagnitude true (Wide.inf s) =
      (if s then .error .assertFailed else .ok (.linearVelocityMaxMagnitude (Wide.inf s))) ∧
    Constraint.mkPointAt true p (Wide.inf s) =
      (if s then .error .assertFailed else .ok (.pointAt p (Wide.inf s))) ∧
    Constraint.mkLinePoint true a b p (Wide.inf s) =
      (if s then .error .assertFailed else .ok (.linePoint a b p (Wide.inf s))) ∧
    Constraint.mkPointLine true p a b (Wide.inf s) =
      (if s then .error .assertFailed else .ok (.pointLine p a b (Wide.inf s))) ∧
    Constraint.mkPointPoint true a p (Wide.inf s) =
      (if s then .error .assertFailed else .ok (.pointPoint a p (Wide.inf s))) := by
  have h' : ∀ c : Constraint Wide, Constraint.assertNonneg true (Wide.inf s) c =
      if s then .error .assertFailed else .ok c := by
    intro c
    have h : Dbl.le (Num.lit 0) (Wide.inf s : Wide) = !s := by cases s <;> rfl
    rw [Constraint.assertNonneg, h]
    cases s <;> rfl
  exact ⟨h' _, h' _, h' _, h' _, h' _, h' _, h' _⟩

/-- C88: a wheel without limit to its speed makes every path of at least one segment impossible: the step
cap compares an infinite distance (or NaN, for steps of zero duration) with the gap. -/
theorem C88_unlimited_speed (t : PathTable Wide) (dr : SwerveDrivetrain Wide) (T : Traj)
    (ht : t.counts ≠ []) (m : SwerveModule Wide) (hm : m ∈ dr.modules)
    (hs : m.wheelMaxAngularVelocity = .inf false) (r : ℝ) (hr : m.wheelRadius = .fin r) (hr' : 0 < r) :
    ¬ ObeysW t dr T := by
  intro h
  have hl := List.length_pos_iff.mpr ht
  have h1 := h.stepCap 0 hl m hm
  have h2 := h.time 0 hl
  rw [hs, hr, fin_mul] at h1
  have h3 : ¬ T.dt 0 * r < 0 := not_lt.mpr (mul_nonneg h2 hr'.le)
  rcases mul_infinity_cases (T.dt 0 * r) with ⟨e, -⟩ | ⟨-, h4⟩ | ⟨e, -⟩
  · simp [e] at h1
  · exact h3 (h4 ▸ trivial)
  · simp [e] at h1

/-- The hypotheses can be met. -/
example (T : Traj) : ¬ ObeysW ⟨2, fun _ => [], fun _ => [], fun _ => [], [1], none, [], []⟩
    ⟨.fin 2, .fin 1, [⟨⟨.fin 1, .fin 0⟩, .fin 1, .inf false, .fin 4⟩]⟩ T :=
  C88_unlimited_speed _ _ T (by simp) _ List.mem_cons_self rfl 1 rfl one_pos

/-- C88: wheels of radius zero whose motors have some torque stand still, but no limit is left for
their forces. -/
theorem C88_zero_radius (dr : SwerveDrivetrain ℝ)
    (hr : ∀ m ∈ dr.modules, m.wheelRadius = 0 ∧ m.wheelMaxTorque ≠ 0) (s : State) (F : ℕ → ℂ) :
    DynamicsW dr.wide s F ↔ ∑ j : Fin dr.modules.length, F j = dr.mass * s.acc ∧
      ∑ j : Fin dr.modules.length, torque (lever s dr.modules[j]) (F j) = dr.moi * s.alpha ∧
      ∀ m ∈ dr.modules, wheelVelocity s m = 0 := by
  constructor
  · rintro ⟨⟨mass, moi, mods⟩, hm, hi, hw, hd⟩
    obtain rfl : dr.mass = mass := by simpa [SwerveDrivetrain.wide] using hm
    obtain rfl : dr.moi = moi := by simpa [SwerveDrivetrain.wide] using hi
    have hl : mods.length = dr.modules.length := by simpa [SwerveDrivetrain.wide] using hw.length_eq
    have hw' : ∀ (i : ℕ) (h1 : i < mods.length) (h2 : i < dr.modules.length),
        (dr.modules[i]).translation = (mods[i]).translation ∧ maxSpeed mods[i] ≤ 0 := by
      intro i h1 h2
      have := hw.get h1 (by simpa [SwerveDrivetrain.wide] using h2)
      simp only [SwerveDrivetrain.wide, List.get_eq_getElem, List.getElem_map] at this
      refine ⟨wideT_inj.mp this.place, ?_⟩
      have h3 := this.speed
      simpa [Within, (hr _ (List.getElem_mem h2)).1] using h3
    obtain ⟨h1, h2, h3, -⟩ := hd
    refine ⟨?_, ?_, ?_⟩
    · simpa [Fin.sum_univ_eq_sum_range, hl] using h1
    · rw [← h2]
      refine (Fintype.sum_equiv (finCongr hl) _ _ fun j => ?_).symm
      have := (hw' j j.2 (hl ▸ j.2)).1
      simp [lever, this]
    · intro m hm
      obtain ⟨i, hi, rfl⟩ := List.getElem_of_mem hm
      obtain ⟨e1, e2⟩ := hw' i (hl ▸ hi) hi
      have := h3 _ (List.getElem_mem (hl ▸ hi : i < mods.length))
      rw [← norm_le_zero_iff]
      simp only [wheelVelocity, e1] at this ⊢
      exact this.trans e2
  · rintro ⟨h1, h2, h3⟩
    have hlen : (dr.modules.mapIdx fun j m => (⟨m.translation, 1, 0, ‖F j‖⟩ : SwerveModule ℝ)).length =
        dr.modules.length := by simp
    refine ⟨⟨dr.mass, dr.moi, dr.modules.mapIdx fun j m => ⟨m.translation, 1, 0, ‖F j‖⟩⟩, rfl, rfl, ?_,
      ?_, ?_, ?_, ?_⟩
    · rw [List.forall₂_iff_get]
      refine ⟨by simp [SwerveDrivetrain.wide], fun i hi hi' => ?_⟩
      have hi'' : i < dr.modules.length := by simpa using hi
      obtain ⟨e1, e2⟩ := hr _ (List.getElem_mem hi'')
      simp only [SwerveDrivetrain.wide, List.get_eq_getElem, List.getElem_map, List.getElem_mapIdx]
      refine ⟨rfl, ?_, ?_⟩
      · simp [Within, maxSpeed, e1]
      · rw [fin_div, if_pos e1, if_neg e2]; trivial
    · rw [← h1]
      exact Fintype.sum_equiv (finCongr hlen) _ _ fun j => rfl
    · rw [← h2]
      refine Fintype.sum_equiv (finCongr hlen) _ _ fun j => ?_
      simp [lever]
    · intro m hm
      rw [List.mem_mapIdx] at hm
      obtain ⟨i, hi, rfl⟩ := hm
      have := h3 _ (List.getElem_mem hi)
      simp only [wheelVelocity] at this ⊢
      simp [this, maxSpeed]
    · intro j
      simp [maxForce]

/-- The hypotheses can be met: a robot with wheels of radius zero hovers at any acceleration. -/
example : DynamicsW (SwerveDrivetrain.wide ⟨2, 1, [⟨⟨0, 0⟩, 0, 3, 4⟩]⟩) ⟨0, 1, 0, 100, 0, 0⟩ fun _ => 200 := by
  rw [C88_zero_radius _ (by simp)]
  simp [torque, lever, vec, wheelVelocity]
  norm_num

/-! ### examples -/

/-- A robot with two modules and no limit to the torque. -/
noncomputable def wideRobot : SwerveDrivetrain Wide where
  mass := .fin 2
  moi := .fin 1
  modules := [⟨⟨.fin 1, .fin 0⟩, .fin 1, .fin 3, .inf false⟩,
    ⟨⟨.fin (-1), .fin 0⟩, .fin 1, .fin 3, .inf false⟩]

/-- Drive one metre in one control interval, with a limit to the speed. -/
noncomputable def wideOps (limit : Wide) : List (Op Wide) :=
  [.setDrivetrain wideRobot, .poseWpt 0 (.fin 0) (.fin 0) (.fin 0),
    .poseWpt 1 (.fin 1) (.fin 0) (.fin 0), .controlIntervalCounts [1],
    .sgmtConstraint 0 1 (.linearVelocityMaxMagnitude limit)]

/-- The builder after these calls. -/
noncomputable def wideBuilder (limit : Wide) : Builder Wide := run true (wideOps limit) Builder.new

theorem wide_table (limit : Wide) : (table (wideBuilder limit)).waypoints = 2 ∧
    (table (wideBuilder limit)).counts = [1] ∧
    (table (wideBuilder limit)).drivetrain = some wideRobot ∧
    (table (wideBuilder limit)).instant 0 =
      [.poseEquality (.fin 0) (.fin 0) (.fin 0), .linearVelocityMaxMagnitude limit] ∧
    (table (wideBuilder limit)).instant 1 =
      [.poseEquality (.fin 1) (.fin 0) (.fin 0), .linearVelocityMaxMagnitude limit] ∧
    (table (wideBuilder limit)).continuous 0 = [.linearVelocityMaxMagnitude limit] := by
  have r0 := run_snoc (b := (Builder.new : Builder Wide)) (asserts := true) (ops := [])
    rfl (op := .setDrivetrain wideRobot) rfl
  generalize ht0 : Builder.setDrivetrain wideRobot (Builder.new : Builder _) = b0 at r0
  obtain ⟨b1, e1, t1⟩ := C12_pose_wpt b0 ⟨_, _, r0⟩ 0 (by norm_num) (fin 0) (fin 0) (fin 0)
  have r1 := run_snoc r0 (op := .poseWpt 0 (fin 0) (fin 0) (fin 0)) e1
  obtain ⟨b2, e2, t2⟩ := C12_pose_wpt b1 ⟨_, _, r1⟩ 1 (by norm_num) (fin 1) (fin 0) (fin 0)
  have r2 := run_snoc r1 (op := .poseWpt 1 (fin 1) (fin 0) (fin 0)) e2
  have r3 := run_snoc r2 (op := .controlIntervalCounts [1]) rfl
  obtain ⟨b4, e4, t4⟩ := C11_sgmt_constraint true _ ⟨_, _, r3⟩ 0 1 (by norm_num) (by norm_num)
    (.linearVelocityMaxMagnitude limit)
  have r4 := run_snoc r3 (op := .sgmtConstraint 0 1 (.linearVelocityMaxMagnitude limit)) e4
  have hb : wideBuilder limit = b4 := r4.symm
  have t3 : table (b2.setControlIntervalCounts [1]) = { table b2 with counts := [1] } := rfl
  rw [hb, t4, t3, t2, t1, ← ht0]
  simp only [PathTable.requireAlong, PathTable.reach, PathTable.guessAt,
    PathTable.requireAt, table, Builder.setDrivetrain, Builder.new]
  simp

theorem wide_ready (limit : Wide) : Reachable (wideBuilder limit) ∧ Ready (wideBuilder limit) wideRobot := by
  obtain ⟨hw, ht, hd, -⟩ := wide_table limit
  refine ⟨⟨true, wideOps limit, rfl⟩, hd, ?_, ?_⟩
  · rw [hw, ht]; norm_num
  · rw [ht]; norm_num [sampleCount]

/-- With the speed unlimited some trajectory obeys. -/
theorem wide_obeys : ObeysW (table (wideBuilder (.inf false))) wideRobot barTraj := by
  obtain ⟨-, ht, -, h0, h1, hc⟩ := wide_table (.inf false)
  have hu : unitVec 0 = 1 := by simp [unitVec]
  have seg : ∀ s < (table (wideBuilder (.inf false))).counts.length,
      ∀ n ∈ segmentSamples (table (wideBuilder (.inf false))).counts s, s = 0 ∧ n = 1 := by
    intro s hs n hn
    rw [ht] at hs hn
    have : s = 0 := by simpa using hs
    subst this
    simp only [segmentSamples, waypointSample, Finset.mem_Ioc, List.take_zero, List.sum_nil,
      zero_add, List.take_succ_cons, List.sum_cons] at hn
    omega
  have hpose : ∀ (x : ℝ) v a, MeaningW (.poseEquality (.fin x) (.fin 0) (.fin 0))
      ⟨x, 1, v, a, 0, 0⟩ := by
    intro x v a
    refine .inl ⟨.poseEquality x 0 0, rfl, ?_⟩
    refine ⟨?_, ?_⟩
    · apply Complex.ext <;> simp [vec]
    · exact .inl hu.symm
  constructor
  · intro s hs n hn
    obtain ⟨rfl, rfl⟩ := seg s hs n hn
    constructor <;> simp [barTraj, hu]
    all_goals norm_num
  · intro n hn
    refine ⟨⟨2, 1, [⟨⟨1, 0⟩, 1, 3, 4⟩, ⟨⟨-1, 0⟩, 1, 3, 4⟩]⟩, rfl, rfl, ?_, ?_⟩
    · have : ∀ x : ℝ, Weaker ⟨⟨x, 0⟩, 1, 3, 4⟩ ⟨⟨.fin x, .fin 0⟩, .fin 1, .fin 3, .inf false⟩ := by
        intro x
        exact ⟨rfl, by simp [Within, maxSpeed], trivial⟩
      exact .cons (this 1) (.cons (this (-1)) .nil)
    · by_cases hn0 : n = 0
      · subst hn0
        refine ⟨?_, ?_, ?_, ?_⟩
        · simp [barTraj]
        · simp [barTraj, torque]
        · intro m hm
          simp only [List.mem_cons, List.not_mem_nil, or_false] at hm
          rcases hm with rfl | rfl <;> simp [barTraj, wheelVelocity, maxSpeed]
        · intro j
          fin_cases j <;> simp [barTraj, maxForce]
      · refine ⟨?_, ?_, ?_, ?_⟩
        · simp [barTraj, hn0]
        · simp [barTraj, hn0, torque, lever, vec, Fin.sum_univ_two]
        · intro m hm
          simp only [List.mem_cons, List.not_mem_nil, or_false] at hm
          rcases hm with rfl | rfl <;> norm_num [barTraj, hn0, wheelVelocity, maxSpeed]
        · intro j
          fin_cases j <;> norm_num [barTraj, hn0, maxForce]
  · intro s hs; norm_num [barTraj]
  · intro s _ m hm
    have hg2 : ∀ g, GapW wideRobot g → g = 2 := by
      rintro g ⟨hg, a, b, hab, p, q, hp, hq, h⟩
      simp only [wideRobot, List.tail_cons, List.zip_cons_cons, List.zip_nil_right, List.mem_cons,
        List.not_mem_nil, or_false, Prod.mk.injEq] at hab
      obtain ⟨rfl, rfl⟩ := hab
      simp only [Translation2.wide, Translation2.mk.injEq, fin_inj] at hp hq
      rw [← hp.1, ← hp.2, ← hq.1, ← hq.2] at h
      rcases h with rfl | rfl
      · norm_num
      · norm_num at hg
    right
    refine ⟨1 / 2 * 3, ?_, fun g hg => by rw [hg2 g hg]; norm_num⟩
    simp only [wideRobot, List.mem_cons, List.not_mem_nil, or_false] at hm
    rcases hm with rfl | rfl <;> simp [barTraj]
  · intro w hw c hcw
    rw [ht] at hw ⊢
    have hw : w = 0 ∨ w = 1 := by simp at hw; omega
    rcases hw with rfl | rfl
    · rw [h0] at hcw
      simp only [List.mem_cons, List.not_mem_nil, or_false] at hcw
      rcases hcw with rfl | rfl
      · have := hpose 0 0 0
        simpa [barTraj, waypointSample] using this
      · exact .inr trivial
    · rw [h1] at hcw
      simp only [List.mem_cons, List.not_mem_nil, or_false] at hcw
      rcases hcw with rfl | rfl
      · have := hpose 1 2 4
        simpa [barTraj, waypointSample] using this
      · exact .inr trivial
  · intro s hs c hcw n hn
    obtain ⟨rfl, rfl⟩ := seg s hs n hn
    rw [hc] at hcw
    obtain rfl := List.mem_singleton.mp hcw
    exact .inr trivial

/-- The hypotheses of C88 hold for this path.  Without a limit to torque and speed its constraints have
a solution that moves the robot by one metre; with a limit that is NaN they have none. -/
example : (∃ g σ, Generator.construct (wideBuilder (.inf false)) 0 = .ok g ∧
      (∀ c ∈ g.problem.cons, c.Test (finite σ)) ∧ ((decode g.vars σ).state 1).pos = 1) ∧
    ∃ g, Generator.construct (wideBuilder .nan) 0 = .ok g ∧
      ∀ σ : ℕ → Wide, ∃ c ∈ g.problem.cons, ¬ c.Test σ := by
  constructor
  · obtain ⟨h1, h2⟩ := wide_ready (.inf false)
    obtain ⟨g, hg, -, h⟩ := C88_exact _ h1 _ h2 0
    obtain ⟨σ, hσ, hT⟩ := h barTraj wide_obeys
    refine ⟨g, σ, hg, hσ, ?_⟩
    rw [hT.state 1 (by rw [(wide_table _).2.1]; simp [sampleCount])]
    simp [barTraj]
  · obtain ⟨h1, h2⟩ := wide_ready .nan
    refine C88_nan _ h1 _ h2 0 (.inr (.inl ⟨0, by simp, .linearVelocityMaxMagnitude .nan, ?_, ?_⟩))
    · rw [(wide_table _).2.2.2.1]; simp
    · simp [Constraint.data]

end Trajopt.Props
