import Verif.Lemmas.Nearby
import Verif.Props.Optimal

/-!
# C116 Solutions within a small tolerance are close to solutions
-/

set_option autoImplicit false

namespace Trajopt.Props

open Spec Builder

theorem bounded_heading (b : Builder ℝ) (dr : SwerveDrivetrain ℝ) (hb : Reachable b) (hr : Ready b dr)
    (hradius : ∀ m ∈ dr.modules, m.wheelRadius ≠ 0)
    (w : ℕ) (hw : w ≤ (table b).counts.length) (x y θ : ℝ)
    (hpose : .poseEquality x y θ ∈ (table b).instant w) :
    ∃ c₀ C : ℝ, 0 < c₀ ∧ ∀ ε, 0 ≤ ε → ε ≤ 1 / 2 → ∀ T, ObeysWithin ε (table b) dr T →
      (∀ n < sampleCount (table b).counts, c₀ ≤ ‖(T.state n).heading‖ ∧ ‖(T.state n).heading‖ ≤ C) ∧
      ‖(T.state (waypointSample (table b).counts w)).pos‖ ≤ ‖vec ⟨x, y⟩‖ + 1 := by
  set S := sampleCount (table b).counts with hS
  refine ⟨1 / 2 * (1 / 3) ^ S, 3 / 2 * 3 ^ S, by positivity, fun ε hε hε1 T hT => ⟨fun n hn => ?_, ?_⟩⟩
  · have hwp : waypointSample (table b).counts w < S := by
      have := sum_take_le (table b).counts w
      rw [hS]
      simp only [waypointSample, sampleCount]; omega
    obtain ⟨l, u⟩ := C69_heading ε hε (by linarith) b dr T ((solvesWithin_iff hε hb hr hradius).mpr hT) w hw x y θ
      hpose n hn _ rfl
    set k := max n (waypointSample (table b).counts w) - min n (waypointSample (table b).counts w) with hk
    have hkS : k ≤ S := by omega
    have q1 : (1 : ℝ) / 3 ≤ (1 - ε) / (1 + ε) := by rw [div_le_div_iff₀ (by norm_num) (by linarith)]; linarith
    have q2 : (1 + ε) / (1 - ε) ≤ 3 := by rw [div_le_iff₀ (by linarith)]; linarith
    have p1 : (1 / 3 : ℝ) ^ S ≤ ((1 - ε) / (1 + ε)) ^ k :=
      (pow_le_pow_of_le_one (by norm_num) (by norm_num) hkS).trans (pow_le_pow_left₀ (by norm_num) q1 k)
    have p2 : ((1 + ε) / (1 - ε)) ^ k ≤ 3 ^ S :=
      (pow_le_pow_left₀ (div_nonneg (by linarith) (by linarith)) q2 k).trans
        (pow_le_pow_right₀ (by norm_num) hkS)
    have z1 : (0 : ℝ) < (1 / 3) ^ S := by positivity
    have z2 : (1 / 3 : ℝ) ^ S ≤ 1 := pow_le_one₀ (by norm_num) (by norm_num)
    have z3 : (1 : ℝ) ≤ 3 ^ S := one_le_pow₀ (by norm_num)
    have z4 : 0 ≤ ((1 + ε) / (1 - ε)) ^ k := pow_nonneg (div_nonneg (by linarith) (by linarith)) k
    have l' : 1 / 2 * (1 / 3 : ℝ) ^ S ≤ ‖(T.state n).heading‖ ^ 2 := by
      refine le_trans ?_ l
      exact mul_le_mul (by linarith) p1 z1.le (by linarith)
    have u' : ‖(T.state n).heading‖ ^ 2 ≤ 3 / 2 * 3 ^ S :=
      u.trans (mul_le_mul (by linarith) p2 z4 (by norm_num))
    have hn0 := norm_nonneg (T.state n).heading
    constructor <;> by_contra hc <;> push Not at hc <;> nlinarith
  · have hp := norm_of_near (hT.instant w hw _ hpose).1
    calc ‖(T.state (waypointSample (table b).counts w)).pos‖ =
        ‖vec ⟨x, y⟩ + ((T.state (waypointSample (table b).counts w)).pos - vec ⟨x, y⟩)‖ := by congr 1; ring
      _ ≤ _ := (norm_add_le _ _).trans (add_le_add le_rfl (hp.trans (by linarith)))

theorem vec_ne {p q : Translation2 ℝ} (h : p ≠ q) : vec p ≠ vec q := by
  intro e
  apply h
  have hr := congrArg Complex.re e
  have hi := congrArg Complex.im e
  simp only [vec] at hr hi
  cases p
  cases q
  simp_all

/-- C116 for trajectories with intervals of bounded length. -/
theorem close_of_bounded (b : Builder ℝ) (dr : SwerveDrivetrain ℝ) (hb : Reachable b) (hr : Ready b dr)
    (hradius : ∀ m ∈ dr.modules, m.wheelRadius ≠ 0)
    (w : ℕ) (hw : w ≤ (table b).counts.length) (x y θ : ℝ)
    (hpose : .poseEquality x y θ ∈ (table b).instant w)
    (hm : ∃ m₁ ∈ dr.modules, ∃ m₂ ∈ dr.modules, m₁.translation ≠ m₂.translation)
    (hmass : dr.mass ≠ 0) (hmoi : dr.moi ≠ 0) (τ δ : ℝ) (hδ : 0 < δ) :
    ∃ ε, 0 < ε ∧ ε ≤ 1 / 2 ∧ ∀ T, SolvesWithin ε b dr T →
      (∀ s < (table b).counts.length, 0 < (table b).counts.getD s 0 → |T.dt s| ≤ τ) →
      ∃ T', Solves b dr T' ∧ T.CloseTo δ (table b).counts dr.modules.length T' := by
  obtain ⟨m₁, h₁, m₂, h₂, hne⟩ := hm
  obtain ⟨c₀, C, hc₀, hbd⟩ := bounded_heading b dr hb hr hradius w hw x y θ hpose
  have hk : waypointSample (table b).counts w < sampleCount (table b).counts := by
    have := sum_take_le (table b).counts w
    simp only [waypointSample, sampleCount]; omega
  obtain ⟨ε, hε, hε1, h⟩ := exists_close (table b) dr m₁ m₂ h₁ h₂ (vec_ne hne) hmass hmoi
    (waypointSample (table b).counts w) hk (‖vec ⟨x, y⟩‖ + 1) τ hc₀ C (ε₀ := 1 / 2) (by norm_num) (by norm_num)
    hbd δ hδ
  refine ⟨ε, hε, hε1, fun T hT hτ => ?_⟩
  obtain ⟨T', hT', hc⟩ := h T (hT.obeys hε.le) hτ
  exact ⟨T', (C69_limit b dr T').mpr fun ε' hε' => (solvesWithin_iff hε'.le hb hr hradius).mpr (hT' ε' hε'), hc⟩

/-- C116: if some pose is prescribed, not all modules are in the same place and mass and moment of inertia are not
zero, there is, for every `δ > 0`, a tolerance such that every trajectory which violates no constraint by more than
that, and takes no more than a given time, is within `δ` of one that violates none. -/
theorem C116_close (b : Builder ℝ) (dr : SwerveDrivetrain ℝ) (hb : Reachable b) (hr : Ready b dr)
    (hradius : ∀ m ∈ dr.modules, m.wheelRadius ≠ 0)
    (w : ℕ) (hw : w ≤ (table b).counts.length) (x y θ : ℝ)
    (hpose : .poseEquality x y θ ∈ (table b).instant w)
    (hm : ∃ m₁ ∈ dr.modules, ∃ m₂ ∈ dr.modules, m₁.translation ≠ m₂.translation)
    (hmass : dr.mass ≠ 0) (hmoi : dr.moi ≠ 0) (τ δ : ℝ) (hδ : 0 < δ) :
    ∃ ε > 0, ∀ T, SolvesWithin ε b dr T → timeTaken (table b).counts T ≤ τ →
      ∃ T', Solves b dr T' ∧ T.CloseTo δ (table b).counts dr.modules.length T' := by
  set L : ℝ := ∑ s ∈ Finset.range (table b).counts.length, ((table b).counts.getD s 0 : ℝ) with hL
  have hL0 : 0 ≤ L := Finset.sum_nonneg fun _ _ => Nat.cast_nonneg _
  obtain ⟨ε, hε, hε1, h⟩ := close_of_bounded b dr hb hr hradius w hw x y θ hpose hm hmass hmoi (|τ| + L + 1) δ hδ
  refine ⟨ε, hε, fun T hT hτ => h T hT fun s hs h0 => ?_⟩
  have ht := (hT.obeys hε.le).time
  have hnn : ∀ i ∈ Finset.range (table b).counts.length,
      0 ≤ ((table b).counts.getD i 0 : ℝ) * (T.dt i + 1) := fun i hi =>
    mul_nonneg (Nat.cast_nonneg _) (by linarith [ht i (Finset.mem_range.mp hi)])
  have h1 := Finset.single_le_sum hnn (Finset.mem_range.mpr hs)
  have h2 : ∑ i ∈ Finset.range (table b).counts.length, ((table b).counts.getD i 0 : ℝ) * (T.dt i + 1) =
      timeTaken (table b).counts T + L := by
    rw [timeTaken, hL, ← Finset.sum_add_distrib]
    exact Finset.sum_congr rfl fun i _ => by ring
  have h3 : (1 : ℝ) ≤ ((table b).counts.getD s 0 : ℝ) := by exact_mod_cast h0
  have h4 := ht s hs
  have h5 : T.dt s + 1 ≤ ((table b).counts.getD s 0 : ℝ) * (T.dt s + 1) := by nlinarith
  have h6 := le_abs_self τ
  rw [abs_le]
  constructor <;> linarith [abs_nonneg τ]

theorem exists_gap {dr : SwerveDrivetrain ℝ}
    (hm : ∃ m₁ ∈ dr.modules, ∃ m₂ ∈ dr.modules, m₁.translation ≠ m₂.translation) : ∃ g, Gap dr g := by
  by_contra hno
  push Not at hno
  have key : ∀ l : List (SwerveModule ℝ), (∀ p ∈ l.zip l.tail, p.1.translation = p.2.translation) →
      ∀ m₁ ∈ l, ∀ m₂ ∈ l, m₁.translation = m₂.translation := by
    intro l
    induction l with
    | nil => intro _ m₁ h; simp at h
    | cons a l ih =>
      intro h
      cases l with
      | nil => intro m₁ h₁ m₂ h₂; simp at h₁ h₂; rw [h₁, h₂]
      | cons a' l =>
        have h0 : a.translation = a'.translation := h (a, a') (by simp)
        have hl := ih fun p hp => h p (by
          rw [List.tail_cons, List.zip_cons_cons]
          exact List.mem_cons_of_mem _ hp)
        have ha : ∀ m ∈ a :: a' :: l, m.translation = a'.translation := by
          intro m hmem
          rcases List.mem_cons.mp hmem with rfl | hmem
          · exact h0
          · exact hl m hmem a' (by simp)
        exact fun m₁ h₁ m₂ h₂ => (ha m₁ h₁).trans (ha m₂ h₂).symm
  obtain ⟨m₁, h₁, m₂, h₂, hne⟩ := hm
  refine hne (key dr.modules (fun p hp => ?_) m₁ h₁ m₂ h₂)
  have hx : |p.1.translation.x - p.2.translation.x| = 0 := by
    by_contra h0
    exact hno _ ⟨h0, p.1, p.2, hp, .inl rfl⟩
  have hy : |p.1.translation.y - p.2.translation.y| = 0 := by
    by_contra h0
    exact hno _ ⟨h0, p.1, p.2, hp, .inr rfl⟩
  rw [abs_eq_zero, sub_eq_zero] at hx hy
  revert hx hy
  cases p.1.translation
  cases p.2.translation
  rintro rfl rfl
  rfl

/-- C116: the same of trajectories that take any time, if a wheel can turn forwards. -/
theorem C116_always (b : Builder ℝ) (dr : SwerveDrivetrain ℝ) (hb : Reachable b) (hr : Ready b dr)
    (hradius : ∀ m ∈ dr.modules, m.wheelRadius ≠ 0)
    (w : ℕ) (hw : w ≤ (table b).counts.length) (x y θ : ℝ)
    (hpose : .poseEquality x y θ ∈ (table b).instant w)
    (hm : ∃ m₁ ∈ dr.modules, ∃ m₂ ∈ dr.modules, m₁.translation ≠ m₂.translation)
    (hmass : dr.mass ≠ 0) (hmoi : dr.moi ≠ 0)
    (hspeed : ∃ m ∈ dr.modules, 0 < m.wheelRadius * m.wheelMaxAngularVelocity) (δ : ℝ) (hδ : 0 < δ) :
    ∃ ε > 0, ∀ T, SolvesWithin ε b dr T →
      ∃ T', Solves b dr T' ∧ T.CloseTo δ (table b).counts dr.modules.length T' := by
  obtain ⟨m, hmem, hpos⟩ := hspeed
  obtain ⟨g, hg⟩ := exists_gap hm
  obtain ⟨ε, hε, hε1, h⟩ := close_of_bounded b dr hb hr hradius w hw x y θ hpose hm hmass hmoi
    (max 1 ((g + 1) / (m.wheelRadius * m.wheelMaxAngularVelocity))) δ hδ
  refine ⟨ε, hε, fun T hT => h T hT fun s hs _ => ?_⟩
  have ht := (hT.obeys hε.le).time s hs
  have hc := (hT.obeys hε.le).stepCap s hs m hmem g hg
  rw [abs_le]
  constructor
  · linarith [le_max_left (1 : ℝ) ((g + 1) / (m.wheelRadius * m.wheelMaxAngularVelocity))]
  · refine le_trans ?_ (le_max_right _ _)
    rw [le_div_iff₀ hpos, ← mul_assoc]
    linarith

/-- C116: what has no solution has no solution up to a small enough tolerance either. -/
theorem C116_none (b : Builder ℝ) (dr : SwerveDrivetrain ℝ) (hb : Reachable b) (hr : Ready b dr)
    (hradius : ∀ m ∈ dr.modules, m.wheelRadius ≠ 0)
    (w : ℕ) (hw : w ≤ (table b).counts.length) (x y θ : ℝ)
    (hpose : .poseEquality x y θ ∈ (table b).instant w)
    (hm : ∃ m₁ ∈ dr.modules, ∃ m₂ ∈ dr.modules, m₁.translation ≠ m₂.translation)
    (hmass : dr.mass ≠ 0) (hmoi : dr.moi ≠ 0)
    (hspeed : ∃ m ∈ dr.modules, 0 < m.wheelRadius * m.wheelMaxAngularVelocity)
    (hno : ¬ ∃ T, Solves b dr T) : ∃ ε > 0, ¬ ∃ T, SolvesWithin ε b dr T := by
  obtain ⟨ε, hε, h⟩ := C116_always b dr hb hr hradius w hw x y θ hpose hm hmass hmoi hspeed 1 one_pos
  refine ⟨ε, hε, fun ⟨T, hT⟩ => ?_⟩
  obtain ⟨T', hT', -⟩ := h T hT
  exact hno ⟨T', hT'⟩

theorem timeTaken_close {δ : ℝ} {N : List ℕ} {m : ℕ} {T T' : Traj} (h : T.CloseTo δ N m T') :
    timeTaken N T' ≤ timeTaken N T + (∑ s ∈ Finset.range N.length, (N.getD s 0 : ℝ)) * δ := by
  rw [timeTaken, timeTaken, Finset.sum_mul, ← Finset.sum_add_distrib]
  refine Finset.sum_le_sum fun s hs => ?_
  rw [← mul_add]
  rcases Nat.eq_zero_or_pos (N.getD s 0) with h0 | h0
  · rw [h0]; simp
  · have := (abs_le.mp (h.dt s (Finset.mem_range.mp hs) h0)).1
    exact mul_le_mul_of_nonneg_left (by linarith) (Nat.cast_nonneg _)

/-- C116: up to a small enough tolerance no trajectory is faster, by more than `δ`, than the fastest. -/
theorem C116_fastest (b : Builder ℝ) (dr : SwerveDrivetrain ℝ) (T₀ : Traj) (h₀ : Fastest b dr T₀)
    (w : ℕ) (hw : w ≤ (table b).counts.length) (x y θ : ℝ)
    (hpose : .poseEquality x y θ ∈ (table b).instant w)
    (hm : ∃ m₁ ∈ dr.modules, ∃ m₂ ∈ dr.modules, m₁.translation ≠ m₂.translation)
    (hmass : dr.mass ≠ 0) (hmoi : dr.moi ≠ 0) (δ : ℝ) (hδ : 0 < δ) :
    ∃ ε > 0, ∀ T, SolvesWithin ε b dr T →
      timeTaken (table b).counts T₀ - δ ≤ timeTaken (table b).counts T := by
  have hs := h₀.solves
  set L : ℝ := ∑ s ∈ Finset.range (table b).counts.length, ((table b).counts.getD s 0 : ℝ) with hL
  have hL0 : 0 ≤ L := Finset.sum_nonneg fun _ _ => Nat.cast_nonneg _
  obtain ⟨ε, hε, h⟩ := C116_close b dr hs.reachable hs.ready hs.radius w hw x y θ hpose hm hmass hmoi
    (timeTaken (table b).counts T₀) (δ / (L + 1)) (by positivity)
  refine ⟨ε, hε, fun T hT => ?_⟩
  by_contra hlt
  push Not at hlt
  obtain ⟨T', hT', hc⟩ := h T hT (by linarith)
  have h1 := timeTaken_close hc
  have h2 := h₀.least T' hT'
  have h3 : L * (δ / (L + 1)) ≤ δ := by
    rw [mul_div_assoc', div_le_iff₀ (by positivity)]
    nlinarith
  linarith

/-- C116: no tolerance is small enough for all paths: for each there is a path, with prescribed poses, that has a
trajectory up to that tolerance and none that violates no constraint. -/
theorem C116_each (ε : ℝ) (hε : 0 < ε) : ∃ b, Reachable b ∧ Ready b demoRobot ∧
    .poseEquality 1 0 0 ∈ (table b).instant 1 ∧ (table b).counts.length = 1 ∧
    (∃ T, SolvesWithin ε b demoRobot T) ∧ ¬ ∃ T, Solves b demoRobot T := by
  have hr : Reachable demoBuilder := ⟨true, demoOps, rfl⟩
  obtain ⟨b, e, t⟩ := C11_wpt_constraint demoBuilder hr 1 (by norm_num) (.pointPoint ⟨0, 0⟩ ⟨1, 0⟩ (√ε))
  have hb : Reachable b := ⟨_, _, run_snoc (rfl : demoBuilder = run true demoOps Builder.new)
    (op := .wptConstraint 1 (.pointPoint ⟨0, 0⟩ ⟨1, 0⟩ (√ε))) e⟩
  obtain ⟨d1, d2, d3, d4, d5, d6, d7⟩ := demo_table
  have hreach : (table demoBuilder).reach 1 = table demoBuilder := by
    generalize table demoBuilder = u at d1
    simp only [PathTable.reach, d1]
    cases u; simp_all
  have ht : table b = (table demoBuilder).requireAt 1 (.pointPoint ⟨0, 0⟩ ⟨1, 0⟩ (√ε)) := by
    rw [t, hreach]
  have hi : (table b).instant 1 =
      [.poseEquality 1 0 0, .linearVelocityMaxMagnitude 2, .pointPoint ⟨0, 0⟩ ⟨1, 0⟩ (√ε)] := by
    rw [ht]; simp [PathTable.requireAt, d5]
  have hready : Ready b demoRobot :=
    ⟨by rw [ht]; exact d3, by rw [ht]; exact demo_ready.counts, by rw [ht]; exact demo_ready.size⟩
  refine ⟨b, hb, hready, by rw [hi]; simp, by rw [ht]; simp [PathTable.requireAt, d2], ⟨driveTraj 1 1, ?_⟩, ?_⟩
  · rw [solvesWithin_iff hε.le hb hready demo_radius, ht]
    refine obeysWithin_requireAt (((C69_limit _ _ _).mp (demo_solves_flip 1 (.inl rfl)) ε hε).obeys hε.le) 1 _ ?_
    exact (C70_no_effect ε (√ε) (Real.sq_sqrt hε.le).le _ _ _ ⟨0, 0⟩ ⟨0, 0⟩).1
  · rintro ⟨T, h⟩
    have h1 := h.obeys.instant 1 (by rw [ht]; simp [PathTable.requireAt, d2]) (.poseEquality 1 0 0)
      (by rw [hi]; simp)
    have h2 := h.obeys.instant 1 (by rw [ht]; simp [PathTable.requireAt, d2])
      (.pointPoint ⟨0, 0⟩ ⟨1, 0⟩ (√ε)) (by rw [hi]; simp)
    simp only [Meaning, State.onRobot] at h1 h2
    rw [h1.1, show vec ⟨0, 0⟩ = 0 by simp [vec, Complex.ext_iff], zero_mul, add_zero,
      dist_self, abs_nonpos_iff] at h2
    exact (Real.sqrt_pos.mpr hε).ne' h2

theorem demo_forwards : ∃ m ∈ demoRobot.modules, 0 < m.wheelRadius * m.wheelMaxAngularVelocity :=
  ⟨⟨⟨1, 1⟩, 1, 2, 2⟩, by simp [demoRobot], by norm_num⟩

/-- The path of one metre: some tolerance keeps the solver within a millimetre of a trajectory. -/
example : ∃ ε > 0, ∀ T, SolvesWithin ε demoBuilder demoRobot T →
    ∃ T', Solves demoBuilder demoRobot T' ∧
      T.CloseTo (1 / 1000) (table demoBuilder).counts demoRobot.modules.length T' := by
  obtain ⟨d1, d2, d3, d4, d5, d6, d7⟩ := demo_table
  exact C116_always demoBuilder demoRobot ⟨true, demoOps, rfl⟩ demo_ready demo_radius 1 (by rw [d2]; simp) 1 0 0
    (by rw [d5]; simp) demo_apart (by norm_num [demoRobot]) (by norm_num [demoRobot]) demo_forwards _ (by norm_num)

/-- And some tolerance shows that a path cannot be driven that would end a metre from where it is to end. -/
example : ∃ b, ¬ (∃ T, Solves b demoRobot T) ∧ (∃ T, SolvesWithin 1 b demoRobot T) ∧
    ∃ ε > 0, ¬ ∃ T, SolvesWithin ε b demoRobot T := by
  obtain ⟨b, hb, hr, hi, hl, h1, hno⟩ := C116_each 1 one_pos
  exact ⟨b, hno, h1, C116_none b demoRobot hb hr demo_radius 1 (by rw [hl]) 1 0 0 hi demo_apart
    (by norm_num [demoRobot]) (by norm_num [demoRobot]) demo_forwards hno⟩

end Trajopt.Props
