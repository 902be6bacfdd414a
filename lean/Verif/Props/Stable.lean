import Verif.Lemmas.Stable
import Verif.Props.Nearby
import Verif.Props.Reach

/-!
# C118 Small changes of path and robot change little
-/

set_option autoImplicit false

namespace Trajopt.Props

open Spec Builder

/-- C118 (partial): if some pose is prescribed and no segment of a keep-out has length 0, then for every `ε > 0` all
paths and robots near enough have, among those that take no more than a given time, only trajectories that are within
`ε` of one of the given path and robot.  Missing: the converse, which is false (see below). -/
theorem C118_close_partial (b : Builder ℝ) (dr : SwerveDrivetrain ℝ) (hb : Reachable b) (hr : Ready b dr)
    (hradius : ∀ m ∈ dr.modules, m.wheelRadius ≠ 0)
    (w : ℕ) (hw : w ≤ (table b).counts.length) (x y θ : ℝ)
    (hpose : .poseEquality x y θ ∈ (table b).instant w)
    (hm : ∃ m₁ ∈ dr.modules, ∃ m₂ ∈ dr.modules, m₁.translation ≠ m₂.translation)
    (hmass : dr.mass ≠ 0) (hmoi : dr.moi ≠ 0)
    (hi : ∀ w ≤ (table b).counts.length, ∀ c ∈ (table b).instant w, ¬ HasNoLength c)
    (τ ε : ℝ) (hε : 0 < ε) :
    ∃ δ > 0, ∀ b' dr' T', PathClose δ (table b) (table b') → RobotClose δ dr dr' → Solves b' dr' T' →
      timeTaken (table b').counts T' ≤ τ →
      ∃ T, Solves b dr T ∧ T'.CloseTo ε (table b).counts dr.modules.length T := by
  obtain ⟨m₁, h₁, m₂, h₂, hne⟩ := hm
  have hk : waypointSample (table b).counts w < sampleCount (table b).counts := by
    have := sum_take_le (table b).counts w
    simp only [waypointSample, sampleCount]; omega
  have hc : ∀ s < (table b).counts.length, ∀ c ∈ (table b).continuous s, ¬ HasNoLength c := fun s hs c hcs =>
    hi s hs.le c (C72_ends b hb s c hcs).1
  obtain ⟨δ₀, hδ₀, K, hK, hclose⟩ := obeys_close (table b) dr hradius m₁ m₂ h₁ h₂ (vec_ne hne) hmass hmoi hi hc
    (waypointSample (table b).counts w) hk (‖vec ⟨x, y⟩‖ + 2) |τ| (abs_nonneg _)
  obtain ⟨ε₁, hε₁, hnear⟩ := C116_close b dr hb hr hradius w hw x y θ hpose ⟨m₁, h₁, m₂, h₂, hne⟩ hmass hmoi τ ε hε
  refine ⟨min (min 1 δ₀) (ε₁ / (K + 1)), by positivity, fun b' dr' T' hp hd hT' hτ => ?_⟩
  set δ := min (min 1 δ₀) (ε₁ / (K + 1)) with hδ
  have h0 : 0 ≤ δ := by positivity
  have d1 : δ ≤ 1 := (min_le_left _ _).trans (min_le_left _ _)
  have d2 : δ ≤ δ₀ := (min_le_left _ _).trans (min_le_right _ _)
  have d3 : K * δ ≤ ε₁ := by
    have : δ ≤ ε₁ / (K + 1) := min_le_right _ _
    rw [le_div_iff₀ (by positivity)] at this
    nlinarith
  have hN := hp.counts
  have hlen : dr.modules.length = dr'.modules.length := hd.modules.length_eq
  -- a pose is prescribed on the other path
  obtain ⟨x', y', θ', hx, hy, hpose'⟩ : ∃ x' y' θ', |x - x'| ≤ δ ∧ |y - y'| ≤ δ ∧
      .poseEquality x' y' θ' ∈ (table b').instant w := by
    obtain ⟨i, hlt, he⟩ := List.getElem_of_mem hpose
    have hf := hp.instant w hw
    have := hf.get hlt (hf.length_eq ▸ hlt)
    simp only [List.get_eq_getElem, he] at this
    revert this
    generalize hg : (table b').instant w = l at *
    cases hq : l[i]'(hf.length_eq ▸ hlt) with
    | poseEquality x' y' θ' =>
      rintro ⟨hx, hy, -⟩
      exact ⟨x', y', θ', hx, hy, by rw [← hq]; exact List.getElem_mem _⟩
    | _ => intro h; exact h.elim
  have hw' : w ≤ (table b').counts.length := by rw [← hN]; exact hw
  have hu := C33_pose_partial b' dr' T' hT' w hw' x' y' θ' hpose'
  rw [← hN] at hu hτ
  -- leave out what does not matter
  set T := trim (table b).counts dr.modules.length T' with hTdef
  have ho : Obeys (table b') dr' T := by
    rw [hTdef, hN, hlen]
    exact obeys_trim hT'.obeys
  have hst : ∀ n < sampleCount (table b).counts, T.state n = T'.state n := fun n hn => by simp [hTdef, trim, hn]
  have hpos : ‖(T.state (waypointSample (table b).counts w)).pos‖ ≤ ‖vec ⟨x, y⟩‖ + 2 := by
    have e := (ho.instant w hw' _ hpose').1
    rw [← hN] at e
    rw [e]
    have e1 := norm_le_norm_add_norm_sub' (vec ⟨x', y'⟩) (vec ⟨x, y⟩)
    have e2 := Complex.norm_le_abs_re_add_abs_im (vec ⟨x', y'⟩ - vec ⟨x, y⟩)
    simp only [Complex.sub_re, Complex.sub_im, vec] at e1 e2 ⊢
    rw [abs_sub_comm] at hx hy
    linarith
  have hdt : ∀ s < (table b).counts.length, T.dt s ≤ |τ| := by
    intro s hs
    have hnn : ∀ i ∈ Finset.range (table b).counts.length, 0 ≤ ((table b).counts.getD i 0 : ℝ) * T'.dt i := fun i h =>
      mul_nonneg (Nat.cast_nonneg _) (hT'.obeys.time i (by rw [← hN]; exact Finset.mem_range.mp h))
    have h1 := Finset.single_le_sum hnn (Finset.mem_range.mpr hs)
    have h2 : ∑ i ∈ Finset.range (table b).counts.length, ((table b).counts.getD i 0 : ℝ) * T'.dt i ≤ τ := hτ
    have h3 := hT'.obeys.time s (by rw [← hN]; exact hs)
    simp only [hTdef, trim]
    split
    next h =>
      have h4 : (1 : ℝ) ≤ ((table b).counts.getD s 0 : ℝ) := by exact_mod_cast h.2
      have h5 : T'.dt s ≤ ((table b).counts.getD s 0 : ℝ) * T'.dt s := by nlinarith
      linarith [le_abs_self τ]
    next => exact abs_nonneg _
  have hwithin := hclose δ h0 d2 (table b') dr' T hp hd ho (fun n hn => by rw [hst n hn]; exact hu n hn) hpos hdt
  have htime : timeTaken (table b).counts T = timeTaken (table b).counts T' := by
    simp only [timeTaken]
    refine Finset.sum_congr rfl fun s hs => ?_
    rcases Nat.eq_zero_or_pos ((table b).counts.getD s 0) with h | h
    · rw [h]; simp
    · simp only [hTdef, trim, Finset.mem_range.mp hs, h, and_self, if_true]
  obtain ⟨T₂, hT₂, hc₂⟩ := hnear T ((solvesWithin_iff hε₁.le hb hr hradius).mpr (obeysWithin_mono d3 hwithin))
    (by rw [htime]; exact hτ)
  refine ⟨T₂, hT₂, fun n hn => ?_, fun n hn j hj => ?_, fun s hs h => ?_⟩
  · rw [← hst n hn]; exact hc₂.state n hn
  · have : T.force n j = T'.force n j := by simp [hTdef, trim, hn, hj]
    rw [← this]; exact hc₂.force n hn j hj
  · have : T.dt s = T'.dt s := by simp only [hTdef, trim, hs, h, and_self, if_true]
    rw [← this]; exact hc₂.dt s hs h

/-- A path with a trajectory has no keep-out with a segment of length 0. -/
theorem has_length {b : Builder ℝ} {dr : SwerveDrivetrain ℝ} {T : Traj} (h : Solves b dr T) :
    ∀ w ≤ (table b).counts.length, ∀ c ∈ (table b).instant w, ¬ HasNoLength c := by
  intro w hw c hc hn
  have hm := h.obeys.instant w hw c hc
  cases c with
  | linePoint a b p d => exact hm.1 (by rw [show a = b from hn])
  | pointLine r a b d => exact hm.1 (by rw [show a = b from hn])
  | _ => exact hn

/-- C118 (partial): small changes of path and robot do not make a path much faster.  Missing: that they do not make
it much slower, which is false (see below). -/
theorem C118_fastest_partial (b : Builder ℝ) (dr : SwerveDrivetrain ℝ) (T₀ : Traj) (h₀ : Fastest b dr T₀)
    (w : ℕ) (hw : w ≤ (table b).counts.length) (x y θ : ℝ)
    (hpose : .poseEquality x y θ ∈ (table b).instant w)
    (hm : ∃ m₁ ∈ dr.modules, ∃ m₂ ∈ dr.modules, m₁.translation ≠ m₂.translation)
    (hmass : dr.mass ≠ 0) (hmoi : dr.moi ≠ 0) (ε : ℝ) (hε : 0 < ε) :
    ∃ δ > 0, ∀ b' dr' T', PathClose δ (table b) (table b') → RobotClose δ dr dr' → Solves b' dr' T' →
      timeTaken (table b).counts T₀ - ε ≤ timeTaken (table b').counts T' := by
  have hs := h₀.solves
  set L : ℝ := ∑ s ∈ Finset.range (table b).counts.length, ((table b).counts.getD s 0 : ℝ) with hL
  have hL0 : 0 ≤ L := Finset.sum_nonneg fun _ _ => Nat.cast_nonneg _
  obtain ⟨δ, hδ, h⟩ := C118_close_partial b dr hs.reachable hs.ready hs.radius w hw x y θ hpose hm hmass hmoi
    (has_length hs) (timeTaken (table b).counts T₀) (ε / (L + 1)) (by positivity)
  refine ⟨δ, hδ, fun b' dr' T' hp hd hT' => ?_⟩
  by_contra hlt
  push Not at hlt
  obtain ⟨T, hT, hc⟩ := h b' dr' T' hp hd hT' (by linarith)
  have h1 := timeTaken_close hc
  have h2 := h₀.least T hT
  have h3 : L * (ε / (L + 1)) ≤ ε := by
    rw [mul_div_assoc', div_le_iff₀ (by positivity)]
    nlinarith
  rw [← hp.counts] at hlt
  linarith

theorem robotClose_mono {δ δ' : ℝ} (h : δ ≤ δ') {dr dr' : SwerveDrivetrain ℝ} (hd : RobotClose δ dr dr') :
    RobotClose δ' dr dr' :=
  ⟨hd.mass.trans h, hd.moi.trans h, hd.modules.imp fun _ _ hm => module_mono h hm⟩

theorem constraintClose_mono {δ δ' : ℝ} (h : δ ≤ δ') {c c' : Constraint ℝ} (hc : ConstraintClose δ c c') :
    ConstraintClose δ' c c' := by
  cases c <;> cases c' <;> simp only [ConstraintClose] at hc ⊢ <;>
    first
    | exact hc.trans h
    | exact ⟨hc.1.trans h, hc.2.trans h⟩
    | exact ⟨hc.1.trans h, hc.2.1.trans h, hc.2.2.trans h⟩
    | exact ⟨hc.1.trans h, hc.2.1.trans h, hc.2.2.1.trans h, hc.2.2.2.trans h⟩

theorem pathClose_mono {δ δ' : ℝ} (h : δ ≤ δ') {t t' : PathTable ℝ} (hp : PathClose δ t t') : PathClose δ' t t' :=
  ⟨hp.counts, fun w hw => (hp.instant w hw).imp fun _ _ hc => constraintClose_mono h hc,
    fun s hs => (hp.continuous s hs).imp fun _ _ hc => constraintClose_mono h hc⟩

/-- C118 (partial): what cannot be driven cannot be driven after small changes either, if a wheel can turn forwards
and no keep-out has a segment of length 0.  Missing: that exception, for which it is false, and the converse, which is
false too (see below). -/
theorem C118_none_partial (b : Builder ℝ) (dr : SwerveDrivetrain ℝ) (hb : Reachable b) (hr : Ready b dr)
    (hradius : ∀ m ∈ dr.modules, m.wheelRadius ≠ 0)
    (w : ℕ) (hw : w ≤ (table b).counts.length) (x y θ : ℝ)
    (hpose : .poseEquality x y θ ∈ (table b).instant w)
    (hm : ∃ m₁ ∈ dr.modules, ∃ m₂ ∈ dr.modules, m₁.translation ≠ m₂.translation)
    (hmass : dr.mass ≠ 0) (hmoi : dr.moi ≠ 0)
    (hspeed : ∃ m ∈ dr.modules, 0 < m.wheelRadius * m.wheelMaxAngularVelocity)
    (hi : ∀ w ≤ (table b).counts.length, ∀ c ∈ (table b).instant w, ¬ HasNoLength c)
    (hno : ¬ ∃ T, Solves b dr T) :
    ∃ δ > 0, ∀ b' dr', PathClose δ (table b) (table b') → RobotClose δ dr dr' → ¬ ∃ T', Solves b' dr' T' := by
  obtain ⟨m, hmem, hpos⟩ := hspeed
  obtain ⟨g, hg⟩ := exists_gap hm
  obtain ⟨δ₁, hδ₁, D, hD0, hD⟩ := step_bound dr g hg m hmem hpos
  set L : ℝ := ∑ s ∈ Finset.range (table b).counts.length, ((table b).counts.getD s 0 : ℝ) * D with hL
  obtain ⟨δ₂, hδ₂, h⟩ := C118_close_partial b dr hb hr hradius w hw x y θ hpose hm hmass hmoi hi L 1 one_pos
  refine ⟨min δ₁ δ₂, lt_min hδ₁ hδ₂, fun b' dr' hp hd ⟨T', hT'⟩ => ?_⟩
  have ho := hT'.obeys
  obtain ⟨T, hT, -⟩ := h b' dr' T' (pathClose_mono (min_le_right _ _) hp) (robotClose_mono (min_le_right _ _) hd) hT' (by
    rw [← hp.counts, timeTaken, hL]
    refine Finset.sum_le_sum fun s hs => mul_le_mul_of_nonneg_left ?_ (Nat.cast_nonneg _)
    have hs' : s < (table b').counts.length := by rw [← hp.counts]; exact Finset.mem_range.mp hs
    exact hD _ (le_min hδ₁.le hδ₂.le) (min_le_left _ _) dr' hd _ (ho.time s hs') (ho.stepCap s hs'))
  exact hno ⟨T, hT⟩

/-! ### What small changes can do -/

/-- The square robot with two modules further out by `δ`. -/
noncomputable def crookedRobot (δ : ℝ) : SwerveDrivetrain ℝ where
  mass := 4
  moi := 1
  modules := [⟨⟨1 + δ, 1⟩, 1, 2, 2⟩, ⟨⟨1, -1⟩, 1, 2, 2⟩, ⟨⟨-1, 1⟩, 1, 2, 2⟩, ⟨⟨-1 - δ, -1⟩, 1, 2, 2⟩]

theorem crooked_close (δ : ℝ) (hδ : 0 ≤ δ) : RobotClose δ demoRobot (crookedRobot δ) := by
  have h : ∀ x y x' : ℝ, |x - x'| ≤ δ →
      ModuleClose δ (⟨⟨x, y⟩, 1, 2, 2⟩ : SwerveModule ℝ) ⟨⟨x', y⟩, 1, 2, 2⟩ := fun x y x' hx =>
    ⟨by
      rw [dist_eq_norm]
      have := Complex.norm_le_abs_re_add_abs_im (vec (⟨x, y⟩ : Translation2 ℝ) - vec ⟨x', y⟩)
      simp only [Complex.sub_re, Complex.sub_im, vec, sub_self, abs_zero, add_zero] at this ⊢
      exact this.trans hx, by simpa using hδ, by simpa using hδ, by simpa using hδ⟩
  refine ⟨by simpa [demoRobot, crookedRobot] using hδ, by simpa [demoRobot, crookedRobot] using hδ, ?_⟩
  simp only [demoRobot, crookedRobot]
  refine .cons (h _ _ _ ?_) (.cons (h _ _ _ ?_) (.cons (h _ _ _ ?_) (.cons (h _ _ _ ?_) .nil)))
  · rw [sub_add_cancel_left, abs_neg, abs_of_nonneg hδ]
  · simpa using hδ
  · simpa using hδ
  · rw [sub_sub_cancel, abs_of_nonneg hδ]

theorem demo_reach (N : ℕ) (hN0 : 0 < N) (hN : N + 1 < 2 ^ 64) (x : ℝ) (hx : 0 ≤ x) :
    (∃ T, Solves (run true (straightOps demoRobot N 0 0 x 0 0) Builder.new) demoRobot T) ↔ x ≤ N * 2 := by
  rw [C67_reach demoRobot (by simp [Centred, demoRobot, vec, Complex.ext_iff]) demo_radius 2 (by norm_num)
    (by intro m hm; simp only [demoRobot, List.mem_cons, List.not_mem_nil, or_false] at hm
        rcases hm with rfl | rfl | rfl | rfl <;> norm_num) N hN0 hN]
  have e : √((x - 0) ^ 2 + (0 - 0) ^ 2) = x := by
    rw [sub_zero, sub_zero, zero_pow two_ne_zero, add_zero, Real.sqrt_sq hx]
  rw [e]
  refine ⟨fun h => h 2 ⟨two_ne_zero, ⟨⟨1, 1⟩, 1, 2, 2⟩, ⟨⟨1, -1⟩, 1, 2, 2⟩, by simp [demoRobot], .inr (by norm_num)⟩,
    fun h g hg => ?_⟩
  rw [demo_gap g hg]
  exact h

/-- C118 is false of robots: a square robot can drive a metre, with any number of control intervals, but as close to it
as one likes there are robots, with modules a little out of line, that cannot. -/
theorem C118_refuted_robot (N : ℕ) (hN0 : 0 < N) (hN : N + 1 < 2 ^ 64) (δ : ℝ) (hδ : 0 < δ) :
    (∃ T, Solves (run true (straightOps demoRobot N 0 0 1 0 0) Builder.new) demoRobot T) ∧
    ∃ dr', RobotClose δ demoRobot dr' ∧
      ¬ ∃ T, Solves (run true (straightOps dr' N 0 0 1 0 0) Builder.new) dr' T := by
  have hNr : (1 : ℝ) ≤ N := by exact_mod_cast hN0
  refine ⟨(demo_reach N hN0 hN 1 zero_le_one).mpr (by linarith), ?_⟩
  set η := min δ (1 / (2 * N)) with hη
  have hη0 : 0 < η := by positivity
  refine ⟨crookedRobot η, robotClose_mono (min_le_left _ _) (crooked_close η hη0.le), ?_⟩
  rw [C67_reach (crookedRobot η) (by simp [Centred, crookedRobot, vec, Complex.ext_iff])
    (by intro m hm; simp only [crookedRobot, List.mem_cons, List.not_mem_nil, or_false] at hm
        rcases hm with rfl | rfl | rfl | rfl <;> norm_num) 2 (by norm_num)
    (by intro m hm; simp only [crookedRobot, List.mem_cons, List.not_mem_nil, or_false] at hm
        rcases hm with rfl | rfl | rfl | rfl <;> norm_num) N hN0 hN]
  intro h
  have h1 := h η ⟨hη0.ne', ⟨⟨1 + η, 1⟩, 1, 2, 2⟩, ⟨⟨1, -1⟩, 1, 2, 2⟩, by simp [crookedRobot],
    .inl (by rw [add_sub_cancel_left, abs_of_pos hη0])⟩
  have e : √(((1 : ℝ) - 0) ^ 2 + (0 - 0) ^ 2) = 1 := by norm_num
  rw [e] at h1
  have h2 : η ≤ 1 / (2 * N) := min_le_right _ _
  rw [le_div_iff₀ (by positivity)] at h2
  linarith

/-- C118 is false of paths: a robot can drive two metres, in one control interval, but no more. -/
theorem C118_refuted_path (δ : ℝ) (hδ : 0 < δ) :
    let b := run true (straightOps demoRobot 1 0 0 2 0 0) Builder.new
    let b' := run true (straightOps demoRobot 1 0 0 (2 + δ) 0 0) Builder.new
    PathClose δ (table b) (table b') ∧ (∃ T, Solves b demoRobot T) ∧ ¬ ∃ T, Solves b' demoRobot T := by
  intro b b'
  refine ⟨?_, (demo_reach 1 one_pos (by norm_num) 2 zero_le_two).mpr (by norm_num), fun h => ?_⟩
  · obtain ⟨h1, h2, h3, h4, h5, h6⟩ := straight_table demoRobot 1 0 0 2 0 0
    obtain ⟨g1, g2, g3, g4, g5, g6⟩ := straight_table demoRobot 1 0 0 (2 + δ) 0 0
    refine ⟨h2.trans g2.symm, fun w hw => ?_, fun s hs => ?_⟩
    · rw [h2, List.length_singleton] at hw
      obtain rfl | rfl : w = 0 ∨ w = 1 := by omega
      · rw [h4, g4]
        exact .cons (by simp [ConstraintClose, hδ.le]) .nil
      · rw [h5, g5]
        exact .cons (by simp [ConstraintClose, hδ.le, abs_of_pos hδ]) .nil
    · rw [h2, List.length_singleton] at hs
      obtain rfl : s = 0 := by omega
      rw [h6, g6]
      exact .nil
  · have := (demo_reach 1 one_pos (by norm_num) (2 + δ) (by linarith)).mp h
    norm_num at this
    linarith

/-- The demonstration path with one more constraint where it ends. -/
theorem demo_with (c : Constraint ℝ) : ∃ b, Reachable b ∧ Ready b demoRobot ∧
    table b = (table demoBuilder).requireAt 1 c := by
  have hr : Reachable demoBuilder := ⟨true, demoOps, rfl⟩
  obtain ⟨b, e, t⟩ := C11_wpt_constraint demoBuilder hr 1 (by norm_num) c
  have hb : Reachable b := ⟨_, _, run_snoc (rfl : demoBuilder = run true demoOps Builder.new)
    (op := .wptConstraint 1 c) e⟩
  obtain ⟨d1, d2, d3, d4, d5, d6, d7⟩ := demo_table
  have hreach : (table demoBuilder).reach 1 = table demoBuilder := by
    generalize table demoBuilder = u at d1
    simp only [PathTable.reach, d1]
    cases u; simp_all
  have ht : table b = (table demoBuilder).requireAt 1 c := by
    rw [t, hreach]
  exact ⟨b, hb, ⟨by rw [ht]; exact d3, by rw [ht]; exact demo_ready.counts, by rw [ht]; exact demo_ready.size⟩, ht⟩

/-- C118 is false of segments of length 0: a path that has to keep away from one cannot be driven, but can if the
segment is a little longer. -/
theorem C118_refuted_length (δ : ℝ) (hδ : 0 < δ) : ∃ b b', PathClose δ (table b) (table b') ∧
    Ready b demoRobot ∧ (¬ ∃ T, Solves b demoRobot T) ∧ ∃ T, Solves b' demoRobot T := by
  obtain ⟨b, hb, hr, ht⟩ := demo_with (.pointLine ⟨0, 0⟩ ⟨9, 0⟩ ⟨9, 0⟩ 1)
  obtain ⟨b', hb', hr', ht'⟩ := demo_with (.pointLine ⟨0, 0⟩ ⟨9, 0⟩ ⟨9 + δ, 0⟩ 1)
  obtain ⟨d1, d2, d3, d4, d5, d6, d7⟩ := demo_table
  have hrefl : ∀ c : Constraint ℝ, ConstraintClose δ c c := fun c => by
    cases c <;> simp [ConstraintClose, hδ.le]
  have hrefl' : ∀ l : List (Constraint ℝ), List.Forall₂ (ConstraintClose δ) l l := fun l => by
    induction l with
    | nil => exact .nil
    | cons a l ih => exact .cons (hrefl a) ih
  refine ⟨b, b', ⟨by rw [ht, ht']; rfl, fun w hw => ?_, fun s hs => ?_⟩, hr, ?_, driveTraj 1 1, ?_⟩
  · rw [ht, ht']
    simp only [PathTable.requireAt]
    split
    · refine List.rel_append (hrefl' _) (.cons ?_ .nil)
      simp only [ConstraintClose, dist_self, sub_self, abs_zero]
      refine ⟨hδ.le, hδ.le, ?_, hδ.le⟩
      rw [dist_eq_norm]
      have := Complex.norm_le_abs_re_add_abs_im (vec (⟨9, 0⟩ : Translation2 ℝ) - vec ⟨9 + δ, 0⟩)
      simpa [vec, abs_of_pos hδ] using this
    · exact hrefl' _
  · rw [ht, ht']
    exact hrefl' _
  · rintro ⟨T, h⟩
    have := h.obeys.instant 1 (by rw [ht]; simp [PathTable.requireAt, d2]) (.pointLine ⟨0, 0⟩ ⟨9, 0⟩ ⟨9, 0⟩ 1)
      (by rw [ht]; simp [PathTable.requireAt])
    exact this.1 rfl
  · rw [solves_iff hb' hr' demo_radius, ht']
    have ho := (demo_solves_flip 1 (.inl rfl)).obeys
    refine ⟨ho.interval, ho.dynamics, ho.time, ho.stepCap, fun w hw c hc => ?_, ho.continuous⟩
    simp only [PathTable.requireAt] at hc
    split at hc
    next hw1 =>
      rcases List.mem_append.mp hc with hc | hc
      · exact ho.instant w hw c hc
      · rw [List.mem_singleton] at hc
        subst hc
        subst hw1
        have hs : (driveTraj 1 1).state (waypointSample ((table demoBuilder).requireAt 1
            (.pointLine ⟨0, 0⟩ ⟨9, 0⟩ ⟨9 + δ, 0⟩ 1)).counts 1) = (driveTraj 1 1).state 1 := by
          simp [PathTable.requireAt, d2, waypointSample]
        rw [hs]
        refine ⟨fun e => ?_, fun q hq => ?_⟩
        · have := congrArg Complex.re e
          simp only [vec] at this
          linarith
        · obtain ⟨u, v, hu, hv, huv, rfl⟩ := hq
          rw [abs_one]
          have h1 := Complex.abs_re_le_norm (u • vec (⟨9, 0⟩ : Translation2 ℝ) + v • vec (⟨9 + δ, 0⟩ : Translation2 ℝ) -
            ((driveTraj 1 1).state 1).onRobot ⟨0, 0⟩)
          rw [← dist_eq_norm] at h1
          have h2 := (le_abs_self _).trans h1
          have h3 : (u • vec (⟨9, 0⟩ : Translation2 ℝ) + v • vec (⟨9 + δ, 0⟩ : Translation2 ℝ) -
            ((driveTraj 1 1).state 1).onRobot ⟨0, 0⟩).re = 8 + v * δ := by
            have : u = 1 - v := by linarith
            simp [this, vec, State.onRobot, driveTraj]
            ring
          rw [h3] at h2
          have : 0 ≤ v * δ := by positivity
          nlinarith
    next => exact ho.instant w hw c hc

/-! ### Examples -/

/-- Nothing near the path of one metre takes much less time than its fastest trajectory. -/
example : ∃ T₀, Fastest demoBuilder demoRobot T₀ ∧ ∃ δ > 0, ∀ b' dr' T',
    PathClose δ (table demoBuilder) (table b') → RobotClose δ demoRobot dr' → Solves b' dr' T' →
      timeTaken (table demoBuilder).counts T₀ - 1 / 1000 ≤ timeTaken (table b').counts T' := by
  obtain ⟨d1, d2, d3, d4, d5, d6, d7⟩ := demo_table
  obtain ⟨T₀, h₀⟩ := C78_fastest demoBuilder demoRobot ⟨_, demo_solves_flip 1 (.inl rfl)⟩ 1 (by rw [d2]; simp) 1 0 0
    (by rw [d5]; simp) demo_apart (by norm_num [demoRobot]) (by norm_num [demoRobot])
  exact ⟨T₀, h₀, C118_fastest_partial demoBuilder demoRobot T₀ h₀ 1 (by rw [d2]; simp) 1 0 0
    (by rw [d5]; simp) demo_apart (by norm_num [demoRobot]) (by norm_num [demoRobot]) _ (by norm_num)⟩

/-- Three metres in one control interval are too far, for all robots and ways near enough. -/
example : let b := run true (straightOps demoRobot 1 0 0 3 0 0) Builder.new
    ∃ δ > 0, ∀ b' dr', PathClose δ (table b) (table b') → RobotClose δ demoRobot dr' → ¬ ∃ T', Solves b' dr' T' := by
  obtain ⟨h1, h2, h3, h4, h5, h6⟩ := straight_table demoRobot 1 0 0 3 0 0
  intro b
  refine C118_none_partial b demoRobot ⟨true, _, rfl⟩ ⟨h3, by rw [h1, h2]; simp, by rw [h2]; simp [sampleCount]⟩
    demo_radius 0 (Nat.zero_le _) 0 0 0 (by rw [h4]; simp) demo_apart (by norm_num [demoRobot])
    (by norm_num [demoRobot]) demo_forwards (fun w hw c hc => ?_) fun h => ?_
  · rw [h2, List.length_singleton] at hw
    obtain rfl | rfl : w = 0 ∨ w = 1 := by omega
    · rw [h4, List.mem_singleton] at hc
      subst hc; exact id
    · rw [h5, List.mem_singleton] at hc
      subst hc; exact id
  · have := (demo_reach 1 one_pos (by norm_num) 3 (by norm_num)).mp h
    norm_num at this

end Trajopt.Props
