import Verif.Lemmas.Optimal
import Verif.Props.Trajectory
import Verif.Props.Invariance

/-!
# C78 There is a fastest trajectory

`Fastest` (`Props/Split.lean`) is a trajectory of the path that takes no longer than any other.
-/

set_option autoImplicit false

namespace Trajopt.Props

open Spec Builder

/-- C78: if the path can be driven at all, some pose is prescribed, not all modules are in the same
place and mass and moment of inertia are not zero, then there is a fastest trajectory. -/
theorem C78_fastest (b : Builder ℝ) (dr : SwerveDrivetrain ℝ) (hex : ∃ T, Solves b dr T)
    (w : ℕ) (hw : w ≤ (table b).counts.length) (x y θ : ℝ)
    (hpose : .poseEquality x y θ ∈ (table b).instant w)
    (hm : ∃ m₁ ∈ dr.modules, ∃ m₂ ∈ dr.modules, m₁.translation ≠ m₂.translation)
    (hmass : dr.mass ≠ 0) (hmoi : dr.moi ≠ 0) : ∃ T, Fastest b dr T := by
  obtain ⟨T₀, h₀⟩ := hex
  obtain ⟨m₁, h₁, m₂, h₂, hne⟩ := hm
  have iff : ∀ T, Solves b dr T ↔ Obeys (table b) dr T :=
    fun T => solves_iff h₀.reachable h₀.ready h₀.radius
  have hne' : vec m₁.translation ≠ vec m₂.translation := by
    intro h
    apply hne
    have hr := congrArg Complex.re h
    have hi := congrArg Complex.im h
    simp only [vec] at hr hi
    cases h1 : m₁.translation
    cases h2 : m₂.translation
    simp_all
  have hk : waypointSample (table b).counts w < sampleCount (table b).counts := by
    have := sum_take_le (table b).counts w
    simp only [waypointSample, sampleCount]; omega
  obtain ⟨T, hT, hmin⟩ := exists_least (table b) dr m₁ m₂ h₁ h₂ hne' hmass hmoi
    (waypointSample (table b).counts w) hk (vec ⟨x, y⟩) (fun T hT => (hT.instant w hw _ hpose).1)
    (fun T hT n hn => C33_pose_partial b dr T ((iff T).mpr hT) w hw x y θ hpose n hn)
    ⟨T₀, (iff T₀).mp h₀⟩
  exact ⟨T, (iff T).mpr hT, fun T' hT' => hmin T' ((iff T').mp hT')⟩

/-- C78: the same of the problem handed to the solver: some assignment of its decision variables
satisfies all constraints and has the least objective of all that do. -/
theorem C78_optimum (b : Builder ℝ) (dr : SwerveDrivetrain ℝ) (hb : Reachable b) (hr : Ready b dr)
    (hradius : ∀ m ∈ dr.modules, m.wheelRadius ≠ 0) (handle : ℤ) (g : Generator ℝ)
    (hg : Generator.construct b handle = .ok g) (hex : ∃ σ, g.problem.Feasible σ)
    (hN : ∀ n ∈ (table b).counts, n < 2 ^ 31)
    (w : ℕ) (hw : w ≤ (table b).counts.length) (x y θ : ℝ)
    (hpose : .poseEquality x y θ ∈ (table b).instant w)
    (hm : ∃ m₁ ∈ dr.modules, ∃ m₂ ∈ dr.modules, m₁.translation ≠ m₂.translation)
    (hmass : dr.mass ≠ 0) (hmoi : dr.moi ≠ 0) :
    ∃ e, g.problem.cost = some e ∧ ∃ σ, g.problem.Feasible σ ∧
      ∀ σ', g.problem.Feasible σ' → e.eval σ ≤ e.eval σ' := by
  obtain ⟨g', hg', hf, -, hT⟩ := C29_problem b hb dr hr hradius handle
  rw [hg] at hg'
  obtain rfl := Except.ok.inj hg'
  obtain ⟨e, he, hev⟩ := C42_objective b hb dr hr hN handle g hg
  have obj : ∀ σ, e.eval σ = timeTaken (table b).counts (decode g.vars σ) := by
    intro σ
    rw [(hev σ).1, timeTaken, Finset.sum_range]
    exact Finset.sum_congr rfl fun s _ => by simp
  have iff : ∀ T, Solves b dr T ↔ Obeys (table b) dr T := fun T => solves_iff hb hr hradius
  obtain ⟨σ₀, h₀⟩ := hex
  obtain ⟨T, hfast⟩ := C78_fastest b dr ⟨_, (iff _).mpr ((hf σ₀).mp h₀)⟩ w hw x y θ hpose hm hmass hmoi
  obtain ⟨σ, hσ, ha⟩ := (hT T).mp ((iff T).mp hfast.solves)
  refine ⟨e, he, σ, hσ, fun σ' hσ' => ?_⟩
  have h1 := hfast.least _ ((iff _).mpr ((hf σ').mp hσ'))
  rw [obj, obj]
  refine le_trans (le_of_eq ?_) h1
  unfold timeTaken
  exact Finset.sum_congr rfl fun s hs => by rw [ha.dt s (Finset.mem_range.mp hs)]

/-- C78: adding constraints never makes the fastest trajectory faster. -/
theorem C78_monotone (b b' : Builder ℝ) (hb : Reachable b)
    (hw : (table b).counts.length < (table b).waypoints)
    (hd : (table b).drivetrain = (table b').drivetrain)
    (hN : (table b).counts = (table b').counts)
    (hi : ∀ w, ∀ c ∈ (table b).instant w, c ∈ (table b').instant w)
    (hc : ∀ s, ∀ c ∈ (table b).continuous s, c ∈ (table b').continuous s)
    (dr : SwerveDrivetrain ℝ) (T T' : Traj) (h : Fastest b dr T) (h' : Fastest b' dr T') :
    timeTaken (table b).counts T ≤ timeTaken (table b').counts T' := by
  have := h.least T' (C40_monotone b b' hb hw hd hN hi hc dr T' h'.solves)
  rwa [hN] at this ⊢

/-- C78, what the hypothesis about modules is for: without modules nothing limits the speed, every
straight path can be driven arbitrarily fast, and there is no fastest trajectory. -/
theorem C78_no_modules (mass moi : ℝ) (N : ℕ) (hN0 : 0 < N) (hN : 1 + N < 2 ^ 64)
    (x₀ y₀ x₁ y₁ θ : ℝ) (hne : (x₀, y₀) ≠ (x₁, y₁)) :
    let b := run true (straightOps ⟨mass, moi, []⟩ N x₀ y₀ x₁ y₁ θ) Builder.new
    (∀ ε > 0, ∃ T, Solves b ⟨mass, moi, []⟩ T ∧ timeTaken (table b).counts T < ε) ∧
    ¬ ∃ T, Fastest b ⟨mass, moi, []⟩ T := by
  intro b
  obtain ⟨h1, h2, h3, h4, h5, h6⟩ := straight_table ⟨mass, moi, []⟩ N x₀ y₀ x₁ y₁ θ
  have hreach : Reachable b := ⟨true, _, rfl⟩
  change (table b).waypoints = 2 at h1
  change (table b).counts = [N] at h2
  change (table b).drivetrain = _ at h3
  change (table b).instant 0 = _ at h4
  change (table b).instant 1 = _ at h5
  change (table b).continuous 0 = _ at h6
  clear_value b
  have hr : Ready b ⟨mass, moi, []⟩ :=
    ⟨h3, by rw [h1, h2]; simp, by rw [h2]; simpa [sampleCount] using hN⟩
  have iff : ∀ T, Solves b ⟨mass, moi, []⟩ T ↔ Obeys (table b) ⟨mass, moi, []⟩ T :=
    fun T => solves_iff hreach hr (by simp)
  have hw0 : waypointSample (table b).counts 0 = 0 := rfl
  have hw1 : waypointSample (table b).counts 1 = N := by rw [h2]; simp [waypointSample]
  have huv : ∀ a, ‖unitVec a‖ = 1 := fun a => by rw [unitVec]; exact Complex.norm_exp_ofReal_mul_I a
  have hNr : (0 : ℝ) < N := by exact_mod_cast hN0
  have hNc : (N : ℂ) ≠ 0 := by exact_mod_cast hN0.ne'
  have seg : ∀ s < (table b).counts.length, s = 0 := by
    intro s hs; rw [h2] at hs; simpa using hs
  have quick : ∀ ε > 0, ∃ T, Solves b ⟨mass, moi, []⟩ T ∧ timeTaken (table b).counts T < ε := by
    intro ε hε
    set dt := ε / (2 * N) with hdt
    have hdt0 : 0 < dt := by positivity
    have hdtc : (dt : ℂ) ≠ 0 := by exact_mod_cast hdt0.ne'
    set d := vec (⟨x₁, y₁⟩ : Translation2 ℝ) - vec ⟨x₀, y₀⟩ with hd
    refine ⟨straightTraj (vec ⟨x₀, y₀⟩) d θ dt N, (iff _).mpr ⟨?_, ?_, ?_, ?_, ?_, ?_⟩, ?_⟩
    · intro s hs n hn
      obtain rfl := seg s hs
      simp only [segmentSamples, hw0, Nat.zero_add, hw1, Finset.mem_Ioc] at hn
      constructor
      · obtain ⟨k, rfl⟩ : ∃ k, n = k + 1 := ⟨n - 1, by omega⟩
        simp only [straightTraj, Nat.add_sub_cancel]
        push_cast
        field_simp
        ring
      · left
        simp only [straightTraj, zero_mul]
        rw [Complex.mul_conj, Complex.normSq_eq_norm_sq, huv]
        simp [unitVec]
      · simp [straightTraj]
      · simp [straightTraj]
    · intro n hn
      exact ⟨by simp [straightTraj], by simp [straightTraj], by simp, fun j => j.elim0⟩
    · intro s hs; exact hdt0.le
    · intro s hs m hm; simp at hm
    · intro w hw c hc
      have hw' : w = 0 ∨ w = 1 := by rw [h2, List.length_singleton] at hw; omega
      rcases hw' with rfl | rfl
      · rw [h4, List.mem_singleton] at hc
        subst hc
        exact ⟨by simp [straightTraj, hw0], .inl rfl⟩
      · rw [h5, List.mem_singleton] at hc
        subst hc
        refine ⟨?_, .inl rfl⟩
        rw [hw1]
        simp only [straightTraj]
        rw [mul_div_cancel₀ _ hNc, hd]
        ring
    · intro s hs c hc
      obtain rfl := seg s hs
      rw [h6] at hc
      simp at hc
    · rw [h2]
      simp only [timeTaken, List.length_singleton, Finset.sum_range_one, straightTraj]
      rw [show List.getD [N] 0 0 = N from rfl, hdt]
      field_simp
      linarith
  refine ⟨quick, ?_⟩
  rintro ⟨T, hT⟩
  have ho := (iff T).mp hT.solves
  have htime : timeTaken (table b).counts T = N * T.dt 0 := by
    rw [h2]; simp [timeTaken]
  have hdt0 : T.dt 0 = 0 := by
    have h0 : 0 ≤ T.dt 0 := ho.time 0 (by rw [h2]; simp)
    by_contra hne0
    have hpos : 0 < T.dt 0 := lt_of_le_of_ne h0 (Ne.symm hne0)
    obtain ⟨T', hT', hlt⟩ := quick (N * T.dt 0) (by positivity)
    have := hT.least T' hT'
    rw [htime] at this
    linarith
  have stay : ∀ n ≤ N, (T.state n).pos = (T.state 0).pos := by
    intro n
    induction n with
    | zero => intro _; rfl
    | succ n ih =>
      intro hn
      have := (ho.interval 0 (by rw [h2]; simp) (n + 1) (by
        simp only [segmentSamples, hw0, Nat.zero_add, hw1, Finset.mem_Ioc]; omega)).pos
      rw [hdt0, Nat.add_sub_cancel, ih (by omega)] at this
      simpa using this
  have e0 := (ho.instant 0 (by rw [h2]; simp) (.poseEquality x₀ y₀ θ) (by rw [h4]; simp)).1
  have e1 := (ho.instant 1 (by rw [h2]; simp) (.poseEquality x₁ y₁ θ) (by rw [h5]; simp)).1
  rw [hw0] at e0
  rw [hw1, stay N (le_refl _), e0] at e1
  apply hne
  have hre := congrArg Complex.re e1
  have him := congrArg Complex.im e1
  simp only [vec] at hre him
  rw [hre, him]

theorem demo_apart : ∃ m₁ ∈ demoRobot.modules, ∃ m₂ ∈ demoRobot.modules,
    m₁.translation ≠ m₂.translation := by
  refine ⟨⟨⟨1, 1⟩, 1, 2, 2⟩, by simp [demoRobot], ⟨⟨1, -1⟩, 1, 2, 2⟩, by simp [demoRobot], ?_⟩
  intro h
  have := congrArg Translation2.y h
  norm_num at this

/-- The hypotheses of `C78_fastest` and `C78_optimum` hold: the demonstration robot on a straight path
of 6 m. -/
example : ∃ b, (table b).counts = [3] ∧ (∃ T, Fastest b demoRobot T) ∧
    ∃ g e, Generator.construct b 0 = .ok g ∧ g.problem.cost = some e ∧
      ∃ σ, g.problem.Feasible σ ∧ ∀ σ', g.problem.Feasible σ' → e.eval σ ≤ e.eval σ' := by
  obtain ⟨-, h2, -, h4, -, -⟩ := straight_table demoRobot 3 0 0 (0 + 6) 0 0
  have hs := straight_solves 0
  generalize run true (straightOps demoRobot 3 0 0 (0 + 6) 0 0) Builder.new = b at *
  have hw : 0 ≤ (table b).counts.length := by omega
  have hp : Constraint.poseEquality 0 0 0 ∈ (table b).instant 0 := by rw [h4]; simp
  refine ⟨b, h2, C78_fastest b demoRobot ⟨_, hs⟩ 0 hw 0 0 0 hp demo_apart (by simp [demoRobot])
    (by simp [demoRobot]), ?_⟩
  obtain ⟨g, hg, hf, -, hT⟩ := C29_problem b hs.reachable demoRobot hs.ready demo_radius 0
  obtain ⟨σ, hσ, -⟩ := (hT _).mp hs.obeys
  obtain ⟨e, he, h⟩ := C78_optimum b demoRobot hs.reachable hs.ready demo_radius 0 g hg ⟨σ, hσ⟩
    (by rw [h2]; simp) 0 hw 0 0 0 hp demo_apart (by simp [demoRobot]) (by simp [demoRobot])
  exact ⟨g, e, hg, he, h⟩

/-- The hypotheses of `C78_monotone` hold: the same path, and with a speed limit at the end. -/
example : ∃ b b' T T', Fastest b demoRobot T ∧ Fastest b' demoRobot T' ∧
    (table b').instant 1 = (table b).instant 1 ++ [.linearVelocityMaxMagnitude 2] ∧
    timeTaken (table b).counts T ≤ timeTaken (table b').counts T' := by
  obtain ⟨h1, h2, -, h4, -, h6⟩ := straight_table demoRobot 3 0 0 (0 + 6) 0 0
  have hs := straight_solves 0
  have hF := straight_fastest 0
  generalize run true (straightOps demoRobot 3 0 0 (0 + 6) 0 0) Builder.new = b at *
  obtain ⟨b', e, t⟩ := C11_wpt_constraint b hs.reachable 1 (by norm_num)
    (.linearVelocityMaxMagnitude 2)
  have hb' : Reachable b' := by
    obtain ⟨asserts, ops, h⟩ := hs.reachable
    exact ⟨asserts, _, run_snoc h (op := .wptConstraint 1 _) e⟩
  have ht : table b' = (table b).requireAt 1 (.linearVelocityMaxMagnitude 2) := by
    rw [t]
    simp [PathTable.requireAt, PathTable.reach, h1]
  have hc' : (table b').counts = (table b).counts := by rw [ht]; rfl
  have hinst : ∀ w, (table b').instant w = (table b).instant w ++
      (if w = 1 then [.linearVelocityMaxMagnitude 2] else []) := by
    intro w
    rw [ht]
    simp only [PathTable.requireAt]
    split <;> simp
  have hcont : ∀ s, (table b').continuous s = (table b).continuous s := by
    intro s; rw [ht]; rfl
  have hr' : Ready b' demoRobot := ⟨by rw [ht]; exact hs.ready.drivetrain,
    by rw [hc']; rw [ht]; exact hs.ready.counts, by rw [hc']; exact hs.ready.size⟩
  have hs' : Solves b' demoRobot (straightTraj 0 6 0 1 3) := by
    refine (solves_iff hb' hr' demo_radius).mpr ?_
    have ho := hs.obeys
    refine ⟨by rw [hc']; exact ho.interval, by rw [hc']; exact ho.dynamics,
      by rw [hc']; exact ho.time, by rw [hc']; exact ho.stepCap, ?_, ?_⟩
    · intro w hw c hc
      rw [hc'] at hw ⊢
      rw [hinst, List.mem_append] at hc
      rcases hc with hc | hc
      · exact ho.instant w hw c hc
      · split at hc
        · rw [List.mem_singleton] at hc
          subst hc
          norm_num [Meaning, straightTraj]
        · simp at hc
    · rw [hc']
      intro s hs c hc
      rw [hcont] at hc
      exact ho.continuous s hs c hc
  obtain ⟨T', hT'⟩ := C78_fastest b' demoRobot ⟨_, hs'⟩ 0 (by omega) 0 0 0
    (by rw [hinst, h4]; simp) demo_apart (by simp [demoRobot]) (by simp [demoRobot])
  refine ⟨b, b', _, T', hF, hT', by rw [hinst]; simp, ?_⟩
  exact C78_monotone b b' hs.reachable hs.ready.counts (by rw [ht]; rfl) hc'.symm
    (fun w c hc => by rw [hinst]; exact List.mem_append_left _ hc)
    (fun s c hc => by rw [hcont]; exact hc) demoRobot _ T' hF hT'

end Trajopt.Props
