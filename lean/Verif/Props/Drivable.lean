import Verif.Lemmas.Drivable
import Verif.Props.Optimal

/-!
# C79 Enough control intervals make a path drivable
-/

set_option autoImplicit false

namespace Trajopt.Props

open Spec Builder

theorem AllowsStop.mono {c : Constraint ℝ} {δ δ' : ℝ} {p : ℂ} {θ : ℝ} (h : AllowsStop c δ p θ)
    (hδ : δ' ≤ δ) : AllowsStop c δ' p θ :=
  fun s h1 h2 h3 h4 h5 h6 => h s h1 h2 h3 h4 (h5.trans hδ) (h6.trans hδ)

theorem Tolerates.mono {c : Constraint ℝ} {δ δ' : ℝ} {γ : ℝ → ℂ} {φ : ℝ → ℝ}
    (h : Tolerates c δ γ φ) (hδ : δ' ≤ δ) : Tolerates c δ' γ φ :=
  fun u hu s h2 h3 h4 h5 h6 h7 => h u hu s h2 h3 (h4.trans hδ) (h5.trans hδ) (h6.trans hδ)
    (h7.trans hδ)

/-- C79: let a robot manage speeds and accelerations up to `δ`, let control intervals of `τ` be brief enough, and let
the poses wanted at the waypoints be joined by curves (and turns) with derivatives of at most `L` that change
by at most `M` per unit.  A path is drivable if each of its segments has `N` control intervals with
`2 L ≤ δ N τ` and `6 L + 8 M ≤ δ (N τ)²`, each of its waypoint constraints allows stopping at the waypoint's
pose, and each of its segment constraints tolerates slow motion along the curve.  The
robot may even stop at each waypoint. -/
theorem C79_enough (dr : SwerveDrivetrain ℝ) (hradius : ∀ m ∈ dr.modules, m.wheelRadius ≠ 0)
    (δ τ L M : ℝ) (hδ : 0 < δ) (hτ : 0 < τ) (hman : Manages dr δ) (hbrief : Brief dr τ)
    (p : ℕ → ℂ) (θ : ℕ → ℝ) (γ : ℕ → ℝ → ℂ) (φ : ℕ → ℝ → ℝ)
    (b : Builder ℝ) (hb : Reachable b) (hr : Ready b dr)
    (hγ : ∀ s < (table b).counts.length, Smooth (γ s) L M ∧ γ s 0 = p s ∧ γ s 1 = p (s + 1))
    (hφ : ∀ s < (table b).counts.length, Smooth (φ s) L M ∧ φ s 0 = θ s ∧ φ s 1 = θ (s + 1))
    (hN : ∀ N ∈ (table b).counts, 2 ≤ N ∧ 2 * L ≤ δ * (N * τ) ∧ 6 * L + 8 * M ≤ δ * (N * τ) ^ 2)
    (hi : ∀ w ≤ (table b).counts.length, ∀ c ∈ (table b).instant w, AllowsStop c δ (p w) (θ w))
    (hc : ∀ s < (table b).counts.length, ∀ c ∈ (table b).continuous s, Tolerates c δ (γ s) (φ s)) :
    ∃ T, Solves b dr T ∧ ∀ w ≤ (table b).counts.length,
      let s := T.state (waypointSample (table b).counts w)
      s.pos = p w ∧ s.heading = unitVec (θ w) ∧ s.vel = 0 ∧ s.omega = 0 := by
  obtain ⟨T, hT, hw⟩ := slow_obeys (table b) dr p θ γ φ δ L M τ hτ hbrief hδ hman hγ hφ hN hi hc
  exact ⟨T, (solves_iff hb hr hradius).mpr hT, hw⟩

/-- C79: for straight lines of length at most `L` between the poses, `N` control intervals with `2 L ≤ δ N τ` and
`6 L ≤ δ (N τ)²` are enough. -/
theorem C79_straight (dr : SwerveDrivetrain ℝ) (hradius : ∀ m ∈ dr.modules, m.wheelRadius ≠ 0)
    (δ τ L : ℝ) (hδ : 0 < δ) (hτ : 0 < τ) (hman : Manages dr δ) (hbrief : Brief dr τ)
    (p : ℕ → ℂ) (θ : ℕ → ℝ) (b : Builder ℝ) (hb : Reachable b) (hr : Ready b dr)
    (hL : ∀ s < (table b).counts.length, ‖p (s + 1) - p s‖ ≤ L ∧ |θ (s + 1) - θ s| ≤ L)
    (hN : ∀ N ∈ (table b).counts, 2 ≤ N ∧ 2 * L ≤ δ * (N * τ) ∧ 6 * L ≤ δ * (N * τ) ^ 2)
    (hi : ∀ w ≤ (table b).counts.length, ∀ c ∈ (table b).instant w, AllowsStop c δ (p w) (θ w))
    (hc : ∀ s < (table b).counts.length, ∀ c ∈ (table b).continuous s,
      Tolerates c δ (straight (p s) (p (s + 1))) (straight (θ s) (θ (s + 1)))) :
    ∃ T, Solves b dr T ∧ ∀ w ≤ (table b).counts.length,
      let s := T.state (waypointSample (table b).counts w)
      s.pos = p w ∧ s.heading = unitVec (θ w) ∧ s.vel = 0 ∧ s.omega = 0 :=
  C79_enough dr hradius δ τ L 0 hδ hτ hman hbrief p θ (fun s => straight (p s) (p (s + 1)))
    (fun s => straight (θ s) (θ (s + 1))) b hb hr
    (fun s hs => ⟨(smooth_straight _ _).mono (hL s hs).1 le_rfl, by simp [straight], by simp [straight]⟩)
    (fun s hs => ⟨(smooth_straight _ _).mono (hL s hs).2 le_rfl, by simp [straight], by simp [straight]⟩)
    (fun N h => by simpa using hN N h) hi hc

/-- C79: such `δ` and `τ` exist for every robot that can push and turn itself. -/
theorem C79_capable (dr : SwerveDrivetrain ℝ) (hdr : Capable dr) :
    (∃ δ > 0, Manages dr δ) ∧ ∃ τ > 0, Brief dr τ :=
  ⟨capable_dynamics hdr, exists_step dr⟩

theorem Manages.mono {dr : SwerveDrivetrain ℝ} {δ δ' : ℝ} (h : Manages dr δ) (hδ : δ' ≤ δ) :
    Manages dr δ' :=
  fun s h1 h2 h3 h4 h5 => h s h1 (h2.trans hδ) (h3.trans hδ) (h4.trans hδ) (h5.trans hδ)

/-- C79: so for given poses joined by given curves and turns, twice continuously differentiable, there is
for a given robot a number of control intervals that is enough. -/
theorem C79_drivable (dr : SwerveDrivetrain ℝ) (hdr : Capable dr) (K : ℕ) (p : ℕ → ℂ) (θ : ℕ → ℝ)
    (γ : ℕ → ℝ → ℂ) (φ : ℕ → ℝ → ℝ)
    (hγ : ∀ s < K, ContDiff ℝ 2 (γ s) ∧ γ s 0 = p s ∧ γ s 1 = p (s + 1))
    (hφ : ∀ s < K, ContDiff ℝ 2 (φ s) ∧ φ s 0 = θ s ∧ φ s 1 = θ (s + 1))
    (δ : ℝ) (hδ : 0 < δ) :
    ∃ N₀ : ℕ, ∀ b : Builder ℝ, Reachable b → Ready b dr → (table b).counts.length = K →
      (∀ N ∈ (table b).counts, N₀ ≤ N) →
      (∀ w ≤ K, ∀ c ∈ (table b).instant w, AllowsStop c δ (p w) (θ w)) →
      (∀ s < K, ∀ c ∈ (table b).continuous s, Tolerates c δ (γ s) (φ s)) →
      ∃ T, Solves b dr T ∧ ∀ w ≤ K,
        let s := T.state (waypointSample (table b).counts w)
        s.pos = p w ∧ s.heading = unitVec (θ w) ∧ s.vel = 0 ∧ s.omega = 0 := by
  obtain ⟨⟨δ₁, hδ₁, hdyn⟩, τ, hτ, hcap⟩ := C79_capable dr hdr
  have hex : ∀ s, ∃ B : ℝ, s < K → Smooth (γ s) B B ∧ Smooth (φ s) B B := by
    intro s
    by_cases hs : s < K
    · obtain ⟨L₁, M₁, h₁⟩ := exists_smooth (hγ s hs).1
      obtain ⟨L₂, M₂, h₂⟩ := exists_smooth (hφ s hs).1
      exact ⟨max (max L₁ M₁) (max L₂ M₂), fun _ => ⟨h₁.mono (by simp) (by simp),
        h₂.mono (by simp) (by simp)⟩⟩
    · exact ⟨0, fun h => absurd h hs⟩
  choose B hB using hex
  obtain ⟨L, hL0, hL⟩ := exists_upper B (List.range K)
  have hm : 0 < min δ δ₁ := lt_min hδ hδ₁
  obtain ⟨N₀, hN₀⟩ := exists_nat_ge (2 + (2 * L / (min δ δ₁ * τ) + 14 * L / (min δ δ₁ * τ ^ 2)))
  refine ⟨N₀, ?_⟩
  intro b hb hr hK hN hi hc
  subst hK
  refine C79_enough dr (fun m hm => (hdr.speed m hm).1) (min δ δ₁) τ L L hm hτ
    (Manages.mono hdyn (min_le_right _ _)) hcap p θ γ φ b hb hr ?_ ?_ ?_
    (fun w hw c hcw => AllowsStop.mono (hi w hw c hcw) (min_le_left _ _))
    (fun s hs c hcs => Tolerates.mono (hc s hs c hcs) (min_le_left _ _))
  · intro s hs
    have := hL s (List.mem_range.mpr hs)
    exact ⟨(hB s hs).1.mono this this, (hγ s hs).2⟩
  · intro s hs
    have := hL s (List.mem_range.mpr hs)
    exact ⟨(hB s hs).2.mono this this, (hφ s hs).2⟩
  · intro N hN'
    have h1 : (N₀ : ℝ) ≤ N := by exact_mod_cast hN N hN'
    have a0 : 0 ≤ 2 * L / (min δ δ₁ * τ) := by positivity
    have b0 : 0 ≤ 14 * L / (min δ δ₁ * τ ^ 2) := by positivity
    refine ⟨?_, ?_, ?_⟩
    · have : (2 : ℝ) ≤ N := by linarith
      exact_mod_cast this
    · have : 2 * L / (min δ δ₁ * τ) ≤ N := by linarith
      rw [div_le_iff₀ (by positivity)] at this
      linarith
    · have : 14 * L / (min δ δ₁ * τ ^ 2) ≤ N := by linarith
      rw [div_le_iff₀ (by positivity)] at this
      have hN1 : (1 : ℝ) ≤ N := by linarith
      have : (N : ℝ) * (min δ δ₁ * τ ^ 2) ≤ N ^ 2 * (min δ δ₁ * τ ^ 2) := by
        gcongr
        nlinarith
      nlinarith

/-- C79: which constraints are meant.  A waypoint may fix the robot's pose or position and, whatever
their values, limit its speeds or the direction of its motion; along a segment limits on
speeds and acceleration of at least `δ` are tolerated. -/
theorem C79_limits (δ : ℝ) (p : ℂ) (θ : ℝ) (γ : ℝ → ℂ) (φ : ℝ → ℝ) :
    (∀ x y, p = ⟨x, y⟩ → AllowsStop (.poseEquality x y θ) δ p θ ∧
      AllowsStop (.translationEquality ⟨x, y⟩) δ p θ) ∧
    (∀ m, AllowsStop (.linearVelocityMaxMagnitude m) δ p θ) ∧
    (∀ m, 0 ≤ m → AllowsStop (.angularVelocityMaxMagnitude m) δ p θ) ∧
    (∀ a, AllowsStop (.linearVelocityDirection a) δ p θ) ∧
    (∀ m, δ ≤ m → AllowsStop (.linearAccelerationMaxMagnitude m) δ p θ) ∧
    ∀ m, δ ≤ m → Tolerates (.linearVelocityMaxMagnitude m) δ γ φ ∧
      Tolerates (.angularVelocityMaxMagnitude m) δ γ φ ∧
      Tolerates (.linearAccelerationMaxMagnitude m) δ γ φ := by
  refine ⟨?_, ?_, ?_, ?_, ?_, ?_⟩
  · rintro x y rfl
    exact ⟨fun s h1 h2 _ _ _ _ => ⟨h1, .inl h2⟩, fun s h1 _ _ _ _ _ => h1⟩
  · intro m s _ _ h3 _ _ _
    simp [Meaning, h3]
  · intro m hm s _ _ _ h4 _ _
    simpa [Meaning, h4] using hm
  · intro a s _ _ h3 _ _ _
    exact ⟨0, by simp [h3]⟩
  · intro m hm s _ _ _ _ h5 _
    exact (h5.trans hm).trans (le_abs_self m)
  · intro m hm
    exact ⟨fun t _ s _ _ h4 _ _ _ => (h4.trans hm).trans (le_abs_self m),
      fun t _ s _ _ _ h5 _ _ => h5.trans hm,
      fun t _ s _ _ _ _ h6 _ => (h6.trans hm).trans (le_abs_self m)⟩

/-- A path through `K + 1` poses. -/
def posesOps (dr : SwerveDrivetrain ℝ) (K : ℕ) (x y θ : ℕ → ℝ) (counts : List ℕ) : List (Op ℝ) :=
  .setDrivetrain dr :: (List.range (K + 1)).map (fun i => .poseWpt i (x i) (y i) (θ i)) ++
    [.controlIntervalCounts counts]

theorem poses_table (asserts : Bool) (dr : SwerveDrivetrain ℝ) (x y θ : ℕ → ℝ) (n : ℕ)
    (hn : n ≤ 2 ^ 63) :
    let t := table (run asserts (.setDrivetrain dr :: (List.range n).map
      (fun i => .poseWpt i (x i) (y i) (θ i))) Builder.new)
    t.waypoints = n ∧ t.drivetrain = some dr ∧ (∀ s, t.continuous s = []) ∧
    ∀ w, t.instant w = if w < n then [.poseEquality (x w) (y w) (θ w)] else [] := by
  induction n with
  | zero => 
    simp [run, Op.exec, table, Builder.setDrivetrain, Builder.new]
  | succ n ih =>
    obtain ⟨h1, h2, h3, h4⟩ := ih (by omega)
    rw [List.range_succ, List.map_append, ← List.cons_append]
    generalize hb : run asserts (.setDrivetrain dr :: (List.range n).map
      (fun i => .poseWpt i (x i) (y i) (θ i))) Builder.new = b at h1 h2 h3 h4
    obtain ⟨b', e, t⟩ := C12_pose_wpt b ⟨asserts, _, hb.symm⟩ n (by omega) (x n) (y n) (θ n)
    have r := run_snoc hb.symm (op := .poseWpt n (x n) (y n) (θ n)) e
    rw [List.map_singleton, ← r, t]
    refine ⟨?_, h2, h3, ?_⟩
    · simp only [PathTable.reach, PathTable.requireAt, PathTable.guessAt, h1]
      omega
    · intro w
      simp only [PathTable.reach, PathTable.requireAt, PathTable.guessAt, h4]
      by_cases hw : w = n
      · subst hw; simp
      · simp only [hw, if_false]
        by_cases h : w < n
        · rw [if_pos h, if_pos (by omega)]
        · rw [if_neg h, if_neg (by omega)]

/-- C79: in particular, every list of poses can be driven through with enough control intervals, and
there is a fastest way to do it. -/
theorem C79_poses (dr : SwerveDrivetrain ℝ) (hdr : Capable dr) (K : ℕ) (x y θ : ℕ → ℝ) :
    ∃ N₀ : ℕ, ∀ counts : List ℕ, counts.length = K → (∀ N ∈ counts, N₀ ≤ N) →
      1 + counts.sum < 2 ^ 64 → ∀ asserts,
      let b := run asserts (posesOps dr K x y θ counts) Builder.new
      (table b).counts = counts ∧
      (∃ T, Solves b dr T ∧ ∀ w ≤ K,
        let s := T.state (waypointSample counts w)
        s.pos = ⟨x w, y w⟩ ∧ s.heading = unitVec (θ w) ∧ s.vel = 0 ∧ s.omega = 0) ∧
      (dr.mass ≠ 0 → dr.moi ≠ 0 → ∃ T, Fastest b dr T) := by
  obtain ⟨N₀, hN₀⟩ := C79_drivable dr hdr K (fun w => ⟨x w, y w⟩) θ
    (fun s => straight ⟨x s, y s⟩ ⟨x (s + 1), y (s + 1)⟩) (fun s => straight (θ s) (θ (s + 1)))
    (fun s _ => ⟨contDiff_straight _ _, by simp [straight], by simp [straight]⟩)
    (fun s _ => ⟨contDiff_straight _ _, by simp [straight], by simp [straight]⟩) 1 one_pos
  refine ⟨max N₀ 2, ?_⟩
  intro counts hK hN hsize asserts
  have hK63 : K + 1 ≤ 2 ^ 63 := by
    have : 2 * counts.length ≤ counts.sum := by
      have : ∀ l : List ℕ, (∀ N ∈ l, max N₀ 2 ≤ N) → 2 * l.length ≤ l.sum := by
        intro l hl
        induction l with
        | nil => simp
        | cons a l ih =>
          have h1 := ih fun N h => hl N (by simp [h])
          have h2 := hl a (by simp)
          simp only [List.length_cons, List.sum_cons]
          omega
      exact this counts hN
    omega
  obtain ⟨h1, h2, h3, h4⟩ := poses_table asserts dr x y θ (K + 1) hK63
  dsimp only
  have r : run asserts (posesOps dr K x y θ counts) Builder.new =
      (run asserts (.setDrivetrain dr :: (List.range (K + 1)).map
        (fun i => .poseWpt i (x i) (y i) (θ i))) Builder.new).setControlIntervalCounts counts :=
    (run_snoc rfl (op := .controlIntervalCounts counts) rfl).symm
  rw [r]
  generalize hb : run asserts (.setDrivetrain dr :: (List.range (K + 1)).map
    (fun i => .poseWpt i (x i) (y i) (θ i))) Builder.new = b at h1 h2 h3 h4 r
  have t3 : table (b.setControlIntervalCounts counts) = { table b with counts := counts } := rfl
  have hreach : Reachable (b.setControlIntervalCounts counts) := ⟨asserts, _, r.symm⟩
  generalize b.setControlIntervalCounts counts = b' at *
  have hc : (table b').counts = counts := by rw [t3]
  have hinst : ∀ w, (table b').instant w =
      if w < K + 1 then [.poseEquality (x w) (y w) (θ w)] else [] := fun w => by rw [t3]; exact h4 w
  have hr : Ready b' dr := ⟨by rw [t3]; exact h2, 
    by rw [t3]; change counts.length < (table b).waypoints; omega, by rw [hc]; exact hsize⟩
  obtain ⟨T, hT, hs⟩ := hN₀ b' hreach hr (by rw [hc, hK])
    (by rw [hc]; exact fun N h => (le_max_left _ _).trans (hN N h))
    (by
      intro w hw c hcw
      rw [hinst, if_pos (by omega), List.mem_singleton] at hcw
      subst hcw
      exact ((C79_limits 1 _ (θ w) (fun _ => 0) (fun _ => 0)).1 (x w) (y w) rfl).1)
    (by
      intro s _ c hcs
      rw [t3] at hcs
      simp [h3] at hcs)
  rw [hc] at hs
  refine ⟨hc, ⟨T, hT, hs⟩, fun hm hi => ?_⟩
  exact C78_fastest b' dr ⟨T, hT⟩ 0 (Nat.zero_le _) (x 0) (y 0) (θ 0)
    (by rw [hinst, if_pos (by omega)]; simp) hdr.apart hm hi

/-- The demonstration robot is capable, so that it can be driven through any poses. -/
theorem demo_capable : Capable demoRobot where
  apart := demo_apart
  speed := by simp [demoRobot]
  torque := by simp [demoRobot]

/-- It manages half a metre per second and half a metre per second squared. -/
theorem demo_manages : Manages demoRobot (1 / 2) := by
  intro s hu hv ho ha hal
  have hr : ∀ m ∈ demoRobot.modules, ‖vec m.translation‖ ≤ 2 := by
    intro m hm
    have h2 : ‖vec m.translation‖ ^ 2 ≤ 2 ^ 2 := by
      rw [← Complex.normSq_eq_norm_sq, Complex.normSq_apply]
      simp only [demoRobot, List.mem_cons, List.not_mem_nil, or_false] at hm
      rcases hm with rfl | rfl | rfl | rfl <;> simp [vec] <;> norm_num
    exact le_of_sq_le_sq h2 (by norm_num)
  have hhh : s.heading * (starRingEnd ℂ) s.heading = 1 := by
    rw [Complex.mul_conj, Complex.normSq_eq_norm_sq, hu]; simp
  refine ⟨fun j => s.acc + (s.alpha / 8 : ℝ) * Complex.I *
    (vec (demoRobot.modules.getD j ⟨⟨0, 0⟩, 0, 0, 0⟩).translation * s.heading), ?_, ?_, ?_, ?_⟩
  · change ∑ j : Fin 4, _ = _
    rw [Fin.sum_univ_four]
    simp only [demoRobot, List.getD_cons_zero, List.getD_cons_succ, Fin.val_zero, Fin.val_one,
      Fin.val_two, vec]
    apply Complex.ext <;> simp <;> ring
  · change ∑ j : Fin 4, _ = _
    rw [Fin.sum_univ_four]
    have h1 := congrArg Complex.re hhh
    simp only [Complex.mul_re, Complex.conj_re, Complex.conj_im, Complex.one_re] at h1
    simp [demoRobot, vec, torque, lever]
    linear_combination s.alpha * h1
  · intro m hm
    have : maxSpeed m = 2 := by
      simp only [demoRobot, List.mem_cons, List.not_mem_nil, or_false] at hm
      rcases hm with rfl | rfl | rfl | rfl <;> simp [maxSpeed]
    rw [this]
    unfold wheelVelocity
    refine (norm_add_le _ _).trans ?_
    rw [norm_mul, norm_mul, norm_mul, Complex.norm_conj, hu, Complex.norm_I, Complex.norm_real,
      Real.norm_eq_abs, one_mul, one_mul]
    have := hr m hm
    nlinarith [abs_nonneg s.omega, norm_nonneg (vec m.translation)]
  · intro j
    have hj : demoRobot.modules[j] ∈ demoRobot.modules := List.getElem_mem _
    have hf : maxForce demoRobot.modules[j] = 2 := by
      generalize demoRobot.modules[j] = m at hj
      simp only [demoRobot, List.mem_cons, List.not_mem_nil, or_false] at hj
      rcases hj with rfl | rfl | rfl | rfl <;> simp [maxForce]
    have hg : demoRobot.modules.getD j ⟨⟨0, 0⟩, 0, 0, 0⟩ = demoRobot.modules[j] := by
      simp
    rw [hf, hg]
    refine (norm_add_le _ _).trans ?_
    rw [norm_mul, norm_mul, norm_mul, hu, Complex.norm_I, Complex.norm_real, Real.norm_eq_abs,
      mul_one, mul_one, abs_div]
    have := hr _ hj
    rw [show |(8 : ℝ)| = 8 by norm_num]
    nlinarith [abs_nonneg s.alpha, norm_nonneg (vec demoRobot.modules[j].translation)]

theorem demo_brief : Brief demoRobot 1 := by
  intro m hm g hg
  rw [demo_gap g hg]
  simp only [demoRobot, List.mem_cons, List.not_mem_nil, or_false] at hm
  rcases hm with rfl | rfl | rfl | rfl <;> norm_num

/-- The hypotheses of `C79_straight` can be met beyond poses: a segment of four metres with a speed limit and with a
point one metre beside the line that the robot's centre is to keep one metre away from. -/
example : ∃ (b : Builder ℝ) (T : Traj), Solves b demoRobot T ∧ (table b).counts = [16] ∧
    .poseEquality 4 0 0 ∈ (table b).instant 1 ∧
    .linearVelocityMaxMagnitude (1 / 2) ∈ (table b).continuous 0 ∧
    .pointPoint ⟨0, 0⟩ ⟨2, 1⟩ 1 ∈ (table b).continuous 0 := by
  obtain ⟨h1, h2, h3, h4⟩ := poses_table true demoRobot (fun w => 4 * w) (fun _ => 0) (fun _ => 0) 2
    (by norm_num)
  generalize hb : run true _ (Builder.new : Builder ℝ) = b at h1 h2 h3 h4
  obtain ⟨b₁, e₁, t₁⟩ := C11_sgmt_constraint true b ⟨true, _, hb.symm⟩ 0 1 (by omega) (by norm_num)
    (.linearVelocityMaxMagnitude (1 / 2))
  have r₁ := run_snoc hb.symm (op := .sgmtConstraint 0 1 (.linearVelocityMaxMagnitude (1 / 2))) e₁
  obtain ⟨b₂, e₂, t₂⟩ := C11_sgmt_constraint true b₁ ⟨true, _, r₁⟩ 0 1 (by omega) (by norm_num)
    (.pointPoint ⟨0, 0⟩ ⟨2, 1⟩ 1)
  have r₂ := run_snoc r₁ (op := .sgmtConstraint 0 1 (.pointPoint ⟨0, 0⟩ ⟨2, 1⟩ 1)) e₂
  have r₃ := run_snoc r₂ (op := .controlIntervalCounts [16]) rfl
  have t₃ : table (b₂.setControlIntervalCounts [16]) = { table b₂ with counts := [16] } := rfl
  generalize b₂.setControlIntervalCounts [16] = b' at r₃ t₃
  have hc : (table b').counts = [16] := by rw [t₃]
  have hinst : ∀ w, (table b').instant w =
      if w < 2 then [.poseEquality (4 * w) 0 0, .linearVelocityMaxMagnitude (1 / 2),
        .pointPoint ⟨0, 0⟩ ⟨2, 1⟩ 1] else [] := by
    intro w
    rw [t₃, t₂, t₁]
    simp only [PathTable.reach, PathTable.requireAlong, h4]
    by_cases hw : w < 2
    · simp [hw, show w ≤ 1 by omega]
    · simp [hw, show ¬ w ≤ 1 by omega]
  have hcont : (table b').continuous 0 = [.linearVelocityMaxMagnitude (1 / 2),
      .pointPoint ⟨0, 0⟩ ⟨2, 1⟩ 1] := by
    rw [t₃, t₂, t₁]
    simp [PathTable.reach, PathTable.requireAlong, h3]
  have hr : Ready b' demoRobot := ⟨by rw [t₃, t₂, t₁]; exact h2, by
      rw [t₃, t₂, t₁]; simp [PathTable.reach, PathTable.requireAlong, h1], by rw [hc]; decide⟩
  -- on the whole line the centre is far enough from the point
  have hfar : ∀ (t : ℝ) (s : State), s.pos = ⟨4 * t, 0⟩ →
      Meaning (.pointPoint ⟨0, 0⟩ ⟨2, 1⟩ 1) s := by
    intro t s hs
    have : (1 : ℝ) ≤ ‖(⟨4 * t, 0⟩ - ⟨2, 1⟩ : ℂ)‖ := by
      refine le_trans ?_ (Complex.abs_im_le_norm _)
      simp
    simpa [Meaning, State.onRobot, vec, hs, dist_eq_norm, show (⟨0, 0⟩ : ℂ) = 0 from rfl] using this
  have hlim := fun (p : ℂ) γ φ => C79_limits (1 / 2) p 0 γ φ
  obtain ⟨T, hT, -⟩ := C79_straight demoRobot demo_radius (1 / 2) 1 4 (by norm_num) one_pos demo_manages
    demo_brief (fun w => ⟨4 * w, 0⟩) (fun _ => 0) b' ⟨true, _, r₃⟩ hr
    (by
      intro s _
      refine ⟨le_of_eq ?_, by norm_num⟩
      rw [show (⟨4 * ((s + 1 : ℕ) : ℝ), 0⟩ - ⟨4 * (s : ℝ), 0⟩ : ℂ) = 4 by
        apply Complex.ext <;> simp; ring]
      simp)
    (by rw [hc]; norm_num)
    (by
      intro w hw c hcw
      rw [hc] at hw
      rw [hinst, if_pos (by simpa using Nat.lt_succ_of_le hw)] at hcw
      simp only [List.mem_cons, List.not_mem_nil, or_false] at hcw
      rcases hcw with rfl | rfl | rfl
      · exact ((hlim _ 0 0).1 _ _ rfl).1
      · exact (hlim _ 0 0).2.1 _
      · exact fun s hs _ _ _ _ _ => hfar w s hs)
    (by
      intro s hs c hcs
      rw [hc] at hs
      obtain rfl : s = 0 := by simpa using hs
      rw [hcont] at hcs
      simp only [List.mem_cons, List.not_mem_nil, or_false] at hcs
      rcases hcs with rfl | rfl
      · exact ((hlim 0 _ _).2.2.2.2.2 _ le_rfl).1
      · intro t _ s hs _ _ _ _ _
        refine hfar t s ?_
        rw [hs]
        apply Complex.ext <;> simp [straight]
        ring)
  exact ⟨b', T, hT, hc, by rw [hinst]; simp, by rw [hcont]; simp, by rw [hcont]; simp⟩

end Trajopt.Props
