import Verif.Lemmas.Responds
import Verif.Props.Unbalanced

/-!
# C125: limits answer where they are reached
-/

set_option autoImplicit false

namespace Trajopt.Props

open Spec Filter Topology

theorem of_powerList {m n : ℕ} {c : Con ℝ} : ∀ {mods : List (SwerveModule ℝ)} {i : ℕ}, c ∈ powerList m n mods i →
    ∃ j, ∃ md ∈ mods, c ∈ powerCons (sampleVars m n) (forceVars m n j) md
  | [], _, h => by simp [powerList] at h
  | md :: rest, i, h => by
    rcases List.mem_append.mp h with h | h
    · exact ⟨i, md, by simp, h⟩
    · obtain ⟨j, md', hm, h⟩ := of_powerList h
      exact ⟨j, md', by simp [hm], h⟩

theorem in_powerList {m n : ℕ} {md : SwerveModule ℝ} : ∀ {mods : List (SwerveModule ℝ)} {i : ℕ}, md ∈ mods →
    ∃ j, ∀ c ∈ powerCons (sampleVars m n) (forceVars m n j) md, c ∈ powerList m n mods i
  | [], _, h => by simp at h
  | md' :: rest, i, h => by
    rcases List.mem_cons.mp h with rfl | h
    · exact ⟨i, fun c hc => List.mem_append.mpr (.inl hc)⟩
    · obtain ⟨j, h⟩ := in_powerList (i := i + 1) h
      exact ⟨j, fun c hc => List.mem_append.mpr (.inr (h c hc))⟩

theorem power_responds (σ : ℕ → ℝ) (m n j : ℕ) (md : SwerveModule ℝ) (h1 : maxSpeed md ≠ 0) (h2 : maxForce md ≠ 0) :
    ∀ c ∈ powerCons (sampleVars m n) (forceVars m n j) md, Responds σ c := by
  intro c hc
  have h1 : md.wheelRadius * md.wheelMaxAngularVelocity ≠ 0 := abs_ne_zero.mp h1
  have h2 : md.wheelMaxTorque / md.wheelRadius ≠ 0 := abs_ne_zero.mp h2
  simp only [powerCons, List.mem_cons, List.not_mem_nil, or_false] at hc
  rcases hc with rfl | rfl
  · intro he
    refine ⟨fun i => if i = n * stride m + 4 ∨ i = n * stride m + 5 ∨ i = n * stride m + 6 then σ i else 0, _, ?_,
      rate_plain _ _ ?_ (by simp)⟩
    · have := mul_ne_zero two_ne_zero (mul_ne_zero h1 h1)
      refine fun h0 => this ?_
      simp only [eval_const] at he
      rw [← he, ← h0]
      simp [Translation2.squaredNorm, Translation2.rotateBy, Rotation2.neg, sampleVars]
      ring
    · simp [Translation2.squaredNorm, Translation2.rotateBy, Rotation2.neg, sampleVars]
  · intro he
    refine ⟨σ, _, ?_, rate_plain _ _ ?_ (by simp)⟩
    · have := mul_ne_zero two_ne_zero (mul_ne_zero h2 h2)
      refine fun h0 => this ?_
      simp only [eval_const] at he
      rw [← he, ← h0]
      simp [Translation2.squaredNorm, forceVars]
      ring
    · simp [Translation2.squaredNorm, forceVars]

/-- C125: at every solution each limit that is reached answers: some movement of the variables changes the difference of its two
sides at a rate other than zero.  Wheels must have speed and torque, distances to be kept must not be zero, and the robot must
not be on a point that it has to face. -/
theorem C125_reached (b : Builder ℝ) (hb : Reachable b) (dr : SwerveDrivetrain ℝ) (hr : Ready b dr)
    (hw : ∀ md ∈ dr.modules, maxSpeed md ≠ 0 ∧ maxForce md ≠ 0) (handle : ℤ) (g : Generator ℝ)
    (hg : Generator.construct b handle = .ok g) (σ : ℕ → ℝ) (hσ : g.problem.Feasible σ)
    (hi : ∀ w ≤ (table b).counts.length, ∀ c ∈ (table b).instant w,
      ¬ Blunt c ((decode g.vars σ).state (waypointSample (table b).counts w)))
    (hc : ∀ s < (table b).counts.length, ∀ c ∈ (table b).continuous s, ∀ n ∈ segmentSamples (table b).counts s,
      ¬ Blunt c ((decode g.vars σ).state n)) :
    ∀ c ∈ g.problem.cons, Responds σ c := by
  obtain ⟨hvars, -, hcons, -⟩ := closed_parts hb hr hg
  set N := (table b).counts with hN
  intro c hcm
  have hh := hσ c hcm
  rw [hcons] at hcm
  simp only [allCons, List.mem_append] at hcm
  rcases hcm with ((((hcm | hcm) | hcm) | hcm) | hcm) | hcm
  · obtain ⟨dt, -, hcm⟩ := List.mem_flatMap.mp hcm
    obtain ⟨md, hmd, rfl⟩ := List.mem_map.mp hcm
    have h1 : md.wheelRadius * md.wheelMaxAngularVelocity ≠ 0 := abs_ne_zero.mp (hw md hmd).1
    unfold stepCap
    split
    · trivial
    · intro _
      exact ⟨fun i => if i = dt then 1 else 0, _, by simpa using h1, rate_plain _ _ (by simp) (by simp)⟩
  · obtain ⟨x, -, rfl⟩ := List.mem_map.mp hcm
    intro _
    exact ⟨fun i => if i = x.1 then 1 else 0, _, by simp, rate_plain _ _ (by simp) (by simp)⟩
  · obtain ⟨s, -, hcm⟩ := List.mem_flatMap.mp hcm
    obtain ⟨k, -, hcm⟩ := List.mem_flatMap.mp hcm
    simp [kinCons, Translation2.eqCons, Rotation2.eqCons] at hcm
    rcases hcm with rfl | rfl | rfl | rfl | rfl | rfl | rfl | rfl <;> trivial
  · obtain ⟨n, -, hcm⟩ := List.mem_flatMap.mp hcm
    simp only [dynCons, List.mem_append, List.mem_cons, List.not_mem_nil, or_false] at hcm
    rcases hcm with hcm | rfl | rfl | rfl
    · obtain ⟨j, md, hmd, hcm⟩ := of_powerList hcm
      exact power_responds σ _ n j md (hw md hmd).1 (hw md hmd).2 c hcm
    · trivial
    · trivial
    · trivial
  · obtain ⟨w, hwm, hcm⟩ := List.mem_flatMap.mp hcm
    obtain ⟨k, hk, hcm⟩ := List.mem_flatMap.mp hcm
    have hwm := List.mem_range.mp hwm
    have hwm : w ≤ N.length := by omega
    have := hi w hwm k hk
    rw [hvars, decode_state] at this
    · exact apply_responds σ _ _ k this c hcm hh
    · have := sum_take_le N w
      unfold waypointSample
      omega
  · obtain ⟨s, hsm, hcm⟩ := List.mem_flatMap.mp hcm
    obtain ⟨k, hk, hcm⟩ := List.mem_flatMap.mp hcm
    obtain ⟨n, hn, hcm⟩ := List.mem_flatMap.mp hcm
    have hsm : s < N.length := by simpa using hsm
    have hns : n ∈ segmentSamples N s := by
      rw [mem_segmentSamples hsm]
      simp only [List.mem_range'_1, getD_lt hsm] at hn
      exact ⟨n - (N.take s).sum - 1, by omega, by omega⟩
    have := hc s hsm k hk n hns
    rw [hvars, decode_state] at this
    · exact apply_responds σ _ _ k this c hcm hh
    · exact (segment_lt hsm hns).trans_le (by simp [sampleCount])

/-- A wheel without torque or without speed has a limit that is always reached and never answers. -/
theorem C125_mute (b : Builder ℝ) (hb : Reachable b) (dr : SwerveDrivetrain ℝ) (hr : Ready b dr) {md : SwerveModule ℝ}
    (hm : md ∈ dr.modules) (h0 : maxSpeed md = 0 ∨ maxForce md = 0) (handle : ℤ) (g : Generator ℝ)
    (hg : Generator.construct b handle = .ok g) (σ : ℕ → ℝ) (hσ : g.problem.Feasible σ) :
    ∃ c ∈ g.problem.cons, Mute σ c := by
  obtain ⟨-, -, hcons, -⟩ := closed_parts hb hr hg
  obtain ⟨j, hj⟩ := in_powerList (m := dr.modules.length) (n := 0) (i := 0) hm
  have hall : ∀ c ∈ powerCons (sampleVars dr.modules.length 0) (forceVars dr.modules.length 0 j) md, c ∈ g.problem.cons := by
    intro c hc
    rw [hcons]
    simp only [allCons, List.mem_append]
    refine .inl (.inl (.inr (List.mem_flatMap.mpr ⟨0, by simp, ?_⟩)))
    simp only [dynCons, List.mem_append]
    exact .inl (hj c hc)
  have key : ∀ (T : Translation2 (Expr ℝ)) (v : ℝ), v * v = 0 → Con.le T.squaredNorm (.const (v * v)) ∈ g.problem.cons →
      ∃ c ∈ g.problem.cons, Mute σ c := by
    intro T v hv hT
    rw [hv] at hT
    have hsq : ∀ σ', T.squaredNorm.eval σ' = T.x.eval σ' * T.x.eval σ' + T.y.eval σ' * T.y.eval σ' := fun σ' => by
      simp [Translation2.squaredNorm]
    have hnn : ∀ σ', 0 ≤ T.squaredNorm.eval σ' := fun σ' => by
      rw [hsq]
      exact add_nonneg (mul_self_nonneg _) (mul_self_nonneg _)
    have hz : T.squaredNorm.eval σ = 0 := le_antisymm (hσ _ hT).2.2 (hnn σ)
    refine ⟨_, hT, _, _, .inl rfl, hz, fun d w hw => ?_⟩
    refine IsLocalMin.hasDerivAt_eq_zero (Filter.Eventually.of_forall fun t => ?_) hw
    simp only [zero_mul, add_zero, eval_const, sub_zero]
    rw [hz]
    exact hnn _
  rcases h0 with h0 | h0
  · exact key _ _ (mul_eq_zero.mpr (.inl (abs_eq_zero.mp h0))) (hall _ (List.mem_cons_self ..))
  · exact key _ _ (mul_eq_zero.mpr (.inl (abs_eq_zero.mp h0))) (hall _ (List.mem_cons_of_mem _ (List.mem_cons_self ..)))

/-- A distance of zero to be kept has a limit that does not answer where robot and obstacle touch. -/
theorem C125_touch (b : Builder ℝ) (hb : Reachable b) (dr : SwerveDrivetrain ℝ) (hr : Ready b dr) (handle : ℤ)
    (g : Generator ℝ) (hg : Generator.construct b handle = .ok g) (σ : ℕ → ℝ) (hσ : g.problem.Feasible σ) {w : ℕ}
    (hw : w ≤ (table b).counts.length) {c : Constraint ℝ} (hc : c ∈ (table b).instant w)
    (h : Touches c ((decode g.vars σ).state (waypointSample (table b).counts w))) :
    ∃ k ∈ g.problem.cons, Mute σ k := by
  obtain ⟨hvars, -, hcons, -⟩ := closed_parts hb hr hg
  have hall : ∀ k ∈ c.apply (sampleVars dr.modules.length (waypointSample (table b).counts w)), k ∈ g.problem.cons := by
    intro k hk
    rw [hcons]
    simp only [allCons, List.mem_append]
    exact .inl (.inr (List.mem_flatMap.mpr ⟨w, List.mem_range.mpr (by omega), List.mem_flatMap.mpr ⟨c, hc, hk⟩⟩))
  rw [hvars, decode_state] at h
  · obtain ⟨k, hk, hm⟩ := apply_mute σ _ _ c (fun k hk => hσ k (hall k hk)) h
    exact ⟨k, hall k hk, hm⟩
  · have := sum_take_le (table b).counts w
    unfold waypointSample
    omega

/-- A robot that can pull. -/
noncomputable def pullRobot : SwerveDrivetrain ℝ := ⟨2, 1, [⟨⟨1, 1⟩, 1, 2, 1⟩, ⟨⟨-1, -1⟩, 1, 2, 1⟩]⟩

/-- Half a metre, starting at the distance to be kept from a point. -/
noncomputable def keepOps (p : Translation2 ℝ) (d : ℝ) : List (Op ℝ) :=
  [.setDrivetrain pullRobot, .poseWpt 0 0 0 0, .wptConstraint 0 (.pointPoint ⟨0, 0⟩ p d), .poseWpt 1 (1 / 2) 0 0,
    .controlIntervalCounts [1]]

theorem keep_table (p : Translation2 ℝ) (d : ℝ) : let b : Builder ℝ := run true (keepOps p d) Builder.new
    Ready b pullRobot ∧ (table b).counts = [1] ∧ (table b).continuous 0 = [] ∧
      (table b).instant 0 = [.poseEquality 0 0 0, .pointPoint ⟨0, 0⟩ p d] ∧
      (table b).instant 1 = [.poseEquality (1 / 2) 0 0] := by
  intro b
  obtain ⟨e, hr⟩ : table b = PathTable.empty.afterAll (keepOps p d) ∧ Ready b pullRobot := by
    refine ready_of ?_ _ rfl ?_ ?_ ?_ <;>
    simp [keepOps, PathTable.AcceptsAll, PathTable.Accepts, PathTable.afterAll, PathTable.after,
      PathTable.empty, PathTable.reach, PathTable.requireAt, PathTable.guessAt, sampleCount]
  refine ⟨hr, ?_⟩
  rw [e]
  simp [keepOps, PathTable.afterAll, PathTable.after, PathTable.empty, PathTable.reach, PathTable.requireAt,
    PathTable.guessAt]

theorem keep_dist : dist (0 : ℂ) (vec ⟨3, 4⟩) = 5 := by
  have h : dist (0 : ℂ) (vec ⟨3, 4⟩) ^ 2 = 5 ^ 2 := by
    rw [Complex.dist_eq, Complex.sq_norm, Complex.normSq_apply]
    norm_num [vec]
  exact (pow_left_inj₀ dist_nonneg (by norm_num) two_ne_zero).mp h

/-- It can be driven. -/
theorem keep_solves (p : Translation2 ℝ) (d : ℝ) (hd : dist (0 : ℂ) (vec p) = |d|) :
    Solves (run true (keepOps p d) Builder.new) pullRobot
      ⟨fun n => ⟨(n : ℂ) / 2, 1, 1, 0, 0, 0⟩, fun _ _ => 0, fun _ => 1 / 2⟩ := by
  obtain ⟨hr, hc, hco, hi0, hi1⟩ := keep_table p d
  have hb : Reachable (run true (keepOps p d) Builder.new : Builder ℝ) := ⟨true, _, rfl⟩
  have hR : ∀ m ∈ pullRobot.modules, m.wheelRadius ≠ 0 := by simp [pullRobot]
  rw [solves_iff hb hr hR]
  constructor <;> rw [hc]
  · intro s hs n hn
    obtain rfl : s = 0 := by simpa using hs
    obtain rfl : n = 1 := by
      simp [segmentSamples, waypointSample] at hn
      omega
    constructor
    · simp
    · left; simp [unitVec]
    · simp
    · simp
  · intro n _
    constructor
    · simp
    · simp [torque]
    · intro m hm
      simp only [pullRobot, List.mem_cons, List.not_mem_nil, or_false] at hm
      rcases hm with rfl | rfl <;> norm_num [wheelVelocity, maxSpeed]
    · intro j
      simp [maxForce]
  · intro s _; norm_num
  · intro s _ m hm g hg
    have : g = 2 := by
      obtain ⟨h0, m, m', hmm, hg⟩ := hg
      have : m = ⟨⟨1, 1⟩, 1, 2, 1⟩ ∧ m' = ⟨⟨-1, -1⟩, 1, 2, 1⟩ := by
        simpa [pullRobot] using hmm
      obtain ⟨rfl, rfl⟩ := this
      norm_num at hg
      exact hg
    simp only [pullRobot, List.mem_cons, List.not_mem_nil, or_false] at hm
    rcases hm with rfl | rfl <;> norm_num [this]
  · intro w hw c hcm
    have hw0 : waypointSample [1] 0 = 0 ∧ waypointSample [1] 1 = 1 := ⟨rfl, rfl⟩
    have hw : w ≤ 1 := by simpa using hw
    interval_cases w
    · rw [hi0] at hcm
      simp only [List.mem_cons, List.not_mem_nil, or_false] at hcm
      rw [hw0.1]
      rcases hcm with rfl | rfl
      · exact ⟨by simp [vec, Complex.ext_iff], .inl (by simp [unitVec])⟩
      · simp only [Meaning, State.onRobot]
        rw [show ((0 : ℕ) : ℂ) / 2 + vec ⟨0, 0⟩ * 1 = 0 by simp [vec, Complex.ext_iff], hd]
    · rw [hi1] at hcm
      simp only [List.mem_cons, List.not_mem_nil, or_false] at hcm
      rw [hw0.2]
      subst hcm
      exact ⟨by simp [vec, Complex.ext_iff], .inl (by simp [unitVec])⟩
  · intro s hs c hcm
    obtain rfl : s = 0 := by simpa using hs
    rw [hco] at hcm
    simp at hcm

/-- C125 on a path with a solution that reaches a distance to be kept. -/
theorem C125_example : ∃ (g : Generator ℝ) (σ : ℕ → ℝ), Generator.construct (run true (keepOps ⟨3, 4⟩ 5) Builder.new) 0 = .ok g ∧
    g.problem.Feasible σ ∧ dist (((decode g.vars σ).state 0).onRobot ⟨0, 0⟩) (vec ⟨3, 4⟩) = 5 ∧
    ∀ c ∈ g.problem.cons, Responds σ c := by
  obtain ⟨hr, hc, hco, hi0, hi1⟩ := keep_table ⟨3, 4⟩ 5
  have hb : Reachable (run true (keepOps ⟨3, 4⟩ 5) Builder.new : Builder ℝ) := ⟨true, _, rfl⟩
  have hR : ∀ m ∈ pullRobot.modules, m.wheelRadius ≠ 0 := by simp [pullRobot]
  have hs := keep_solves ⟨3, 4⟩ 5 (by rw [keep_dist]; norm_num)
  obtain ⟨g, hg, -, -, hf⟩ := C29_problem _ hb pullRobot hr hR 0
  obtain ⟨σ, hσ, ha⟩ := (hf _).mp hs.obeys
  have h0 : (decode g.vars σ).state 0 = ⟨((0 : ℕ) : ℂ) / 2, 1, 1, 0, 0, 0⟩ := ha.state 0 (by simp [sampleCount])
  refine ⟨g, σ, hg, hσ, ?_, C125_reached _ hb pullRobot hr ?_ 0 g hg σ hσ ?_ ?_⟩
  · rw [h0]
    simp only [State.onRobot]
    rw [show ((0 : ℕ) : ℂ) / 2 + vec ⟨0, 0⟩ * 1 = 0 by simp [vec, Complex.ext_iff], keep_dist]
  · intro md hmd
    simp only [pullRobot, List.mem_cons, List.not_mem_nil, or_false] at hmd
    rcases hmd with rfl | rfl <;> norm_num [maxSpeed, maxForce]
  · intro w hw c hcm
    rw [hc] at hw
    have hw : w ≤ 1 := by simpa using hw
    interval_cases w
    · rw [hi0] at hcm
      simp only [List.mem_cons, List.not_mem_nil, or_false] at hcm
      rcases hcm with rfl | rfl
      · exact fun h => h
      · exact (by norm_num : ¬ (5 : ℝ) = 0)
    · rw [hi1] at hcm
      simp only [List.mem_cons, List.not_mem_nil, or_false] at hcm
      subst hcm
      exact fun h => h
  · intro s hs c hcm
    rw [hc] at hs
    obtain rfl : s = 0 := by simpa using hs
    rw [hco] at hcm
    simp at hcm

/-- The hypotheses of `C125_touch` are met by a robot that starts on the point from which it has to keep no distance. -/
example : ∃ (g : Generator ℝ) (σ : ℕ → ℝ), g.problem.Feasible σ ∧ ∃ c ∈ g.problem.cons, Mute σ c := by
  obtain ⟨hr, hc, -, hi0, -⟩ := keep_table ⟨0, 0⟩ 0
  have hb : Reachable (run true (keepOps ⟨0, 0⟩ 0) Builder.new : Builder ℝ) := ⟨true, _, rfl⟩
  obtain ⟨g, hg, -, -, hf⟩ := C29_problem _ hb pullRobot hr (by simp [pullRobot]) 0
  obtain ⟨σ, hσ, ha⟩ := (hf _).mp (keep_solves ⟨0, 0⟩ 0 (by simp [vec, Complex.ext_iff])).obeys
  have h0 : (decode g.vars σ).state 0 = ⟨((0 : ℕ) : ℂ) / 2, 1, 1, 0, 0, 0⟩ := ha.state 0 (by simp [sampleCount])
  refine ⟨g, σ, hσ, C125_touch _ hb pullRobot hr 0 g hg σ hσ (w := 0) (Nat.zero_le _)
    (c := .pointPoint ⟨0, 0⟩ ⟨0, 0⟩ 0) (by rw [hi0]; simp) ⟨rfl, ?_⟩⟩
  rw [show waypointSample (table (run true (keepOps ⟨0, 0⟩ 0) Builder.new : Builder ℝ)).counts 0 = 0 by simp [waypointSample],
    h0]
  simp [State.onRobot, vec]

/-- The hypotheses of `C125_mute` are met by the robot that rolls freely, which has solutions. -/
example : ∃ (g : Generator ℝ) (σ : ℕ → ℝ), g.problem.Feasible σ ∧ ∃ c ∈ g.problem.cons, Mute σ c := by
  obtain ⟨hr, -⟩ := roll_table
  have hb : Reachable (run true rollOps Builder.new : Builder ℝ) := ⟨true, _, rfl⟩
  obtain ⟨g, hg, -, -, hf⟩ := C29_problem _ hb rollRobot hr (by simp [rollRobot]) 0
  obtain ⟨T, hT⟩ := roll_solves
  obtain ⟨σ, hσ, -⟩ := (hf _).mp hT.obeys
  exact ⟨g, σ, hσ, C125_mute _ hb rollRobot hr (md := ⟨⟨1, 1⟩, 1, 2, 0⟩) (by simp [rollRobot])
    (.inr (by norm_num [maxForce])) 0 g hg σ hσ⟩

end Trajopt.Props
