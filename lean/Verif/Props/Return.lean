import Verif.Spec.Return
import Verif.Props.Examples

/-!
# C129 A trajectory can be given back as the guess
-/

set_option autoImplicit false

namespace Trajopt.Props

open Spec Builder

/-- C129: the solver starts at the positions and headings of the trajectory that is given back. -/
theorem C129_poses_partial (b : Builder ℝ) (hb : Reachable b) (dr : SwerveDrivetrain ℝ) (hr : Ready b dr) (handle : ℤ)
    (g : Generator ℝ) (hg : Generator.construct b handle = .ok g) (T : Traj) (hT : GivenBack (table b) T)
    (hpos : ∀ c ∈ (table b).counts, 0 < c) (hu : ∀ n < sampleCount (table b).counts, ‖(T.state n).heading‖ = 1) :
    ∀ n < sampleCount (table b).counts,
      ((decode g.vars g.problem.values).state n).pos = (T.state n).pos ∧
      ((decode g.vars g.problem.values).state n).heading = (T.state n).heading := by
  intro n hn
  obtain ⟨sol, d, c1, -, -, c4, -⟩ := C43_start b hb dr hr handle g hg _ rfl
  obtain ⟨q1, q2, q3, q4⟩ := c4 n hn
  suffices h : sol.x[n]? = some (T.state n).pos.re ∧ sol.y[n]? = some (T.state n).pos.im ∧
      sol.thetacos[n]? = some (T.state n).heading.re ∧ sol.thetasin[n]? = some (T.state n).heading.im by
    obtain ⟨h1, h2, h3, h4⟩ := h
    rw [h1] at q1
    rw [h2] at q2
    rw [h3] at q3
    rw [h4] at q4
    exact ⟨Complex.ext (Option.some.inj q1).symm (Option.some.inj q2).symm,
      Complex.ext (Option.some.inj q3).symm (Option.some.inj q4).symm⟩
  rcases Nat.eq_zero_or_pos n with rfl | h0
  · obtain ⟨p, ps, e, e1, e2, e3, e4⟩ := C05_start _ _ sol c1 hr.size
    have h := hT.first
    change b.initialGuessPoints.getD 0 _ = _ at h
    rw [List.getD_eq_getElem?_getD, e, Option.getD_some] at h
    cases h
    exact ⟨e1, e2, e3, e4⟩
  · obtain ⟨s, ⟨hs, hi⟩, -⟩ := (C01_tiling (table b).counts).1 n h0 hn
    rw [segmentSamples, Finset.mem_Ioc, waypointSample, waypointSample, List.sum_take_succ _ _ hs] at hi
    have hw : s + 1 < b.initialGuessPoints.length := by
      have h1 := hr.counts
      have h2 : b.initialGuessPoints.length = (table b).waypoints := (wf_reachable hb).guess
      omega
    have hl := hT.rest s hs
    have hc : b.initialGuessPoints[s + 1]? = some ((table b).guess (s + 1)) := by
      change _ = some (b.initialGuessPoints.getD (s + 1) _)
      rw [List.getD_eq_getElem?_getD, List.getElem?_eq_getElem hw, Option.getD_some]
    rw [hl] at hc
    have hj : n - waypointSample (table b).counts s - 1 < (table b).counts[s] := by
      unfold waypointSample
      omega
    have hcs := hpos _ (List.getElem_mem hs)
    have key := C06_segment_points _ _ sol c1 hr.size s hs _ hc (by rw [List.length_map, List.length_range]; exact le_refl _)
      (n - waypointSample (table b).counts s - 1) (by simpa using hj) n (by
        rw [List.length_map, List.length_range]
        have e : b.controlIntervalCounts[s]'hs = (table b).counts[s] := rfl
        have e' : waypointSample b.controlIntervalCounts s = ((table b).counts.take s).sum := rfl
        rw [e, e', Nat.div_self hcs]
        unfold waypointSample at hj ⊢
        split <;> omega)
    have en : waypointSample (table b).counts s + 1 + (n - waypointSample (table b).counts s - 1) = n := by
      unfold waypointSample
      omega
    simp only [List.getElem_map, List.getElem_range, en] at key
    obtain ⟨k1, k2, k3⟩ := key
    refine ⟨k1, k2, k3 ?_⟩
    have := hu n hn
    rw [← sq_eq_sq₀ (norm_nonneg _) zero_le_one, ← Complex.normSq_eq_norm_sq, Complex.normSq_apply] at this
    change (T.state n).heading.re ^ 2 + (T.state n).heading.im ^ 2 = 1
    linarith

/-- C129 does not hold for the rest: forces and time steps of the trajectory that is given back are not where the solver
starts, unless there are no forces and each segment takes five seconds. -/
theorem C129_refuted (b : Builder ℝ) (hb : Reachable b) (dr : SwerveDrivetrain ℝ) (hr : Ready b dr) (handle : ℤ)
    (g : Generator ℝ) (hg : Generator.construct b handle = .ok g) (T : Traj)
    (h : (∃ (s : ℕ) (hs : s < (table b).counts.length), 0 < (table b).counts[s] ∧ T.dt s ≠ 5 / ((table b).counts[s] : ℝ)) ∨
      ∃ n < sampleCount (table b).counts, ∃ j < dr.modules.length, T.force n j ≠ 0) :
    ¬ Traj.Agree (sampleCount (table b).counts) dr.modules.length (table b).counts.length
      (decode g.vars g.problem.values) T := by
  obtain ⟨sol, d, -, -, -, -, -, -, hf, hd⟩ := C43_start b hb dr hr handle g hg _ rfl
  intro ha
  rcases h with ⟨s, hs, hp, hne⟩ | ⟨n, hn, j, hj, hne⟩
  · exact hne ((ha.dt s hs).symm.trans (hd ⟨s, hs⟩ hp))
  · exact hne ((ha.force n hn j hj).symm.trans (hf n hn j hj))

/-- Waiting at a pose. -/
noncomputable def remainOps : List (Op ℝ) :=
  [.setDrivetrain demoRobot, .poseWpt 0 0 0 0, .poseWpt 1 0 0 0, .controlIntervalCounts [1]]

/-- A robot that waits for no time does what the path requires.  Given back as the guess, that is where the solver starts,
except that it starts with a time step of five seconds. -/
example : ∃ g, Generator.construct (run true remainOps Builder.new) 0 = .ok g ∧
    Solves (run true remainOps Builder.new) demoRobot (stillTraj 0 1) ∧
    GivenBack (table (run true remainOps Builder.new)) (stillTraj 0 1) ∧
    (∀ n < 2, ((decode g.vars g.problem.values).state n).pos = 0 ∧
      ((decode g.vars g.problem.values).state n).heading = 1) ∧
    ¬ Traj.Agree 2 4 1 (decode g.vars g.problem.values) (stillTraj 0 1) := by
  obtain ⟨e, hr⟩ : table (run true remainOps Builder.new) = PathTable.empty.afterAll remainOps ∧
      Ready (run true remainOps Builder.new) demoRobot := by
    refine ready_of ?_ _ rfl ?_ ?_ ?_ <;>
    simp [remainOps, PathTable.AcceptsAll, PathTable.Accepts, PathTable.afterAll, PathTable.after, PathTable.empty,
      PathTable.reach, PathTable.requireAt, PathTable.guessAt, sampleCount]
  have hb : Reachable (run true remainOps Builder.new) := ⟨_, _, rfl⟩
  generalize run true remainOps Builder.new = b at *
  have hN : (table b).counts = [1] := by
    rw [e]
    rfl
  have h1 : (table b).guess 1 = [⟨⟨0, 0⟩, ⟨1, 0⟩⟩] := by
    rw [e]
    simp [remainOps, PathTable.afterAll, PathTable.after, PathTable.empty, PathTable.reach, PathTable.requireAt,
      PathTable.guessAt, Pose2.ofXYHeading, Rotation2.ofAngle]
  have hi : ∀ w ≤ 1, ∀ c ∈ (table b).instant w, c = .poseEquality 0 0 0 := by
    intro w hw c hc
    rw [e] at hc
    interval_cases w <;>
    simpa [remainOps, PathTable.afterAll, PathTable.after, PathTable.empty, PathTable.reach, PathTable.requireAt,
      PathTable.guessAt, Constraint.mkPoseEquality] using hc
  have hc : ∀ s, (table b).continuous s = [] := by
    intro s
    rw [e]
    simp [remainOps, PathTable.afterAll, PathTable.after, PathTable.empty, PathTable.reach, PathTable.requireAt,
      PathTable.guessAt]
  have hg : GivenBack (table b) (stillTraj 0 1) := by
    constructor
    · rw [e]
      simp [remainOps, PathTable.afterAll, PathTable.after, PathTable.empty, PathTable.reach, PathTable.requireAt,
        PathTable.guessAt, poseOf, stillTraj, Pose2.ofXYHeading, Rotation2.ofAngle]
    · intro s hs
      simp only [hN] at hs ⊢
      obtain rfl : s = 0 := by simpa using hs
      rw [h1]
      simp [poseOf, stillTraj]
  obtain ⟨sol, -, -, h3⟩ := construct_closed hb hr 0
  refine ⟨_, h3, C68_rest b hb demoRobot hr ?_ 0 1 (by simp) ?_ ?_, hg, ?_, ?_⟩
  · simp [demoRobot]
  · intro w hw c hc
    rw [hi w (by simpa [hN] using hw) c hc]
    simp [Meaning, vec, unitVec, Complex.ext_iff]
  · intro s hs c hcs
    simp [hc] at hcs
  · have := C129_poses_partial b hb _ hr 0 _ h3 _ hg (by simp [hN]) (by simp [stillTraj])
    simp only [hN] at this
    exact this
  · have := C129_refuted b hb _ hr 0 _ h3 (stillTraj 0 1) (.inl ⟨0, by simp [hN], by simp [hN], by simp [hN, stillTraj]⟩)
    simp only [hN] at this
    exact this

end Trajopt.Props
