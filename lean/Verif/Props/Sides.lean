import Verif.Props.Examples
import Verif.Props.Invariance
import Verif.Props.Trajectory

/-!
# C82 Example 7 does not say which way around to go

The comment at /repo/examples/Swerve/src/Main.cpp:160 says the guess makes the optimiser go around the point
in +y direction.  The guess is on the x axis, and the problem is the same on both sides of it.
-/

set_option autoImplicit false

namespace Trajopt.Props

open Spec Builder

/-- The trajectory on the other side of the x axis: left and right modules change roles. -/
noncomputable def otherSide (T : Traj) : Traj where
  state n := (T.state n).mirrored
  force n j := (starRingEnd ℂ) (T.force n (if j % 2 = 0 then j + 1 else j - 1))
  dt := T.dt

local macro "tables7" : tactic => `(tactic|
  simp [Examples.cpp7, Examples.noSpeed, PathTable.AcceptsAll, PathTable.Accepts,
    PathTable.afterAll, PathTable.after, PathTable.empty, PathTable.reach, PathTable.requireAt,
    PathTable.requireAlong, PathTable.guessAt, examples_robot, sampleCount])

theorem sides_table (asserts : Bool) :
    table (run asserts Examples.cpp7 (Builder.new : Builder ℝ)) = PathTable.empty.afterAll Examples.cpp7 :=
  (C81_history asserts Examples.cpp7 (by tables7)).1

theorem sides_ready (asserts : Bool) :
    Ready (run asserts Examples.cpp7 Builder.new) shippedRobot :=
  (ready_of (asserts := asserts) (ops := Examples.cpp7) (by tables7) _ rfl (by tables7) (by tables7)
    (by tables7)).2

theorem mirror_shipped_gap {g : ℝ} (h : Gap shippedRobot g) : Gap (mirror.drivetrain shippedRobot) g :=
  (mirror_gap _ g).mpr h

/-- Left and right modules. -/
def swapSides : Fin shippedRobot.modules.length ≃ Fin (mirror.drivetrain shippedRobot).modules.length where
  toFun j := ⟨if (j : ℕ) % 2 = 0 then j + 1 else j - 1, by
    have : (j : ℕ) < 4 := j.2
    change _ < 4
    split <;> omega⟩
  invFun j := ⟨if (j : ℕ) % 2 = 0 then j + 1 else j - 1, by
    have : (j : ℕ) < 4 := j.2
    change _ < 4
    split <;> omega⟩
  left_inv j := by
    apply Fin.ext
    dsimp only
    split <;> split <;> omega
  right_inv j := by
    apply Fin.ext
    dsimp only
    split <;> split <;> omega

/-- C82: whatever trajectory Example 7 can have, it can as well have the one on the other side of
the x axis, of the same duration. -/
theorem C82_both_sides (asserts : Bool) (T : Traj)
    (h : Solves (run asserts Examples.cpp7 Builder.new) Examples.robot T) :
    Solves (run asserts Examples.cpp7 Builder.new) Examples.robot (otherSide T) := by
  rw [examples_robot] at h ⊢
  have h' := (C61_mirror asserts Examples.cpp7 shippedRobot T).mp h
  obtain ⟨-, e2, -, e4, e5⟩ := (rel_new (R := mirror) ⟨fun _ _ => rfl, fun _ => rfl⟩ asserts
    Examples.cpp7).table
  have k1 : ∀ x y h : ℝ, mirror.con (.poseEquality x y h) = .poseEquality x (-y) (-h) := fun _ _ _ => rfl
  have k2 : ∀ x y x' y' d : ℝ, mirror.con (.pointPoint ⟨x, y⟩ ⟨x', y'⟩ d) =
      .pointPoint ⟨x, -y⟩ ⟨x', -y'⟩ d := fun _ _ _ _ _ => rfl
  have k3 : ∀ v : ℝ, mirror.con (.linearVelocityMaxMagnitude v) = .linearVelocityMaxMagnitude v :=
    fun _ => rfl
  have hi : ∀ w, ((table (run asserts Examples.cpp7 (Builder.new : Builder ℝ))).instant w).map mirror.con =
      (table (run asserts Examples.cpp7 Builder.new)).instant w := by
    intro w
    rw [sides_table]
    obtain rfl | rfl | hw : w = 0 ∨ w = 1 ∨ 2 ≤ w := by omega
    · tables7
      simp [k1, k2, k3]
    · tables7
      simp [k1, k2, k3]
    · tables7
      simp [show ¬ w = 0 by omega, show ¬ w = 1 by omega, show ¬ w ≤ 1 by omega]
  have hc : ∀ s, ((table (run asserts Examples.cpp7 (Builder.new : Builder ℝ))).continuous s).map mirror.con =
      (table (run asserts Examples.cpp7 Builder.new)).continuous s := by
    intro s
    rw [sides_table]
    tables7
    split <;> simp [k2]
  obtain ⟨h1, h2, h3, h4, h5, h6⟩ := h'.obeys
  simp only [e2, e4, e5, hi, hc] at h1 h2 h3 h4 h5 h6
  refine (solves_iff ⟨asserts, _, rfl⟩ (sides_ready asserts) shipped_radius).mpr
    ⟨h1, fun n hn => ?_, h3, fun s hs m hm g hg => ?_, h5, h6⟩
  · refine (dynamics_permuted (mirror.drivetrain shippedRobot) shippedRobot rfl rfl swapSides
      (fun j => ?_) _ (T.mirrored.force n) _ fun j => ?_).mpr (h2 n hn)
    · have e : ∀ x y : ℝ, mirror.wheel ⟨⟨x, y⟩, 0.04, 70, 2⟩ = ⟨⟨x, -y⟩, 0.04, 70, 2⟩ :=
        fun _ _ => rfl
      fin_cases j
      · exact ((e 0.6 (-0.6)).trans (by rw [neg_neg]; rfl)).symm
      · exact (e 0.6 0.6).symm
      · exact ((e (-0.6) (-0.6)).trans (by rw [neg_neg]; rfl)).symm
      · exact (e (-0.6) 0.6).symm
    · fin_cases j <;> rfl
  · refine h4 s hs ⟨mirror.robot m.translation, m.wheelRadius, m.wheelMaxAngularVelocity,
      m.wheelMaxTorque⟩ ?_ g (mirror_shipped_gap hg)
    exact List.mem_map.mpr ⟨m, hm, mirror_wheel m⟩

/-- C82: and solving starts exactly in between: with all positions, velocities and accelerations along the x
axis. -/
theorem C82_starts_between (asserts : Bool) (handle : ℤ) :
    ∃ g, Generator.construct (run asserts Examples.cpp7 Builder.new) handle = .ok g ∧
      ∀ n ≤ 30, ((decode g.vars g.problem.values).state n).pos.im = 0 ∧
        ((decode g.vars g.problem.values).state n).vel.im = 0 ∧
        ((decode g.vars g.problem.values).state n).acc.im = 0 := by
  have ht := sides_table asserts
  have hr := sides_ready asserts
  generalize hbb : run asserts Examples.cpp7 (Builder.new : Builder ℝ) = b at ht hr
  have hb : Reachable b := ⟨asserts, _, hbb.symm⟩
  obtain ⟨g, hg, -⟩ := C29_problem b hb shippedRobot hr shipped_radius handle
  refine ⟨g, hg, ?_⟩
  obtain ⟨sol, d, hsol, -, -, hx, ⟨v0, a0, -, -⟩, hv, -, -⟩ :=
    C43_start b hb shippedRobot hr handle g hg _ rfl
  have hcounts : (table b).counts = [30] := by rw [ht]; tables7
  have hc' : b.controlIntervalCounts = [30] := hcounts
  have hsc : sampleCount (table b).counts = 31 := by rw [hcounts]; simp [sampleCount]
  have hy : ∀ v ∈ sol.y, 0 ≤ v ∧ v ≤ 0 := by
    refine (C07_range _ _ _ hsol (by rw [hc']; simp [sampleCount]) 0 0).2 ?_
    intro w hw l hl p hp
    have hgw : (table b).guess w = l := by simp [table, hl]
    rw [hc'] at hw
    rw [ht] at hgw
    obtain rfl | rfl : w = 0 ∨ w = 1 := by simp at hw; omega
    · replace hgw : [Pose2.ofXYHeading 0 0 0] = l := by rw [← hgw]; tables7
      rw [← hgw, List.mem_singleton] at hp
      rw [hp]
      exact ⟨le_rfl, le_rfl⟩
    · replace hgw : [Pose2.ofXYHeading 2 0 0] = l := by rw [← hgw]; tables7
      rw [← hgw, List.mem_singleton] at hp
      rw [hp]
      exact ⟨le_rfl, le_rfl⟩
  have hp : ∀ n ≤ 30, ((decode g.vars g.problem.values).state n).pos.im = 0 := by
    intro n hn
    have := (hx n (by rw [hsc]; omega)).2.1
    obtain ⟨h1, h2⟩ := hy _ (List.mem_of_getElem? this)
    exact le_antisymm h2 h1
  have hvel : ∀ n ≤ 30, ((decode g.vars g.problem.values).state n).vel.im = 0 := by
    intro n hn
    cases n with
    | zero => rw [v0]; rfl
    | succ n =>
      rw [(hv n (by rw [hsc]; omega)).1, Complex.div_ofReal_im, Complex.sub_im, hp _ hn,
        hp n (by omega)]
      simp
  intro n hn
  refine ⟨hp n hn, hvel n hn, ?_⟩
  cases n with
  | zero => rw [a0]; rfl
  | succ n =>
    rw [(hv n (by rw [hsc]; omega)).2.1, Complex.div_ofReal_im, Complex.sub_im, hvel _ hn,
      hvel n (by omega)]
    simp

/-- There are such trajectories. -/
example : ∃ T, Solves (run true Examples.cpp7 Builder.new) Examples.robot T := by
  obtain ⟨-, T, h, -⟩ := C82_cpp_partial true Examples.cpp7 (by simp [Examples.cpp])
  exact ⟨T, h⟩

end Trajopt.Props
