import Verif.Spec.History
import Verif.Props.Builder
import Verif.Props.Obstacle

/-!
# C81 The path after any history of calls
-/

set_option autoImplicit false

namespace Trajopt.Props

open Spec Builder

variable {D : Type} [Dbl D]

/-- C81: a call that is in order returns, and changes the path as specified. -/
theorem C81_call (asserts : Bool) (b : Builder D) (hb : Reachable b) (op : Op D)
    (h : (table b).Accepts asserts op) :
    ∃ b', op.exec asserts b = (b', none) ∧ table b' = (table b).after op := by
  have obstacle : ∀ o, (table b).Suits asserts o → (table b).bumpers ≠ [] →
      ObstacleCallsAsDocumented asserts o b := by
    intro o ho hne
    obtain ⟨h1, h2, h3, h4, h5, h6⟩ := ho hne
    exact C26_partial asserts b hb o h1 h2 h3 h4 h5 h6
  cases op with
  | setDrivetrain d => exact ⟨_, rfl, rfl⟩
  | poseWpt i x y hd => exact C12_pose_wpt b hb i h x y hd
  | translationWpt i x y hd => exact C12_translation_wpt b hb i h x y hd
  | wptInitialGuessPoint i p => exact C12_wpt_guess b hb i h p
  | sgmtInitialGuessPoints i ps => exact C13_sgmt_guess b hb i h ps
  | addBumpers o => exact ⟨_, rfl, rfl⟩
  | wptObstacle i o =>
    by_cases hne : (table b).bumpers = []
    · have : b.bumpers = [] := hne
      refine ⟨b, ?_, ?_⟩
      · simp [Op.exec, wptObstacle, this, obstacleConstraints, recordAll]
      · simp [PathTable.after, hne, PathTable.requireAllAt]
    · exact (obstacle o h.2 hne).1 i h.1
  | sgmtObstacle i j o =>
    by_cases hne : (table b).bumpers = []
    · have : b.bumpers = [] := hne
      refine ⟨b, ?_, ?_⟩
      · simp [Op.exec, sgmtObstacle, this, obstacleConstraints, recordAll]
      · simp [PathTable.after, hne, PathTable.requireAllAlong]
    · exact (obstacle o h.2 hne).2 i j h.1.1 h.1.2
  | wptConstraint i c => exact C11_wpt_constraint b hb i h c
  | sgmtConstraint i j c => exact C11_sgmt_constraint asserts b hb i j h.1 h.2 c
  | controlIntervalCounts cs => exact ⟨_, rfl, rfl⟩
  | addIntermediateCallback k => exact ⟨_, rfl, rfl⟩

theorem reachable_exec {asserts : Bool} {ops : List (Op D)} {b : Builder D}
    (hb : b = run asserts ops Builder.new) (op : Op D) :
    (op.exec asserts b).1 = run asserts (ops ++ [op]) Builder.new := by
  rw [run, List.foldl_append, hb]
  rfl

/-- C81: if all calls of a history are in order, then all of them return, and the path is what they
say one after the other. -/
theorem C81_history (asserts : Bool) (ops : List (Op D))
    (h : PathTable.AcceptsAll asserts PathTable.empty ops) :
    table (run asserts ops Builder.new) = PathTable.empty.afterAll ops ∧
    ∀ before op after, ops = before ++ op :: after →
      (op.exec asserts (run asserts before Builder.new)).2 = none := by
  have key : ∀ (ops past : List (Op D)), PathTable.AcceptsAll asserts
      (table (run asserts past Builder.new)) ops →
      table (run asserts (past ++ ops) Builder.new) =
        (table (run asserts past Builder.new)).afterAll ops ∧
      ∀ before op after, ops = before ++ op :: after →
        (op.exec asserts (run asserts (past ++ before) Builder.new)).2 = none := by
    intro ops
    induction ops with
    | nil => intro past _; simp [PathTable.afterAll]
    | cons op ops ih =>
      rintro past ⟨h1, h2⟩
      obtain ⟨b', e, t⟩ := C81_call asserts _ ⟨asserts, past, rfl⟩ op h1
      have r := reachable_exec (rfl : run asserts past Builder.new = _) op
      rw [e] at r
      change b' = _ at r
      rw [← t, r] at h2
      obtain ⟨i1, i2⟩ := ih (past ++ [op]) h2
      refine ⟨?_, ?_⟩
      · rw [PathTable.afterAll, ← t, r, ← i1, List.append_assoc]
        rfl
      · intro before op' after he
        cases before with
        | nil =>
          simp only [List.nil_append, List.cons.injEq] at he
          rw [← he.1, List.append_nil, e]
        | cons o before =>
          simp only [List.cons_append, List.cons.injEq] at he
          obtain ⟨rfl, rfl⟩ := he
          have := i2 before op' after rfl
          rwa [List.append_assoc] at this
  have e : table (run asserts [] (Builder.new : Builder D)) = PathTable.empty := by
    simp [run, table, Builder.new, PathTable.empty]
  have := key ops [] (by rwa [e])
  rwa [e] at this

/-- C81, non-vacuity: a history with bumpers, an obstacle and a guess. -/
example (d : SwerveDrivetrain ℝ) :
    let ops : List (Op ℝ) := [.setDrivetrain d, .poseWpt 0 0 0 0, .addBumpers ⟨1, [⟨1, 1⟩]⟩,
      .sgmtObstacle 0 2 ⟨1, [⟨5, 5⟩]⟩, .sgmtInitialGuessPoints 1 [⟨⟨1, 0⟩, ⟨1, 0⟩⟩]]
    let t := table (run true ops Builder.new)
    PathTable.AcceptsAll true PathTable.empty ops ∧ t.waypoints = 3 ∧ t.counts = [40, 40] ∧
    t.instant 0 = [.poseEquality 0 0 0, .pointPoint ⟨1, 1⟩ ⟨5, 5⟩ (1 + 1)] ∧
    t.continuous 1 = [.pointPoint ⟨1, 1⟩ ⟨5, 5⟩ (1 + 1)] ∧
    t.guess 2 = [⟨⟨1, 0⟩, ⟨1, 0⟩⟩, originPose] := by
  intro ops t
  have h : PathTable.AcceptsAll true PathTable.empty ops := by
    simp [ops, PathTable.AcceptsAll, PathTable.Accepts, PathTable.Suits, PathTable.after,
      PathTable.empty, PathTable.reach, PathTable.requireAt, PathTable.guessAt]
  refine ⟨h, ?_⟩
  rw [show t = _ from (C81_history true ops h).1]
  simp [ops, PathTable.afterAll, PathTable.after, PathTable.empty, PathTable.reach,
    PathTable.requireAt, PathTable.guessAt, PathTable.guessAlong, PathTable.requireAllAlong,
    keepOuts, edges]

end Trajopt.Props
