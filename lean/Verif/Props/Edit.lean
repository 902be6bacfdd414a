import Verif.Lemmas.Edit
import Verif.Spec.Edit
import Verif.Props.Reach
import Verif.Lemmas.Extras

/-!
# C77 Changing the path through `GetPath()`
-/

set_option autoImplicit false

namespace Trajopt.Props

open Spec Builder

section AnyScalar
variable {D : Type} [Dbl D]

theorem ne_edited {b : Builder D} (h : Edited b) : NE b := by
  obtain ⟨asserts, as, rfl⟩ := h
  exact ne_runActs asserts as (by simp [NE, Builder.new])

/-- Histories without edits are histories. -/
theorem reachable_edited {b : Builder D} (h : Reachable b) : Edited b := by
  obtain ⟨asserts, ops, rfl⟩ := h
  exact ⟨asserts, ops.map .call, (runActs_calls asserts ops _).symm⟩

/-- C77: whatever was done to the path through `GetPath()`, constructing the generator succeeds, throws
`out_of_range` or is undefined, and which one is decided by the numbers of guess lists, counts and
waypoints and the presence of a drivetrain.  The five cases cover everything. -/
theorem C77_outcomes (b : Builder D) (hb : Edited b) (handle : ℤ)
    (hN : sampleCount (table b).counts < 2 ^ 64) :
    (b.initialGuessPoints.length = 0 → Generator.construct b handle = .error .ub) ∧
    (0 < b.initialGuessPoints.length → b.initialGuessPoints.length ≤ (table b).counts.length →
      Generator.construct b handle = .error .outOfRange) ∧
    ((table b).counts.length < b.initialGuessPoints.length → (table b).drivetrain = none →
      Generator.construct b handle = .error .ub) ∧
    ((table b).counts.length < b.initialGuessPoints.length → (table b).drivetrain ≠ none →
      (table b).waypoints ≤ (table b).counts.length →
      Generator.construct b handle = .error .outOfRange) ∧
    ((table b).counts.length < b.initialGuessPoints.length → (table b).drivetrain ≠ none →
      (table b).counts.length < (table b).waypoints →
      ∃ g, Generator.construct b handle = .ok g) := by
  have ne := ne_edited hb
  simp only [table] at hN ⊢
  have hidx : getIndex b.controlIntervalCounts (b.controlIntervalCounts.length + 1) 0 =
      .ok (1 + b.controlIntervalCounts.sum) := C01_sample_count b.controlIntervalCounts hN
  obtain ⟨g1, g2, -⟩ := guess_cases ne hN
  refine ⟨?_, ?_, ?_, ?_, ?_⟩
  · intro h
    rw [Generator.construct, Builder.calculateInitialGuess, g1 (List.length_eq_zero_iff.mp h)]
    rfl
  · intro h0 h
    rw [Generator.construct, Builder.calculateInitialGuess, g2 h0 h]
    rfl
  · intro h hd
    obtain ⟨sol, hg, hs⟩ := guess_ok_sized ne h hN
    have hm : b.path.modules = [] := by simp [SwervePath.modules, hd]
    rw [Nat.add_comm] at hidx
    simp only [Generator.construct, hg, Except.ok_bind, hidx, hm, allocSamples_eq, allocDts_eq,
      totalTime_eq, List.nil_append, List.length_nil]
    rw [show ∀ dts, ({ closedVars 0 (1 + b.controlIntervalCounts.sum) [] with
      dt := dts } : Vars) = closedVars 0 (1 + b.controlIntervalCounts.sum) dts from
      fun _ => rfl, kinematics_eq _ _ _ hN (by simp), Except.ok_bind, Nat.add_comm 1,
      List.range_succ_eq_map, List.mapM_cons, dynamicsAt_ub hd _ (by omega)]
    rfl
  · intro h hd hw
    obtain ⟨dr, hd⟩ := Option.ne_none_iff_exists'.mp hd
    obtain ⟨sol, hg, hs⟩ := guess_ok_sized ne h hN
    have hm : b.path.modules = dr.modules := by simp [SwervePath.modules, hd]
    have hdyn : (List.range (1 + b.controlIntervalCounts.sum)).mapM (dynamicsAt b.path
        (closedVars dr.modules.length (1 + b.controlIntervalCounts.sum)
          (List.range' ((1 + b.controlIntervalCounts.sum) * stride dr.modules.length)
            b.controlIntervalCounts.length))) =
        .ok ((List.range (1 + b.controlIntervalCounts.sum)).map (dynCons dr)) := by
      apply mapM_ok
      intro n hn
      exact dynamicsAt_eq hd _ (List.mem_range.mp hn)
    rw [Nat.add_comm] at hidx
    simp only [Generator.construct, hg, Except.ok_bind, hidx, hm, allocSamples_eq, allocDts_eq,
      totalTime_eq, List.nil_append]
    rw [show ∀ dts, ({ closedVars dr.modules.length (1 + b.controlIntervalCounts.sum) [] with
      dt := dts } : Vars) = closedVars dr.modules.length (1 + b.controlIntervalCounts.sum) dts from
      fun _ => rfl, kinematics_eq _ _ _ hN (by simp), Except.ok_bind, hdyn, Except.ok_bind,
      waypointCons_throws _ _ _ _ hN hw, Except.error_bind]
  · intro h hd hw
    obtain ⟨dr, hd⟩ := Option.ne_none_iff_exists'.mp hd
    obtain ⟨sol, h1, h2⟩ := guess_ok_sized ne h hN
    exact ⟨_, construct_eq handle hd hN hw h1 h2⟩

/-- C77: adding an instant constraint through `GetPath()` to a waypoint that exists leaves the
builder in exactly the state that the call `WptConstraint` leaves it in. -/
theorem C77_edit_call (asserts : Bool) (b : Builder D) (i : ℕ) (c : Constraint D)
    (hi : i < (table b).waypoints) (hlen : (table b).waypoints ≤ 2 ^ 63) :
    (Act.edit (addInstant i c)).exec asserts b = (Act.call (.wptConstraint i c)).exec asserts b := by
  simp only [table] at hi hlen
  have hn : b.newWpts i = b := by
    rw [newWpts_eq hlen (by omega), show i + 1 - b.path.waypoints.length = 0 by omega]
    simp [grow, show max b.path.waypoints.length (i + 1) - max b.path.waypoints.length 1 = 0 by omega]
  simp only [Act.exec, Op.exec, wptConstraint, hn, modifyWpt, if_pos hi, editPath, addInstant]
  congr 3
  apply List.ext_getElem?
  intro k
  rw [List.getElem?_map, List.getElem?_zipIdx, List.getElem?_modify]
  cases b.path.waypoints[k]? with
  | none => rfl
  | some w =>
    simp only [Option.map_some, Nat.zero_add, pushWpt]
    by_cases h : k = i
    · simp [h]
    · simp [h, Ne.symm h]

/-- C77: setting the drivetrain or adding a callback through `GetPath()` is the same as calling
`SetDrivetrain` or `AddIntermediateCallback`. -/
theorem C77_edit_members (asserts : Bool) (b : Builder D) (d : SwerveDrivetrain D) (k : ℕ) :
    (Act.edit fun p => { p with drivetrain := some d }).exec asserts b =
      (Act.call (.setDrivetrain d)).exec asserts b ∧
    (Act.edit fun p => { p with callbacks := p.callbacks ++ [k] }).exec asserts b =
      (Act.call (.addIntermediateCallback k)).exec asserts b :=
  ⟨rfl, rfl⟩

/-- C77, a trap: build a path of at least two waypoints, clear the waypoints through `GetPath()` and
build any other path with any calls except `ControlIntervalCounts`.  The builder kept the interval
counts of the cleared path, so constructing the generator throws `out_of_range` (the drivetrain
being set), however the new path looks. -/
theorem C77_rebuilt (asserts : Bool) (ops ops' : List (Op D))
    (hc : ∀ op ∈ ops ++ ops', ∀ cs, op ≠ .controlIntervalCounts cs)
    (h2 : 2 ≤ (table (run asserts ops Builder.new)).waypoints) (b : Builder D)
    (hb : b = runActs asserts (ops.map .call ++ [.edit clearWaypoints] ++ ops'.map .call)
      Builder.new)
    (hd : (table b).drivetrain ≠ none) (hN : sampleCount (table b).counts < 2 ^ 64)
    (handle : ℤ) : Generator.construct b handle = .error .outOfRange := by
  have hE : Edited b := ⟨asserts, _, hb⟩
  rw [runActs_append, runActs_append, runActs_calls, runActs_calls] at hb
  have g1 := grows_run (b := (Builder.new : Builder D)) (by simp [Builder.new]) asserts ops
    fun op h => hc op (by simp [h])
  set b1 := run asserts ops (Builder.new : Builder D) with hb1
  have hcl : runActs asserts [Act.edit clearWaypoints] b1 = b1.editPath clearWaypoints := rfl
  rw [hcl] at hb
  have g2 := grows_run (b := b1.editPath clearWaypoints)
    (by simp [editPath, clearWaypoints]) asserts ops' fun op h => hc op (by simp [h])
  rw [← hb] at g2
  have l1 := g1.guess
  have c1 := congrArg List.length g1.counts
  have l2 := g2.guess
  have c2 := congrArg List.length g2.counts
  simp only [Builder.new, editPath, clearWaypoints, List.length_nil, List.length_append,
    List.length_replicate, List.nil_append] at l1 c1 l2 c2
  simp only [table] at h2
  obtain ⟨-, -, -, o4, -⟩ := C77_outcomes b hE handle hN
  refine o4 ?_ hd ?_ <;> simp only [table] <;> omega

/-! ### Single members of the drivetrain -/

theorem finish_call (asserts : Bool) (op : Op D) (b : RawBuilder D) :
    ((RawAct.call op).exec asserts b).1.finish = (op.exec asserts b.finish).1 ∧
    ((RawAct.call op).exec asserts b).2 = (op.exec asserts b.finish).2 := by
  by_cases h : ∃ d, op = .setDrivetrain d
  · obtain ⟨d, rfl⟩ := h
    exact ⟨rfl, rfl⟩
  · have e : (RawAct.call op).exec asserts b =
        (⟨⟨(op.exec asserts b.finish).1.path.waypoints, b.path.drivetrain,
            (op.exec asserts b.finish).1.path.callbacks⟩, (op.exec asserts b.finish).1.bumpers,
          (op.exec asserts b.finish).1.initialGuessPoints, (op.exec asserts b.finish).1.controlIntervalCounts⟩,
          (op.exec asserts b.finish).2) := by
      cases op with
      | setDrivetrain d => exact absurd ⟨d, rfl⟩ h
      | _ => rfl
    have hd : (op.exec asserts b.finish).1.path.drivetrain = b.path.drivetrain.finish := by
      have := congrArg (fun x => x.2.1) (exec_extras asserts op b.finish)
      refine this.trans ?_
      cases op with
      | setDrivetrain d => exact absurd ⟨d, rfl⟩ h
      | _ => rfl
    rw [e]
    revert hd
    generalize op.exec asserts b.finish = o
    intro hd
    refine ⟨?_, rfl⟩
    simp only [RawBuilder.finish, RawPath.finish, ← hd]

/-- C77: whatever was done to the path through `GetPath()`, also to single members of the drivetrain, the outcome
is that of a history in which drivetrains are set as a whole; the drivetrain counts as set once both mass and
moment of inertia are.  So `C77_outcomes` and `C77_problem` apply. -/
theorem C77_members (asserts : Bool) (as : List (RawAct D)) :
    let b := runRaw asserts as {}
    Edited b.finish ∧
    ((table b.finish).drivetrain = none ↔ b.path.drivetrain.mass = none ∨ b.path.drivetrain.moi = none) ∧
    (∀ dr, (table b.finish).drivetrain = some dr ↔ b.path.drivetrain.mass = some dr.mass ∧
      b.path.drivetrain.moi = some dr.moi ∧ b.path.drivetrain.modules = dr.modules) ∧
    ∀ op, ((RawAct.call op).exec asserts b).2 = (op.exec asserts b.finish).2 := by
  intro b
  refine ⟨?_, ?_, ?_, fun op => (finish_call asserts op b).2⟩
  · have : ∀ (as : List (RawAct D)) (b : RawBuilder D), ∃ as', (runRaw asserts as b).finish = runActs asserts as' b.finish := by
      intro as
      induction as with
      | nil => exact fun b => ⟨[], rfl⟩
      | cons a as ih =>
        intro b
        obtain ⟨as', h⟩ := ih (a.exec asserts b).1
        cases a with
        | call op =>
          refine ⟨.call op :: as', ?_⟩
          change (runRaw asserts as ((RawAct.call op).exec asserts b).1).finish = _
          rw [h, (finish_call asserts op b).1]
          rfl
        | edit f =>
          refine ⟨.edit (fun _ => (f b.path).finish) :: as', ?_⟩
          change (runRaw asserts as ((RawAct.edit f).exec asserts b).1).finish = _
          rw [h]
          rfl
    obtain ⟨as', h⟩ := this as {}
    exact ⟨asserts, as', h⟩
  · change b.path.drivetrain.finish = none ↔ _
    unfold RawDrivetrain.finish
    cases b.path.drivetrain.mass <;> cases b.path.drivetrain.moi <;> simp
  · intro dr
    obtain ⟨m, i, l⟩ := dr
    change b.path.drivetrain.finish = _ ↔ _
    unfold RawDrivetrain.finish
    cases b.path.drivetrain.mass <;> cases b.path.drivetrain.moi <;> simp

/-- C77, a trap: a caller who sets the modules and the mass but forgets the moment of inertia constructs the generator
with undefined behaviour, however the path looks. -/
theorem C77_forgotten (asserts : Bool) (ops : List (Op D)) (hops : ∀ op ∈ ops, ∀ d, op ≠ .setDrivetrain d) (mass : D)
    (modules : List (SwerveModule D)) (handle : ℤ) (b : RawBuilder D)
    (hb : b = runRaw asserts (ops.map .call ++ [.edit fun p => { p with drivetrain.mass := some mass },
      .edit fun p => { p with drivetrain.modules := modules }]) {})
    (hN : sampleCount (table b.finish).counts < 2 ^ 64)
    (hg : (table b.finish).counts.length < b.finish.initialGuessPoints.length) :
    Generator.construct b.finish handle = .error .ub := by
  have hm := C77_members asserts (ops.map .call ++ [.edit fun p => { p with drivetrain.mass := some mass },
      .edit fun p => { p with drivetrain.modules := modules }])
  rw [← hb] at hm
  refine (C77_outcomes b.finish hm.1 handle hN).2.2.1 hg (hm.2.1.mpr (.inr ?_))
  have : ∀ (ops : List (Op D)), (∀ op ∈ ops, ∀ d, op ≠ .setDrivetrain d) → ∀ b : RawBuilder D,
      (runRaw asserts (ops.map .call) b).path.drivetrain = b.path.drivetrain := by
    intro ops
    induction ops with
    | nil => exact fun _ _ => rfl
    | cons op ops ih =>
      intro h b
      change (runRaw asserts (ops.map .call) ((RawAct.call op).exec asserts b).1).path.drivetrain = _
      rw [ih fun o ho => h o (List.mem_cons_of_mem _ ho)]
      cases op with
      | setDrivetrain d => exact absurd rfl (h _ List.mem_cons_self d)
      | _ => rfl
  rw [hb, runRaw, List.foldl_append]
  change (runRaw asserts (ops.map .call) {}).path.drivetrain.moi = none
  rw [this ops hops]

end AnyScalar

/-- C77: whatever was done to the path through `GetPath()`, if the generator is constructed then its
problem states exactly what the path as it is now asks for: the assignments satisfying all
constraints are the trajectories obeying the table of the builder's current state. -/
theorem C77_problem (b : Builder ℝ) (hb : Edited b) (handle : ℤ)
    (hN : sampleCount (table b).counts < 2 ^ 64)
    (_hradius : ∀ dr, (table b).drivetrain = some dr → ∀ m ∈ dr.modules, m.wheelRadius ≠ 0)
    (g : Generator ℝ) (hg : Generator.construct b handle = .ok g) :
    ∃ dr, (table b).drivetrain = some dr ∧ (table b).counts.length < (table b).waypoints ∧
      (∀ σ, g.problem.Feasible σ ↔ Obeys (table b) dr (decode g.vars σ)) ∧
      (∀ T, Obeys (table b) dr T ↔ ∃ σ, g.problem.Feasible σ ∧
        Traj.Agree (sampleCount (table b).counts) dr.modules.length
          (table b).counts.length (decode g.vars σ) T) := by
  obtain ⟨o1, o2, o3, o4, -⟩ := C77_outcomes b hb handle hN
  have no : ∀ e, Generator.construct b handle ≠ .error e := by
    intro e h; rw [hg] at h; cases h
  have hlt : (table b).counts.length < b.initialGuessPoints.length := by
    by_contra h
    rcases Nat.eq_zero_or_pos b.initialGuessPoints.length with h0 | h0
    · exact no _ (o1 h0)
    · exact no _ (o2 h0 (by omega))
  have hd : (table b).drivetrain ≠ none := fun h => no _ (o3 hlt h)
  have hw : (table b).counts.length < (table b).waypoints := by
    by_contra h
    exact no _ (o4 hlt hd (by omega))
  obtain ⟨dr, hdr⟩ := Option.ne_none_iff_exists'.mp hd
  obtain ⟨sol, h1, h2⟩ := guess_ok_sized (ne_edited hb) hlt hN
  have hc := construct_eq handle hdr hN hw h1 h2
  rw [hg] at hc
  have hc := Except.ok.inj hc
  have hf := feasible_closed b dr sol handle
  rw [← hc] at hf
  refine ⟨dr, hdr, hw, hf, fun T => ?_⟩
  have he := encode_decode dr.modules.length (sampleCount (table b).counts)
    (table b).counts.length T
  have hv : g.vars = closedVars dr.modules.length (sampleCount (table b).counts)
    (List.range' (sampleCount (table b).counts * stride dr.modules.length)
      (table b).counts.length) := by rw [hc]; rfl
  rw [← hv] at he
  refine ⟨fun h => ⟨_, (hf _).mpr ((obeys_congr he).mpr h), he⟩, ?_⟩
  rintro ⟨σ, h1, h2⟩
  exact (obeys_congr h2).mp ((hf σ).mp h1)

/-- A swerve with one module. -/
noncomputable def editRobot : SwerveDrivetrain ℝ := ⟨45, 6, [⟨⟨0.5, 0.5⟩, 0.04, 70, 2⟩]⟩

/-- Change the drivetrain and require the robot to stop at waypoint 1. -/
noncomputable def editStop (p : SwervePath ℝ) : SwervePath ℝ :=
  addInstant 1 (.linearVelocityMaxMagnitude 0) { p with drivetrain := some editRobot }

/-- A history with an edit: a straight path, then `editStop`. -/
noncomputable def editHistory : List (Act ℝ) :=
  (straightOps demoRobot 10 0 0 4 0 0).map .call ++ [.edit editStop]

/-- `C77_outcomes` and `C77_problem` apply: two waypoints, two guess lists, one count, a drivetrain
that came through `GetPath()`.  What was added through `GetPath()` holds in every solution. -/
example : ∃ g, Generator.construct (runActs true editHistory Builder.new) 0 = .ok g ∧
    ∀ σ, g.problem.Feasible σ →
      Meaning (.linearVelocityMaxMagnitude 0) ((decode g.vars σ).state 10) := by
  have hE : Edited (runActs true editHistory (Builder.new : Builder ℝ)) := ⟨_, _, rfl⟩
  obtain ⟨h1, h2, h3, h4, h5, h6⟩ := straight_table demoRobot 10 0 0 4 0 0
  have hg := (wf_reachable (D := ℝ) ⟨true, straightOps demoRobot 10 0 0 4 0 0, rfl⟩).guess
  have he : runActs true editHistory (Builder.new : Builder ℝ) =
      (run true (straightOps demoRobot 10 0 0 4 0 0) Builder.new).editPath editStop := by
    rw [editHistory, runActs_append, runActs_calls]; rfl
  rw [he] at hE ⊢
  generalize run true (straightOps demoRobot 10 0 0 4 0 0) (Builder.new : Builder ℝ) = b at *
  have c1 : (table (b.editPath editStop)).counts = [10] := h2
  have c2 : (table (b.editPath editStop)).waypoints = 2 := by
    rw [← h1]; simp [table, editPath, editStop, addInstant]
  have c3 : (b.editPath editStop).initialGuessPoints.length = 2 := by rw [← h1]; exact hg
  have c4 : (table (b.editPath editStop)).drivetrain = some editRobot := rfl
  have c5 : Constraint.linearVelocityMaxMagnitude 0 ∈ (table (b.editPath editStop)).instant 1 := by
    have hb : 1 < b.path.waypoints.length := by
      have : b.path.waypoints.length = 2 := h1
      omega
    simp [table, editPath, editStop, addInstant, hb]
  obtain ⟨-, -, -, -, o5⟩ := C77_outcomes _ hE 0 (by rw [c1]; simp [sampleCount])
  obtain ⟨g, hc⟩ := o5 (by rw [c1, c3]; simp) (by rw [c4]; simp) (by rw [c1, c2]; simp)
  obtain ⟨dr, -, -, hf, -⟩ := C77_problem _ hE 0 (by rw [c1]; simp [sampleCount]) (by
    intro dr hdr m hm
    rw [c4, Option.some_inj] at hdr
    subst hdr
    simp only [editRobot, List.mem_singleton] at hm
    subst hm
    norm_num) g hc
  refine ⟨g, hc, fun σ hσ => ?_⟩
  have := ((hf σ).mp hσ).instant 1 (by rw [c1]; simp) _ c5
  rwa [c1] at this

/-- Two waypoints, built by calls. -/
noncomputable def twoWpts : List (Op ℝ) := [.poseWpt 0 0 0 0, .poseWpt 1 4 0 0]

/-- The same again, then the drivetrain. -/
noncomputable def twoWptsAgain : List (Op ℝ) := twoWpts ++ [.setDrivetrain editRobot]

theorem poseWpt_length (b : Builder ℝ) (hb : b.path.waypoints.length ≤ 2 ^ 63) (i : ℕ)
    (hi : i < 2 ^ 63) (x y h : ℝ) :
    (b.poseWpt i x y h).1.path.waypoints.length = max b.path.waypoints.length (i + 1) := by
  have hn : ∀ b' : Builder ℝ, b'.path.waypoints.length ≤ 2 ^ 63 →
      (b'.newWpts i).path.waypoints.length = max b'.path.waypoints.length (i + 1) := by
    intro b' hb'
    rw [newWpts_eq hb' hi]
    simp only [grow, List.length_append, List.length_replicate]
    omega
  have h1 := hn b hb
  simp only [poseWpt, wptConstraint, modifyWpt, h1,
    if_pos (show i < max b.path.waypoints.length (i + 1) by omega), andThen]
  unfold wptInitialGuessPoint
  dsimp only
  split <;>
  · dsimp only
    rw [hn _ (by simp only [List.length_modify, h1]; omega)]
    simp only [List.length_modify, h1]
    omega

theorem twoWpts_waypoints : (table (run true twoWpts Builder.new)).waypoints = 2 := by
  simp only [table, run, twoWpts, List.foldl, Op.exec, poseWpt, wptConstraint]
  rfl

theorem finish_append (as : List (RawAct ℝ)) (f g : RawPath ℝ → RawPath ℝ) (b : RawBuilder ℝ) :
    (runRaw true (as ++ [.edit f, .edit g]) b).finish.controlIntervalCounts =
      (runRaw true as b).finish.controlIntervalCounts ∧
    (runRaw true (as ++ [.edit f, .edit g]) b).finish.initialGuessPoints =
      (runRaw true as b).finish.initialGuessPoints := by
  rw [runRaw, List.foldl_append]
  exact ⟨rfl, rfl⟩

theorem finish_calls (ops : List (Op ℝ)) (b : RawBuilder ℝ) :
    (runRaw true (ops.map .call) b).finish = run true ops b.finish := by
  induction ops generalizing b with
  | nil => rfl
  | cons op ops ih =>
    change (runRaw true (ops.map .call) ((RawAct.call op).exec true b).1).finish = _
    rw [ih, (finish_call true op b).1]
    rfl

/-- `C77_forgotten` applies to two waypoints and a robot without moment of inertia. -/
example : Generator.construct (runRaw true (twoWpts.map .call ++
    [.edit fun p => { p with drivetrain.mass := some 4 },
      .edit fun p => { p with drivetrain.modules := editRobot.modules }]) {}).finish 0 = .error .ub := by
  have h : (runRaw true (twoWpts.map .call) {}).finish = run true twoWpts Builder.new := finish_calls ..
  have hg := (wf_reachable (D := ℝ) ⟨true, twoWpts, rfl⟩).guess
  have w1 : (run true twoWpts (Builder.new : Builder ℝ)).path.waypoints.length = 2 := twoWpts_waypoints
  have h1 := (grows_run (b := (Builder.new : Builder ℝ)) (by simp [Builder.new]) true twoWpts
    fun op h => by simp only [twoWpts, List.mem_cons, List.not_mem_nil, or_false] at h; rcases h with rfl | rfl <;> simp).counts
  rw [w1] at h1
  have c : (run true twoWpts (Builder.new : Builder ℝ)).controlIntervalCounts = [40] := by
    rw [h1]; simp [Builder.new]
  refine C77_forgotten true twoWpts (by simp [twoWpts]) 4 editRobot.modules 0 _ rfl ?_ ?_
  · simp only [table]
    rw [(finish_append ..).1, h, c]
    simp [sampleCount]
  · simp only [table]
    rw [(finish_append ..).1, (finish_append ..).2, h, hg, w1, c]
    simp

/-- `C77_rebuilt` applies to building, clearing and building the same two waypoints again. -/
example : Generator.construct (runActs true (twoWpts.map .call ++ [.edit clearWaypoints] ++
    twoWptsAgain.map .call) (Builder.new : Builder ℝ)) 0 = .error .outOfRange := by
  have hc : ∀ op ∈ twoWpts ++ twoWptsAgain, ∀ cs, op ≠ .controlIntervalCounts cs := by
    simp [twoWpts, twoWptsAgain]
  refine C77_rebuilt true twoWpts twoWptsAgain hc (by rw [twoWpts_waypoints]) _ rfl ?_ ?_ 0
  · rw [runActs_append, runActs_calls]
    simp [table, run, twoWptsAgain, List.foldl_append, Op.exec, setDrivetrain]
  · have : (table (runActs true (twoWpts.map .call ++ [.edit clearWaypoints] ++
        twoWptsAgain.map .call) (Builder.new : Builder ℝ))).counts = [40, 40] := by
      rw [runActs_append, runActs_append, runActs_calls, runActs_calls]
      have h1 := grows_run (b := (Builder.new : Builder ℝ)) (by simp [Builder.new]) true twoWpts
        fun op h => hc op (by simp [h])
      have w1 : (run true twoWpts (Builder.new : Builder ℝ)).path.waypoints.length = 2 :=
        twoWpts_waypoints
      generalize run true twoWpts (Builder.new : Builder ℝ) = b1 at *
      have h2 := grows_run (b := b1.editPath clearWaypoints)
        (by simp [editPath, clearWaypoints]) true twoWptsAgain fun op h => hc op (by simp [h])
      have w2 : (run true twoWptsAgain (b1.editPath clearWaypoints)).path.waypoints.length = 2 := by
        simp only [run, twoWptsAgain, twoWpts, List.cons_append, List.nil_append, List.foldl_cons,
          List.foldl_nil, Op.exec, setDrivetrain]
        have e := poseWpt_length (b1.editPath clearWaypoints)
          (by simp [editPath, clearWaypoints]) 0 (by norm_num) 0 0 0
        rw [poseWpt_length _ (by rw [e]; simp [editPath, clearWaypoints]) 1 (by norm_num), e]
        simp [editPath, clearWaypoints]
      have c1 := h1.counts
      have c2 := h2.counts
      rw [w1] at c1
      rw [w2] at c2
      simp only [table, runActs, List.foldl_cons, List.foldl_nil, Act.exec]
      rw [c2]
      simp only [editPath]
      rw [c1]
      simp [clearWaypoints, Builder.new]
    rw [this]
    simp [sampleCount]

end Trajopt.Props
