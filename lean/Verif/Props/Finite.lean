import Verif.Lemmas.WidePath
import Verif.Lemmas.WideProblem
import Verif.Props.Wide
import Verif.Props.InitialGuess
import Verif.Props.Trajectory
import Verif.Props.Examples

/-!
# C93: programs with finite numbers

Which special values arise when all numbers a program passes are finite.
-/

set_option autoImplicit false

namespace Trajopt.Props

open Trajopt Spec Wide

/-- C93: a call with finite arguments has the same outcome, and leaves the same data, with special values
as with reals. -/
theorem C93_calls (asserts : Bool) (op : Op ℝ) (b : Builder ℝ) :
    ((Op.wide op).exec asserts (Builder.wide b)).1 = Builder.wide (op.exec asserts b).1 ∧
    ((Op.wide op).exec asserts (Builder.wide b)).2 = (op.exec asserts b).2 := by
  rw [wide_exec]
  exact ⟨rfl, rfl⟩

/-- C93: programs with finite numbers leave builders with finite numbers. -/
theorem C93_program (asserts : Bool) (ops : List (Op ℝ)) :
    run asserts (ops.map Op.wide) Builder.new = Builder.wide (run asserts ops Builder.new) :=
  wide_run asserts ops Builder.new

/-- C93: the initial guess of such a builder is finite. -/
theorem C93_guess (b : Builder ℝ) :
    (Builder.wide b).calculateInitialGuess = b.calculateInitialGuess.map SwerveSolution.wide :=
  wide_guess b.initialGuessPoints b.controlIntervalCounts

theorem reachable_wide {b : Builder ℝ} (hb : Reachable b) : Reachable (Builder.wide b) := by
  obtain ⟨asserts, ops, rfl⟩ := hb
  exact ⟨asserts, ops.map Op.wide, (C93_program asserts ops).symm⟩

theorem ready_wide {b : Builder ℝ} {dr : SwerveDrivetrain ℝ} (hr : Ready b dr) :
    Ready (Builder.wide b) dr.wide := by
  refine ⟨?_, ?_, hr.size⟩
  · change b.path.drivetrain.map SwerveDrivetrain.wide = _
    rw [show b.path.drivetrain = some dr from hr.drivetrain]
    rfl
  · change _ < (b.path.waypoints.map Waypoint.wide).length
    rw [List.length_map]
    exact hr.counts

/-- Both generators. -/
theorem construct_wide {b : Builder ℝ} (hb : Reachable b) {dr : SwerveDrivetrain ℝ} (hr : Ready b dr)
    (handle : ℤ) : ∃ sol, GuessSized sol (1 + b.controlIntervalCounts.sum) ∧
      (∀ d ∈ sol.dt, d ≠ 0) ∧
      Generator.construct b handle = .ok (closedGenerator b.path dr b.controlIntervalCounts sol handle) ∧
      Generator.construct (Builder.wide b) handle = .ok (closedGenerator (Builder.wide b).path dr.wide
        b.controlIntervalCounts (SwerveSolution.wide sol) handle) := by
  obtain ⟨sol, h1, h2, h3⟩ := construct_closed hb hr handle
  obtain ⟨sol', h1', -, h3'⟩ := construct_closed (reachable_wide hb) (ready_wide hr) handle
  rw [C93_guess, h1] at h1'
  obtain rfl := Except.ok.inj h1'
  refine ⟨sol, h2, fun d hd => ?_, h3, h3'⟩
  rw [(C04_guess_times _ _ sol h1 hr.size).1 d hd, sampleCount]
  positivity

/-- C93: the generator has the same variables, and finite values satisfy its constraints with special
values exactly when they do with reals. -/
theorem C93_problem (b : Builder ℝ) (hb : Reachable b) (dr : SwerveDrivetrain ℝ) (hr : Ready b dr)
    (hradius : ∀ m ∈ dr.modules, m.wheelRadius ≠ 0) (handle : ℤ) :
    ∃ g g', Generator.construct b handle = .ok g ∧
      Generator.construct (Builder.wide b) handle = .ok g' ∧
      g'.vars = g.vars ∧ g'.problem.nvars = g.problem.nvars ∧
      ∀ σ : ℕ → ℝ, (∀ c ∈ g'.problem.cons, c.Test (finite σ)) ↔ g.problem.Feasible σ := by
  obtain ⟨sol, -, -, h, h'⟩ := construct_wide hb hr handle
  have hm : dr.wide.modules.length = dr.modules.length := List.length_map ..
  have hv : (closedGenerator (Builder.wide b).path dr.wide b.controlIntervalCounts
      (SwerveSolution.wide sol) handle).vars =
      (closedGenerator b.path dr b.controlIntervalCounts sol handle).vars := by
    simp only [closedGenerator, hm]
  refine ⟨_, _, h, h', hv, by simp only [closedGenerator, hm], fun σ => ?_⟩
  rw [feasible_closed b dr sol handle σ, ← hv]
  refine (testW_closed (Builder.wide b) dr.wide (SwerveSolution.wide sol) handle σ).trans ?_
  refine C88_finite _ _ dr hradius rfl ?_ ?_ _ <;> intro w <;>
    simp only [Spec.table, Builder.wide, SwervePath.wide, List.getD_eq_getElem?_getD, List.getElem?_map]
  · cases b.path.waypoints[w]? <;> rfl
  · cases b.path.waypoints[w + 1]? <;> rfl

theorem totalTimeExpr_wide (dts : List (ℕ × ℕ)) (acc : Expr ℝ) :
    totalTimeExpr dts (acc.map fin) = (totalTimeExpr dts acc).map fin := by
  induction dts generalizing acc with
  | nil => rfl
  | cons x dts ih =>
    rw [totalTimeExpr, totalTimeExpr, List.foldl_cons, List.foldl_cons]
    exact ih (acc + .var x.1 * .const (Dbl.ofInt (toInt32 x.2)))

theorem totalTimeExpr_defined (σ : ℕ → ℝ) (dts : List (ℕ × ℕ)) (acc : Expr ℝ) (h : acc.Defined σ) :
    (totalTimeExpr dts acc).Defined σ := by
  induction dts generalizing acc with
  | nil => exact h
  | cons x dts ih =>
    rw [totalTimeExpr, List.foldl_cons]
    exact ih _ ⟨h, trivial, trivial⟩

/-- C93: if every segment has a control interval, solving starts from finite values, the ones of real
arithmetic, and so does the objective. -/
theorem C93_start_partial (b : Builder ℝ) (hb : Reachable b) (dr : SwerveDrivetrain ℝ) (hr : Ready b dr)
    (hN : ∀ n ∈ (table b).counts, 0 < n) (handle : ℤ) :
    ∃ g g' cost cost', Generator.construct b handle = .ok g ∧
      Generator.construct (Builder.wide b) handle = .ok g' ∧
      (∀ v, g'.problem.values v = fin (g.problem.values v)) ∧
      g.problem.cost = some cost ∧ g'.problem.cost = some cost' ∧
      cost'.value g'.problem.values = fin (cost.eval g.problem.values) := by
  obtain ⟨sol, hs, hdt, h, h'⟩ := construct_wide hb hr handle
  have hm : dr.wide.modules.length = dr.modules.length := List.length_map ..
  have hv : ∀ v, (closedGenerator (Builder.wide b).path dr.wide b.controlIntervalCounts
      (SwerveSolution.wide sol) handle).problem.values v =
      fin ((closedGenerator b.path dr b.controlIntervalCounts sol handle).problem.values v) := by
    intro v
    simp only [closedGenerator, hm]
    refine wide_guessValues (fun n hn => ?_) _ v ?_
    · rw [getD_lt (hs.dt ▸ hn)]
      exact hdt _ (List.getElem_mem _)
    · exact wide_dtValues _ (fun x hx => hN _ (List.of_mem_zip hx).2) (fun _ => Num.lit 0) v
  refine ⟨_, _, _, _, h, h', hv, rfl, rfl, ?_⟩
  rw [show (closedGenerator (Builder.wide b).path dr.wide b.controlIntervalCounts
      (SwerveSolution.wide sol) handle).problem.values = finite _ from funext hv]
  simp only [hm]
  refine Eq.trans ?_ (value_map _ _ (totalTimeExpr_defined _ _ (.const (Num.lit 0)) trivial))
  rw [← totalTimeExpr_wide]
  rfl

theorem totalTimeExpr_nan (σ : ℕ → Wide) (dts : List (ℕ × ℕ)) (acc : Expr Wide)
    (h : acc.value σ = nan ∨ ∃ x ∈ dts, x.2 = 0 ∧ σ x.1 = inf false) :
    (totalTimeExpr dts acc).value σ = nan := by
  induction dts generalizing acc with
  | nil =>
    rcases h with h | ⟨x, hx, -⟩
    · exact h
    · simp at hx
  | cons x dts ih =>
    rw [totalTimeExpr, List.foldl_cons]
    refine ih _ ?_
    change acc.value σ + σ x.1 * fin ((toInt32 x.2 : ℤ) : ℝ) = nan ∨ _
    rcases h with h | ⟨y, hy, h0, h1⟩
    · left; rw [h, nan_add]
    · rcases List.mem_cons.mp hy with rfl | hy
      · left
        rw [h0, h1, show ((toInt32 0 : ℤ) : ℝ) = 0 by norm_num [toInt32], inf_mul_fin, if_pos rfl, add_nan]
      · exact .inr ⟨y, hy, h0, h1⟩

/-- C93, refuted for segments without control intervals: their time step starts at `5.0 / 0`, infinity,
and the objective, which multiplies it by zero, starts at NaN. -/
theorem C93_refuted (b : Builder ℝ) (hb : Reachable b) (dr : SwerveDrivetrain ℝ) (hr : Ready b dr)
    (s : ℕ) (hs : (table b).counts[s]? = some 0) (handle : ℤ) :
    ∃ g' d cost', Generator.construct (Builder.wide b) handle = .ok g' ∧
      g'.vars.dt[s]? = some d ∧ g'.problem.values d = inf false ∧
      g'.problem.cost = some cost' ∧ cost'.value g'.problem.values = nan := by
  obtain ⟨sol, -, -, -, h'⟩ := construct_wide hb hr handle
  obtain ⟨hl, hs⟩ := List.getElem?_eq_some_iff.mp hs
  change s < b.controlIntervalCounts.length at hl
  change b.controlIntervalCounts[s] = 0 at hs
  have hv : (closedGenerator (Builder.wide b).path dr.wide b.controlIntervalCounts
      (SwerveSolution.wide sol) handle).problem.values
      ((1 + b.controlIntervalCounts.sum) * stride dr.wide.modules.length + s) = inf false := by
    simp only [closedGenerator, guessValues]
    have hd : 1 + b.controlIntervalCounts.sum ≤
        ((1 + b.controlIntervalCounts.sum) * stride dr.wide.modules.length + s) /
          stride dr.wide.modules.length :=
      (Nat.le_div_iff_mul_le (by unfold stride; omega)).mpr (by omega)
    rw [if_neg (by omega), dtValues_at _ _ _ s hl, hs]
    change fin ((5 : ℚ) : ℝ) / fin (((0 : ℕ) : ℤ) : ℝ) = _
    rw [fin_div, if_pos (by simp), if_neg (by norm_num), below]
    norm_num
  refine ⟨_, (1 + b.controlIntervalCounts.sum) * stride dr.wide.modules.length + s, _, h', ?_, hv, rfl, ?_⟩
  · simp [closedGenerator, closedVars, hl]
  · refine totalTimeExpr_nan _ _ _ (.inr ⟨(_, 0), ?_, rfl, hv⟩)
    refine List.mem_iff_getElem.mpr ⟨s, by simpa using hl, ?_⟩
    simp [hs]

/-- C93: solving starts from finite values exactly if every segment has a control interval. -/
theorem C93_start_iff (b : Builder ℝ) (hb : Reachable b) (dr : SwerveDrivetrain ℝ) (hr : Ready b dr)
    (handle : ℤ) : ∃ g', Generator.construct (Builder.wide b) handle = .ok g' ∧
      ((∀ v < g'.problem.nvars, ∃ r, g'.problem.values v = fin r) ↔ ∀ n ∈ (table b).counts, 0 < n) := by
  obtain ⟨sol, -, -, -, h'⟩ := construct_wide hb hr handle
  refine ⟨_, h', fun h n hn => ?_, fun h v _ => ?_⟩
  · by_contra h0
    obtain rfl : n = 0 := by omega
    obtain ⟨s, hs⟩ := List.mem_iff_getElem?.mp hn
    obtain ⟨g', d, cost', hg, hd, hv, -⟩ := C93_refuted b hb dr hr s hs handle
    rw [h'] at hg
    obtain rfl := Except.ok.inj hg
    obtain ⟨hl, rfl⟩ := List.getElem?_eq_some_iff.mp hd
    obtain ⟨r, hr⟩ := h (((1 + b.controlIntervalCounts.sum) * stride dr.wide.modules.length) + s) (by
      have : s < b.controlIntervalCounts.length := by simpa [closedGenerator, closedVars] using hl
      simpa [closedGenerator] using this)
    rw [show ((closedGenerator (Builder.wide b).path dr.wide b.controlIntervalCounts
      (SwerveSolution.wide sol) handle).vars.dt)[s] =
      ((1 + b.controlIntervalCounts.sum) * stride dr.wide.modules.length) + s by
        simp [closedGenerator, closedVars]] at hv
    rw [hr] at hv
    cases hv
  · obtain ⟨g, g', cost, cost', -, hg, hv, -⟩ := C93_start_partial b hb dr hr h handle
    rw [h'] at hg
    obtain rfl := Except.ok.inj hg
    exact ⟨_, hv v⟩

/-- The hypotheses can be met: two poses with `n` control intervals between them. -/
theorem between (n : ℕ) (hn : n < 1000) : ∃ b, Reachable b ∧ Ready b shippedRobot ∧ (table b).counts = [n] := by
  let ops : List (Op ℝ) := [.setDrivetrain shippedRobot, .poseWpt 0 0 0 0, .poseWpt 1 1 0 0,
    .controlIntervalCounts [n]]
  have h : PathTable.AcceptsAll true PathTable.empty ops := by
    simp [ops, PathTable.AcceptsAll, PathTable.Accepts]
  obtain ⟨e, hr⟩ := ready_of (dr := shippedRobot) h _ rfl
    (by simp [ops, PathTable.afterAll, PathTable.after, PathTable.reach, PathTable.requireAt,
      PathTable.guessAt])
    (by simp [ops, PathTable.afterAll, PathTable.after, PathTable.reach, PathTable.requireAt,
      PathTable.guessAt])
    (by
      simp only [ops, PathTable.afterAll, PathTable.after, sampleCount, List.sum_cons, List.sum_nil]
      omega)
  refine ⟨_, ⟨true, ops, rfl⟩, hr, ?_⟩
  rw [e]
  simp [ops, PathTable.afterAll, PathTable.after]

/-- With 40 control intervals everything starts finite. -/
example : ∃ b g', Reachable b ∧ Generator.construct (Builder.wide b) 0 = .ok g' ∧
    ∀ v < g'.problem.nvars, ∃ r, g'.problem.values v = fin r := by
  obtain ⟨b, hb, hr, hN⟩ := between 40 (by norm_num)
  obtain ⟨g', hg, h⟩ := C93_start_iff b hb _ hr 0
  exact ⟨b, g', hb, hg, h.mpr (by simp [hN])⟩

/-- Without, the objective starts at NaN. -/
example : ∃ b g' cost', Reachable b ∧ Generator.construct (Builder.wide b) 0 = .ok g' ∧
    g'.problem.cost = some cost' ∧ cost'.value g'.problem.values = nan := by
  obtain ⟨b, hb, hr, hN⟩ := between 0 (by norm_num)
  obtain ⟨g', -, cost', hg, -, -, hc, h⟩ := C93_refuted b hb _ hr 0 (by simp [hN]) 0
  exact ⟨b, g', cost', hb, hg, hc, h⟩

end Trajopt.Props
