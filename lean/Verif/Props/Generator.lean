import Verif.Lemmas.Refinement
import Verif.Lemmas.Builder
import Verif.Props.InitialGuess
import Verif.Props.Builder

/-!
# C29–C31, C44 The generated problem

`Spec.Obeys` (`Spec/Trajectory.lean`) is the optimal control problem in mathematical terms;
`decode` reads a trajectory off an assignment of the decision variables.
-/

set_option autoImplicit false

namespace Trajopt.Props

open Spec Builder

/-- The trajectory that an assignment of the generator's decision variables stands for. -/
noncomputable def decode (vs : Vars) (σ : ℕ → ℝ) : Traj where
  state n :=
    { pos := ⟨σ (vs.x.getD n 0), σ (vs.y.getD n 0)⟩
      heading := ⟨σ (vs.thetacos.getD n 0), σ (vs.thetasin.getD n 0)⟩
      vel := ⟨σ (vs.vx.getD n 0), σ (vs.vy.getD n 0)⟩
      acc := ⟨σ (vs.ax.getD n 0), σ (vs.ay.getD n 0)⟩
      omega := σ (vs.omega.getD n 0)
      alpha := σ (vs.alpha.getD n 0) }
  force n j := ⟨σ ((vs.Fx.getD n []).getD j 0), σ ((vs.Fy.getD n []).getD j 0)⟩
  dt s := σ (vs.dt.getD s 0)

section AnyScalar
variable {D : Type} [Dbl D]

/-- The builder can be turned into a generator: a drivetrain, and a waypoint at the end of every
segment. -/
structure Ready (b : Builder D) (dr : SwerveDrivetrain D) : Prop where
  drivetrain : (table b).drivetrain = some dr
  counts : (table b).counts.length < (table b).waypoints
  size : sampleCount (table b).counts < 2 ^ 64

theorem guess_ok {b : Builder D} (hb : WF b)
    (hw : b.controlIntervalCounts.length < b.path.waypoints.length)
    (hN : 1 + b.controlIntervalCounts.sum < 2 ^ 64) :
    ∃ sol, b.calculateInitialGuess = .ok sol ∧
      GuessSized sol (1 + b.controlIntervalCounts.sum) := by
  have hok : GuessOk b.initialGuessPoints b.controlIntervalCounts := by
    intro i hi
    exact guess_some hb (by omega)
  have h := generate_eq_ok hok (C01_sample_count b.controlIntervalCounts hN)
  refine ⟨_, h, ?_⟩
  obtain ⟨h1, h2, h3, h4, h5⟩ := C04_guess_lengths _ _ _ h hN
  exact ⟨h1, h2, h3, h4, h5⟩

/-- What the constructor builds. -/
theorem construct_closed {b : Builder D} {dr : SwerveDrivetrain D} (hb : Reachable b)
    (hr : Ready b dr) (handle : ℤ) :
    ∃ sol, b.calculateInitialGuess = .ok sol ∧
      GuessSized sol (1 + b.controlIntervalCounts.sum) ∧
      Generator.construct b handle =
        .ok (closedGenerator b.path dr b.controlIntervalCounts sol handle) := by
  obtain ⟨sol, h1, h2⟩ := guess_ok (wf_reachable hb) hr.counts hr.size
  exact ⟨sol, h1, h2, construct_eq handle hr.drivetrain hr.size hr.counts h1 h2⟩

/-- C30: on every reachable builder (with fewer than 2^64 samples) construction of the generator
succeeds, throws `out_of_range` or is undefined, and which one is decided by the number of
waypoints and counts and the presence of a drivetrain. -/
theorem C30_outcomes (b : Builder D) (hb : Reachable b) (handle : ℤ)
    (hN : sampleCount (table b).counts < 2 ^ 64) :
    ((table b).waypoints = 0 → Generator.construct b handle = .error .ub) ∧
    (0 < (table b).waypoints → (table b).waypoints ≤ (table b).counts.length →
      Generator.construct b handle = .error .outOfRange) ∧
    ((table b).counts.length < (table b).waypoints → (table b).drivetrain = none →
      Generator.construct b handle = .error .ub) ∧
    ((table b).counts.length < (table b).waypoints → (table b).drivetrain ≠ none →
      ∃ g, Generator.construct b handle = .ok g) := by
  have wf := wf_reachable hb
  simp only [table] at hN ⊢
  have hidx : getIndex b.controlIntervalCounts (b.controlIntervalCounts.length + 1) 0 =
      .ok (1 + b.controlIntervalCounts.sum) := C01_sample_count b.controlIntervalCounts hN
  refine ⟨?_, ?_, ?_, ?_⟩
  · intro h
    have hg : b.initialGuessPoints = [] := by
      rw [← List.length_eq_zero_iff, wf.guess]; exact h
    simp only [Generator.construct, Builder.calculateInitialGuess, generateLinearInitialGuess, hidx,
      hg, Except.ok_bind]
    rfl
  · intro h0 h
    obtain ⟨k, hk⟩ : ∃ k, b.path.waypoints.length = k + 1 := ⟨_, (Nat.succ_pred_eq_of_pos h0).symm⟩
    obtain ⟨p, ps, hp⟩ := guess_some wf h0
    have hlen : b.initialGuessPoints.length = k + 1 := by rw [wf.guess, hk]
    have hseg : (List.range' 1 (b.controlIntervalCounts.length + 1 - 1)).mapM
        (guessSegment b.initialGuessPoints b.controlIntervalCounts) = .error .outOfRange := by
      obtain ⟨r, hr⟩ : ∃ r, b.controlIntervalCounts.length = k + (1 + r) :=
        ⟨b.controlIntervalCounts.length - (k + 1), by omega⟩
      rw [Nat.add_sub_cancel, hr, ← List.range'_append_1, Nat.add_comm 1 r, List.range'_succ]
      refine mapM_error (g := fun w => segClosed (lastGuess b.initialGuessPoints (w - 1))
        (b.initialGuessPoints.getD w []) (b.controlIntervalCounts.getD (w - 1) 0)) ?_ ?_
      · intro w hw
        rw [List.mem_range'_1] at hw
        obtain ⟨q, qs, hq⟩ := guess_some wf (i := w) (by omega)
        obtain ⟨q', qs', hq'⟩ := guess_some wf (i := w - 1) (by omega)
        have hN' : w - 1 < b.controlIntervalCounts.length := by omega
        rw [guessSegment_ok (n := b.controlIntervalCounts.getD (w - 1) 0) (cur := q :: qs)
          (prevl := q' :: qs') (prev := (q' :: qs').getLast (by simp))
          (by rw [getD_lt hN', List.getElem?_eq_getElem hN']) hq hq'
          (List.getLast?_eq_some_getLast _) (by simp)]
        simp only [lastGuess, List.getD, hq, hq', Option.getD_some]
        congr 2
      · have h2 : vat b.initialGuessPoints (1 + k) = .error .outOfRange := vat_error (by omega)
        simp only [guessSegment, vat_ok (show 1 + k - 1 < b.controlIntervalCounts.length by omega),
          Except.ok_bind, h2, Except.error_bind]
    obtain ⟨l, ls, hl⟩ := List.exists_cons_of_length_eq_add_one hlen
    have hl' : l = p :: ps := by rw [hl] at hp; simpa using hp
    simp only [Generator.construct, Builder.calculateInitialGuess, generateLinearInitialGuess, hidx,
      Except.ok_bind, vfront_ok (show b.initialGuessPoints.head? = some l by rw [hl]; rfl),
      vfront_ok (show l.head? = some p by rw [hl']; rfl), hseg, Except.error_bind]
  · intro h hd
    obtain ⟨sol, hg, hs⟩ := guess_ok wf h hN
    have hm : b.path.modules = [] := by simp [SwervePath.modules, hd]
    rw [Nat.add_comm] at hidx
    simp only [Generator.construct, hg, Except.ok_bind, hidx, hm, allocSamples_eq, allocDts_eq,
      totalTime_eq, List.nil_append, List.length_nil]
    rw [show ∀ dts, ({ closedVars 0 (1 + b.controlIntervalCounts.sum) [] with
      dt := dts } : Vars) = closedVars 0 (1 + b.controlIntervalCounts.sum) dts from
      fun _ => rfl, kinematics_eq _ _ _ hN (by simp), Except.ok_bind, Nat.add_comm 1,
      List.range_succ_eq_map, List.mapM_cons, dynamicsAt_ub hd _ (by omega)]
    rfl
  · intro h hd
    obtain ⟨dr, hd⟩ := Option.ne_none_iff_exists'.mp hd
    obtain ⟨sol, h1, h2⟩ := guess_ok wf h hN
    exact ⟨_, construct_eq handle hd hN h h1 h2⟩

/-- C44: the shape and contents of the solution read off the decision variables, whatever their
current values `v`. -/
theorem C44_solution (b : Builder D) (hb : Reachable b) (dr : SwerveDrivetrain D) (hr : Ready b dr)
    (handle : ℤ) (g : Generator D) (hg : Generator.construct b handle = .ok g) (v : ℕ → D) :
    ∃ sol, ({ g with problem := { g.problem with values := v } }).constructSwerveSolution = .ok sol ∧
      sol.dt.length = (table b).counts.sum ∧
      sol.x = g.vars.x.map v ∧ sol.y = g.vars.y.map v ∧
      sol.thetacos = g.vars.thetacos.map v ∧ sol.thetasin = g.vars.thetasin.map v ∧
      sol.vx = g.vars.vx.map v ∧ sol.vy = g.vars.vy.map v ∧ sol.omega = g.vars.omega.map v ∧
      sol.ax = g.vars.ax.map v ∧ sol.ay = g.vars.ay.map v ∧ sol.alpha = g.vars.alpha.map v ∧
      sol.moduleFX = g.vars.Fx.map (·.map v) ∧ sol.moduleFY = g.vars.Fy.map (·.map v) ∧
      (∀ l ∈ [sol.x, sol.y, sol.thetacos, sol.thetasin, sol.vx, sol.vy, sol.omega, sol.ax, sol.ay,
        sol.alpha], l.length = sampleCount (table b).counts) ∧
      (∀ l ∈ [sol.moduleFX, sol.moduleFY], l.length = sampleCount (table b).counts ∧
        ∀ row ∈ l, row.length = dr.modules.length) ∧
      (∀ s < (table b).counts.length, ∀ n ∈ segmentSamples (table b).counts s,
        ∃ dt, g.vars.dt[s]? = some dt ∧ sol.dt[n - 1]? = some (v dt)) := by
  obtain ⟨guess, -, -, hc⟩ := construct_closed hb hr handle
  rw [hc] at hg
  have hg := Except.ok.inj hg
  subst hg
  have hdt : (List.range b.controlIntervalCounts.length).mapM (fun sgmtIndex => (do
      let nSgmt ← vat b.controlIntervalCounts sgmtIndex
      let dt ← vat (List.range' ((1 + b.controlIntervalCounts.sum) * stride dr.modules.length)
        b.controlIntervalCounts.length) sgmtIndex
      return List.replicate nSgmt (v dt) : Res (List D))) =
      .ok ((List.range b.controlIntervalCounts.length).map fun s =>
        List.replicate (b.controlIntervalCounts.getD s 0)
          (v ((1 + b.controlIntervalCounts.sum) * stride dr.modules.length + s))) := by
    apply mapM_ok
    intro s hs
    rw [List.mem_range] at hs
    rw [vat_ok hs, Except.ok_bind, vat_ok (by simpa using hs), Except.ok_bind, getD_lt hs]
    simp [pure, Except.pure]
  have hsum := range_sum_take b.controlIntervalCounts b.controlIntervalCounts.length (le_refl _)
  rw [List.take_length] at hsum
  simp only [Generator.constructSwerveSolution, closedGenerator, hdt, closedVars]
  refine ⟨_, rfl, ?_, rfl, rfl, rfl, rfl, rfl, rfl, rfl, rfl, rfl, rfl, rfl, rfl, ?_, ?_, ?_⟩
  · simp only [List.length_flatten, List.map_map, Function.comp_def, List.length_replicate]
    exact hsum
  · intro l hl
    simp only [List.mem_cons, List.not_mem_nil, or_false] at hl
    rcases hl with rfl | rfl | rfl | rfl | rfl | rfl | rfl | rfl | rfl | rfl <;>
      simp [rowSolutionValue, sampleCount, table]
  · intro l hl
    simp only [List.mem_cons, List.not_mem_nil, or_false] at hl
    rcases hl with rfl | rfl <;>
      simp [matrixSolutionValue, rowSolutionValue, sampleCount, table]
  · intro s hs n hn
    simp only [table] at hs hn
    simp only [segmentSamples, waypointSample, Finset.mem_Ioc] at hn
    rw [sum_take_succ _ hs] at hn
    refine ⟨(1 + b.controlIntervalCounts.sum) * stride dr.modules.length + s, by simp [hs], ?_⟩
    have key := flatten_getElem? ((List.range b.controlIntervalCounts.length).map fun s =>
        List.replicate (b.controlIntervalCounts.getD s 0)
          (v ((1 + b.controlIntervalCounts.sum) * stride dr.modules.length + s))) s
      (n - 1 - (b.controlIntervalCounts.take s).sum) (by simpa using hs)
      (by simp [List.getD, hs]; omega)
    rw [sum_map_length_take_range _ (fun s => b.controlIntervalCounts.getD s 0) (by simp) _ _
      (by omega), range_sum_take _ _ (by omega),
      show (b.controlIntervalCounts.take s).sum + (n - 1 - (b.controlIntervalCounts.take s).sum)
        = n - 1 by omega] at key
    rw [key]
    simp only [List.getElem_map, List.getElem_range, getD_lt hs, List.getElem?_replicate]
    rw [if_pos (by omega)]

end AnyScalar

/-- Obeying a path depends only on the samples, modules and segments there are. -/
theorem obeys_congr {t : PathTable ℝ} {dr : SwerveDrivetrain ℝ} {T T' : Traj}
    (h : Traj.Agree (sampleCount t.counts) dr.modules.length t.counts.length T T') :
    Obeys t dr T ↔ Obeys t dr T' := by
  have key : ∀ {T T' : Traj},
      Traj.Agree (sampleCount t.counts) dr.modules.length t.counts.length T T' →
      Obeys t dr T → Obeys t dr T' := by
    intro T T' h o
    have hs : ∀ s < t.counts.length, ∀ n ∈ segmentSamples t.counts s, n < sampleCount t.counts := by
      intro s hs n hn
      rw [segmentSamples, Finset.mem_Ioc, waypointSample, waypointSample] at hn
      have := sum_take_le t.counts (s + 1)
      simp only [sampleCount]; omega
    constructor
    · intro s hs' n hn
      have := hs s hs' n hn
      rw [← h.state n this, ← h.state (n - 1) (by omega), ← h.dt s hs']
      exact o.interval s hs' n hn
    · intro n hn
      have hd := o.dynamics n hn
      rw [← h.state n hn]
      refine ⟨?_, ?_, hd.speed, ?_⟩
      · rw [← hd.force]
        exact Finset.sum_congr rfl fun j _ => (h.force n hn j j.2).symm
      · rw [← hd.torque]
        exact Finset.sum_congr rfl fun j _ => by rw [h.force n hn j j.2]
      · intro j
        rw [← h.force n hn j j.2]
        exact hd.limit j
    · intro s hs; rw [← h.dt s hs]; exact o.time s hs
    · intro s hs; rw [← h.dt s hs]; exact o.stepCap s hs
    · intro w hw c hc
      have := sum_take_le t.counts w
      rw [← h.state _ (by simp only [sampleCount, waypointSample]; omega)]
      exact o.instant w hw c hc
    · intro s hs' c hc n hn
      rw [← h.state n (hs s hs' n hn)]
      exact o.continuous s hs' c hc n hn
  exact ⟨key h, key ⟨fun n hn => (h.state n hn).symm, fun n hn j hj => (h.force n hn j hj).symm,
    fun s hs => (h.dt s hs).symm⟩⟩

theorem decode_state (m S : ℕ) (dts : List ℕ) (σ : ℕ → ℝ) {n : ℕ} (hn : n < S) :
    (decode (closedVars m S dts) σ).state n = decodeSample σ (sampleVars m n) := by
  simp [decode, closedVars, hn, decodeSample, evalVec, sampleVars]

theorem decode_force (m S : ℕ) (dts : List ℕ) (σ : ℕ → ℝ) {n j : ℕ} (hn : n < S) (hj : j < m) :
    (decode (closedVars m S dts) σ).force n j = forceOf σ m n j := by
  simp [decode, closedVars, hn, hj, forceOf]

theorem mem_segmentSamples {N : List ℕ} {s : ℕ} (hs : s < N.length) {n : ℕ} :
    n ∈ segmentSamples N s ↔ ∃ k < N[s], n = (N.take s).sum + 1 + k := by
  rw [segmentSamples, waypointSample, waypointSample, sum_take_succ N hs, Finset.mem_Ioc]
  constructor
  · intro h
    exact ⟨n - (N.take s).sum - 1, by omega, by omega⟩
  · rintro ⟨k, hk, rfl⟩; omega

theorem feasible_closed (b : Builder ℝ) (dr : SwerveDrivetrain ℝ) (sol : SwerveSolution ℝ)
    (handle : ℤ) (σ : ℕ → ℝ) :
    (closedGenerator b.path dr b.controlIntervalCounts sol handle).problem.Feasible σ ↔
      Obeys (table b) dr (decode (closedGenerator b.path dr b.controlIntervalCounts sol handle).vars
        σ) := by
  set N := b.controlIntervalCounts with hN
  set m := dr.modules.length with hm
  have hcounts : (table b).counts = N := rfl
  simp only [closedGenerator, Problem.Feasible, allCons, List.forall_mem_append, ← hm]
  have hdt : ∀ s < N.length, (List.range' ((1 + N.sum) * stride m) N.length).getD s 0 =
      (1 + N.sum) * stride m + s := by
    intro s hs
    rw [getD_lt (by simpa using hs)]; simp
  -- the six groups of constraints
  have e1 : (∀ c ∈ (List.range' ((1 + N.sum) * stride m) N.length).flatMap
      (fun dt => dr.modules.map (stepCap (minWidth dr.modules) dt)), c.Holds σ) ↔
      ∀ s < N.length, ∀ md ∈ dr.modules, ∀ g, Gap dr g →
        σ ((1 + N.sum) * stride m + s) * md.wheelRadius * md.wheelMaxAngularVelocity ≤ g := by
    simp only [List.mem_flatMap, List.mem_map, forall_exists_index, and_imp]
    constructor
    · intro h s hs md hmd
      exact (stepCap_iff σ dr _ md).mp (h _ _ (by rw [List.mem_range'_1]; omega) md hmd rfl)
    · rintro h c v hv md hmd rfl
      rw [List.mem_range'_1] at hv
      rw [stepCap_iff]
      have := h (v - (1 + N.sum) * stride m) (by omega) md hmd
      rwa [Nat.add_sub_cancel' hv.1] at this
  have e2 : (∀ c ∈ ((List.range' ((1 + N.sum) * stride m) N.length).zip N).map
      (fun x => Con.ge (.var x.1) (Num.lit 0)), c.Holds σ) ↔
      ∀ s < N.length, 0 ≤ σ ((1 + N.sum) * stride m + s) := by
    simp only [List.mem_map, forall_exists_index, and_imp]
    constructor
    · intro h s hs
      have := h _ ((1 + N.sum) * stride m + s, N[s]) (by
        rw [List.mem_iff_getElem]
        refine ⟨s, by simpa using hs, by simp⟩) rfl
      simpa [Con.Holds] using this
    · rintro h c ⟨v, k⟩ hv rfl
      rw [List.mem_iff_getElem] at hv
      obtain ⟨s, hs, hv⟩ := hv
      simp only [List.length_zip, List.length_range', min_self] at hs
      simp only [List.getElem_zip, List.getElem_range', Prod.mk.injEq] at hv
      have := h s hs
      simp only [Con.Holds, defined_var, defined_lit, eval_var, eval_lit, Rat.cast_zero, true_and]
      rw [← hv.1]; simpa using this
  have e3 : (∀ c ∈ kinList m N (List.range' ((1 + N.sum) * stride m) N.length), c.Holds σ) ↔
      ∀ s (hs : s < N.length), ∀ k < N[s], Interval (σ ((1 + N.sum) * stride m + s))
        (decodeSample σ (sampleVars m ((N.take s).sum + k)))
        (decodeSample σ (sampleVars m ((N.take s).sum + 1 + k))) := by
    simp only [kinList, List.mem_flatMap, List.mem_range, forall_exists_index, and_imp]
    constructor
    · intro h s hs k hk
      rw [← kinCons_iff σ _ _ _ (sampleVars_defined σ _ _) (sampleVars_defined σ _ _)]
      intro c hc
      refine h c s hs k (by rwa [getD_lt hs]) ?_
      rwa [hdt s hs]
    · intro h c s hs k hk hc
      rw [getD_lt hs] at hk
      rw [hdt s hs] at hc
      exact (kinCons_iff σ _ _ _ (sampleVars_defined σ _ _) (sampleVars_defined σ _ _)).mpr
        (h s hs k hk) c hc
  have e4 : (∀ c ∈ (List.range (1 + N.sum)).flatMap (dynCons dr), c.Holds σ) ↔
      ∀ n < 1 + N.sum, Dynamics dr (decodeSample σ (sampleVars m n)) (forceOf σ m n) := by
    simp only [List.mem_flatMap, List.mem_range, forall_exists_index, and_imp]
    constructor
    · intro h n hn
      exact (dynCons_iff σ dr n).mp fun c hc => h c n hn hc
    · intro h c n hn hc
      exact (dynCons_iff σ dr n).mpr (h n hn) c hc
  have e5 : (∀ c ∈ wptList m b.path N, c.Holds σ) ↔ ∀ w ≤ N.length, ∀ c ∈ (table b).instant w,
      Meaning c (decodeSample σ (sampleVars m (waypointSample N w))) := by
    simp only [wptList, List.mem_flatMap, List.mem_range, forall_exists_index, and_imp]
    constructor
    · intro h w hw c hc
      rw [← constraint_meaning σ _ _ (sampleVars_defined σ _ _)]
      exact fun k hk => h k w (by omega) c hc hk
    · intro h k w hw c hc hk
      exact (constraint_meaning σ _ _ (sampleVars_defined σ _ _)).mpr (h w (by omega) c hc) k hk
  have e6 : (∀ c ∈ sgmtList m b.path N, c.Holds σ) ↔ ∀ s < N.length,
      ∀ c ∈ (table b).continuous s, ∀ n ∈ segmentSamples N s,
      Meaning c (decodeSample σ (sampleVars m n)) := by
    simp only [sgmtList, List.mem_flatMap, List.mem_range, List.mem_range'_1, forall_exists_index,
      and_imp]
    constructor
    · intro h s hs c hc n hn
      obtain ⟨k, hk, rfl⟩ := (mem_segmentSamples hs).mp hn
      rw [← constraint_meaning σ _ _ (sampleVars_defined σ _ _)]
      exact fun k' hk' => h k' s hs c hc _ (by omega) (by rw [getD_lt hs]; omega) hk'
    · intro h k s hs c hc n h1 h2 hk
      rw [getD_lt hs] at h2
      refine (constraint_meaning σ _ _ (sampleVars_defined σ _ _)).mpr (h s hs c hc n ?_) k hk
      rw [mem_segmentSamples hs]
      exact ⟨n - (N.take s).sum - 1, by omega, by omega⟩
  rw [e1, e2, e3, e4, e5, e6]
  have hst : ∀ n < 1 + N.sum, (decode (closedVars m (1 + N.sum)
      (List.range' ((1 + N.sum) * stride m) N.length)) σ).state n =
      decodeSample σ (sampleVars m n) := fun n hn => decode_state _ _ _ _ hn
  have hseg : ∀ s (hs : s < N.length), ∀ k < N[s], (N.take s).sum + 1 + k < 1 + N.sum := by
    intro s hs k hk
    have h1 := sum_take_le N (s + 1)
    have h2 := sum_take_succ N hs
    omega
  have hdt' : ∀ s < N.length, (decode (closedVars m (1 + N.sum)
      (List.range' ((1 + N.sum) * stride m) N.length)) σ).dt s =
      σ ((1 + N.sum) * stride m + s) := by
    intro s hs
    simp only [decode, closedVars, hdt s hs]
  have hfor : ∀ n < 1 + N.sum, ∀ j : Fin dr.modules.length, (decode (closedVars m (1 + N.sum)
      (List.range' ((1 + N.sum) * stride m) N.length)) σ).force n j = forceOf σ m n j :=
    fun n hn j => decode_force _ _ _ _ hn j.2
  constructor
  · rintro ⟨⟨⟨⟨⟨h1, h2⟩, h3⟩, h4⟩, h5⟩, h6⟩
    constructor <;> simp only [hcounts]
    · intro s hs n hn
      obtain ⟨k, hk, rfl⟩ := (mem_segmentSamples hs).mp hn
      have := hseg s hs k hk
      rw [hst _ this, hst _ (by omega), hdt' s hs,
        show (N.take s).sum + 1 + k - 1 = (N.take s).sum + k by omega]
      exact h3 s hs k hk
    · intro n hn
      rw [hst n hn]
      obtain ⟨a, b', c, d⟩ := h4 n hn
      refine ⟨?_, ?_, c, ?_⟩
      · rw [← a]; exact Finset.sum_congr rfl fun j _ => hfor n hn j
      · rw [← b']; exact Finset.sum_congr rfl fun j _ => by rw [hfor n hn j]
      · intro j; rw [hfor n hn j]; exact d j
    · intro s hs; rw [hdt' s hs]; exact h2 s hs
    · intro s hs; rw [hdt' s hs]; exact h1 s hs
    · intro w hw c hc
      have := sum_take_le N w
      rw [hst _ (by simp only [waypointSample]; omega)]
      exact h5 w hw c hc
    · intro s hs c hc n hn
      obtain ⟨k, hk, rfl⟩ := (mem_segmentSamples hs).mp hn
      rw [hst _ (hseg s hs k hk)]
      exact h6 s hs c hc _ hn
  · rintro ⟨h3, h4, h2, h1, h5, h6⟩
    simp only [hcounts] at h1 h2 h3 h4 h5 h6
    refine ⟨⟨⟨⟨⟨?_, ?_⟩, ?_⟩, ?_⟩, ?_⟩, ?_⟩
    · intro s hs; rw [← hdt' s hs]; exact h1 s hs
    · intro s hs; rw [← hdt' s hs]; exact h2 s hs
    · intro s hs k hk
      have := hseg s hs k hk
      have := h3 s hs _ ((mem_segmentSamples hs).mpr ⟨k, hk, rfl⟩)
      rwa [hst _ (by omega), hst _ (by omega), hdt' s hs,
        show (N.take s).sum + 1 + k - 1 = (N.take s).sum + k by omega] at this
    · intro n hn
      have := h4 n hn
      rw [hst n hn] at this
      obtain ⟨a, b', c, d⟩ := this
      refine ⟨?_, ?_, c, ?_⟩
      · rw [← a]; exact Finset.sum_congr rfl fun j _ => (hfor n hn j).symm
      · rw [← b']; exact Finset.sum_congr rfl fun j _ => by rw [hfor n hn j]
      · intro j; rw [← hfor n hn j]; exact d j
    · intro w hw c hc
      have := sum_take_le N w
      rw [← hst _ (by simp only [waypointSample]; omega)]
      exact h5 w hw c hc
    · intro s hs c hc n hn
      have h' := hn
      obtain ⟨k, hk, rfl⟩ := (mem_segmentSamples hs).mp hn
      rw [← hst _ (hseg s hs k hk)]
      exact h6 s hs c hc _ h'

/-- Value of variable `c` of sample `n`. -/
noncomputable def encodeComp (T : Traj) (n : ℕ) : ℕ → ℝ
  | 0 => (T.state n).pos.re
  | 1 => (T.state n).pos.im
  | 2 => (T.state n).heading.re
  | 3 => (T.state n).heading.im
  | 4 => (T.state n).vel.re
  | 5 => (T.state n).vel.im
  | 6 => (T.state n).omega
  | 7 => (T.state n).acc.re
  | 8 => (T.state n).acc.im
  | 9 => (T.state n).alpha
  | k + 10 => if k % 2 = 0 then (T.force n (k / 2)).re else (T.force n (k / 2)).im

/-- An assignment that stands for the trajectory `T`. -/
noncomputable def encode (m S : ℕ) (T : Traj) (v : ℕ) : ℝ :=
  if v / stride m < S then encodeComp T (v / stride m) (v % stride m) else T.dt (v - S * stride m)

theorem encode_at {m S n c : ℕ} (T : Traj) (hc : c < stride m) (hn : n < S) :
    encode m S T (n * stride m + c) = encodeComp T n c := by
  simp only [encode, var_div_mod hc, hn, if_true]

theorem encode_decode (m S K : ℕ) (T : Traj) :
    Traj.Agree S m K (decode (closedVars m S (List.range' (S * stride m) K)) (encode m S T)) T := by
  have h10 : 10 ≤ stride m := by simp [stride]
  constructor
  · intro n hn
    rw [decode_state _ _ _ _ hn]
    have h0 := encode_at (n := n) T (show 0 < stride m by omega) hn
    rw [Nat.add_zero] at h0
    simp only [decodeSample, evalVec, sampleVars, eval_var, h0,
      encode_at T (show 1 < stride m by omega) hn, encode_at T (show 2 < stride m by omega) hn,
      encode_at T (show 3 < stride m by omega) hn, encode_at T (show 4 < stride m by omega) hn,
      encode_at T (show 5 < stride m by omega) hn, encode_at T (show 6 < stride m by omega) hn,
      encode_at T (show 7 < stride m by omega) hn, encode_at T (show 8 < stride m by omega) hn,
      encode_at T (show 9 < stride m by omega) hn, encodeComp]
  · intro n hn j hj
    rw [decode_force _ _ _ _ hn hj, forceOf, Nat.add_assoc, Nat.add_assoc,
      show 10 + 2 * j = 2 * j + 10 by omega, show 11 + 2 * j = 2 * j + 1 + 10 by omega,
      encode_at T (by simp only [stride]; omega) hn, encode_at T (by simp only [stride]; omega) hn]
    simp only [encodeComp, Nat.mul_mod_right, if_true, Nat.mul_add_mod, Nat.one_mod, one_ne_zero, if_false]
    rw [Nat.mul_div_cancel_left _ (by omega), show (2 * j + 1) / 2 = j by omega]
  · intro s hs
    have : ¬ (S * stride m + s) / stride m < S := by
      rw [Nat.mul_comm, Nat.mul_add_div (by omega)]
      exact not_lt.mpr (Nat.le_add_right _ _)
    simp only [decode, closedVars]
    rw [getD_lt (by simpa using hs)]
    simp only [List.getElem_range', encode, Nat.one_mul, this, if_false, Nat.add_sub_cancel_left]

/-- C29: the generated problem is the optimal control problem `Obeys`: an assignment satisfies all
generated constraints exactly when the trajectory it encodes obeys path and drivetrain, and every
trajectory is encoded by some assignment.  (A zero wheel radius makes the force limit an IEEE
infinity or NaN, which real arithmetic does not represent.) -/
theorem C29_problem (b : Builder ℝ) (hb : Reachable b) (dr : SwerveDrivetrain ℝ) (hr : Ready b dr)
    (_hradius : ∀ m ∈ dr.modules, m.wheelRadius ≠ 0) (handle : ℤ) :
    ∃ g, Generator.construct b handle = .ok g ∧
      (∀ σ, g.problem.Feasible σ ↔ Obeys (table b) dr (decode g.vars σ)) ∧
      (∀ T, ∃ σ, Traj.Agree (sampleCount (table b).counts) dr.modules.length
        (table b).counts.length (decode g.vars σ) T) ∧
      (∀ T, Obeys (table b) dr T ↔ ∃ σ, g.problem.Feasible σ ∧
        Traj.Agree (sampleCount (table b).counts) dr.modules.length
          (table b).counts.length (decode g.vars σ) T) := by
  obtain ⟨sol, -, -, hc⟩ := construct_closed hb hr handle
  have hf := feasible_closed b dr sol handle
  have he := fun T => encode_decode dr.modules.length (sampleCount (table b).counts)
    (table b).counts.length T
  refine ⟨_, hc, hf, fun T => ⟨_, he T⟩, fun T => ⟨fun h => ⟨_, (hf _).mpr ?_, he T⟩, ?_⟩⟩
  · exact (obeys_congr (he T)).mpr h
  · rintro ⟨σ, h1, h2⟩
    exact (obeys_congr h2).mp ((hf σ).mp h1)

/-- A sample between two waypoints is the first waypoint's or belongs to a segment in between. -/
theorem sample_between (N : List ℕ) (i j n : ℕ) (h1 : waypointSample N i ≤ n)
    (h2 : n ≤ waypointSample N j) :
    n = waypointSample N i ∨ ∃ s, i ≤ s ∧ s < j ∧ s < N.length ∧ n ∈ segmentSamples N s := by
  induction j with
  | zero =>
    left
    have : waypointSample N 0 = 0 := rfl
    omega
  | succ j ih =>
    by_cases h : n ≤ waypointSample N j
    · rcases ih h with h | ⟨s, a, b, c, d⟩
      · exact .inl h
      · exact .inr ⟨s, a, by omega, c, d⟩
    · push Not at h
      by_cases hj : j < N.length
      · by_cases hij : i ≤ j
        · exact .inr ⟨j, hij, by omega, hj, by rw [segmentSamples, Finset.mem_Ioc]; exact ⟨h, h2⟩⟩
        · left
          have := sum_take_mono N (show j + 1 ≤ i by omega)
          simp only [waypointSample] at *; omega
      · exfalso
        have e : waypointSample N (j + 1) = waypointSample N j := by
          simp only [waypointSample]
          rw [List.take_of_length_le (by omega), List.take_of_length_le (by omega)]
        omega

/-- C31: once `SgmtConstraint(i, j, c)` was called, at any point of the history, every feasible
assignment satisfies `c` at all samples from waypoint `i`'s to waypoint `j`'s, ends included. -/
theorem C31_segment (asserts : Bool) (ops : List (Op ℝ)) (b : Builder ℝ)
    (hb : b = run asserts ops Builder.new) (dr : SwerveDrivetrain ℝ) (hr : Ready b dr)
    (i j : ℕ) (c : Constraint ℝ) (hij : i < j) (hj : j < 2 ^ 63)
    (hop : Op.sgmtConstraint i j c ∈ ops) (hi : i ≤ (table b).counts.length)
    (handle : ℤ) (g : Generator ℝ) (hg : Generator.construct b handle = .ok g)
    (σ : ℕ → ℝ) (hσ : g.problem.Feasible σ) (n : ℕ)
    (h1 : waypointSample (table b).counts i ≤ n) (h2 : n ≤ waypointSample (table b).counts j) :
    Meaning c ((decode g.vars σ).state n) := by
  have hreach : Reachable b := ⟨asserts, ops, hb⟩
  obtain ⟨sol, -, -, hc⟩ := construct_closed hreach hr handle
  rw [hc] at hg
  cases hg
  have o := (feasible_closed b dr sol handle σ).mp hσ
  obtain ⟨before, after, rfl⟩ := List.append_of_mem hop
  have hpre : Reachable (run asserts before (Builder.new : Builder ℝ)) := ⟨asserts, before, rfl⟩
  obtain ⟨b1, e1, t1⟩ := C11_sgmt_constraint asserts _ hpre i j hij hj c
  have hrun : b = run asserts after b1 := by
    rw [hb, run, List.foldl_append, List.foldl_cons]
    change run asserts after ((Op.sgmtConstraint i j c).exec asserts
      (run asserts before Builder.new)).1 = _
    rw [Op.exec, e1]
  obtain ⟨-, hin, hco⟩ := C10_append_only asserts (before ++ [.sgmtConstraint i j c]) after b1 b (by
    rw [run, List.foldl_append, List.foldl_cons, List.foldl_nil]
    change _ = ((Op.sgmtConstraint i j c).exec asserts (run asserts before Builder.new)).1
    rw [Op.exec, e1]) hrun
  rcases sample_between _ i j n h1 h2 with rfl | ⟨s, hs1, hs2, hs3, hn⟩
  · refine o.instant i hi c ((hin i).subset ?_)
    rw [t1]
    simp [PathTable.requireAlong, le_of_lt hij]
  · refine o.continuous s hs3 c ((hco s).subset ?_) n hn
    rw [t1]
    simp [PathTable.requireAlong, hs1, hs2]

/-- C31: once `WptConstraint(i, c)` was called, every feasible assignment satisfies `c` at waypoint
`i`'s sample. -/
theorem C31_waypoint (asserts : Bool) (ops : List (Op ℝ)) (b : Builder ℝ)
    (hb : b = run asserts ops Builder.new) (dr : SwerveDrivetrain ℝ) (hr : Ready b dr)
    (i : ℕ) (c : Constraint ℝ) (hi' : i < 2 ^ 63)
    (hop : Op.wptConstraint i c ∈ ops) (hi : i ≤ (table b).counts.length)
    (handle : ℤ) (g : Generator ℝ) (hg : Generator.construct b handle = .ok g)
    (σ : ℕ → ℝ) (hσ : g.problem.Feasible σ) :
    Meaning c ((decode g.vars σ).state (waypointSample (table b).counts i)) := by
  have hreach : Reachable b := ⟨asserts, ops, hb⟩
  obtain ⟨sol, -, -, hc⟩ := construct_closed hreach hr handle
  rw [hc] at hg
  cases hg
  have o := (feasible_closed b dr sol handle σ).mp hσ
  obtain ⟨before, after, rfl⟩ := List.append_of_mem hop
  have hpre : Reachable (run asserts before (Builder.new : Builder ℝ)) := ⟨asserts, before, rfl⟩
  obtain ⟨b1, e1, t1⟩ := C11_wpt_constraint _ hpre i hi' c
  have hrun : b = run asserts after b1 := by
    rw [hb, run, List.foldl_append, List.foldl_cons]
    change run asserts after ((Op.wptConstraint i c).exec asserts
      (run asserts before Builder.new)).1 = _
    rw [Op.exec, e1]
  obtain ⟨-, hin, -⟩ := C10_append_only asserts (before ++ [.wptConstraint i c]) after b1 b (by
    rw [run, List.foldl_append, List.foldl_cons, List.foldl_nil]
    change _ = ((Op.wptConstraint i c).exec asserts (run asserts before Builder.new)).1
    rw [Op.exec, e1]) hrun
  refine o.instant i hi c ((hin i).subset ?_)
  rw [t1]
  simp [PathTable.requireAt]

/-! ### A path that can be driven -/

theorem run_snoc {D : Type} [Dbl D] {asserts : Bool} {ops : List (Op D)} {b b' : Builder D}
    {e : Option Fault} {op : Op D}
    (h : b = run asserts ops Builder.new) (he : op.exec asserts b = (b', e)) :
    b' = run asserts (ops ++ [op]) Builder.new := by
  rw [run, List.foldl_append, List.foldl_cons, List.foldl_nil]
  change _ = (op.exec asserts (run asserts ops Builder.new)).1
  rw [← h, he]

/-- A square robot. -/
noncomputable def demoRobot : SwerveDrivetrain ℝ where
  mass := 4
  moi := 1
  modules := [⟨⟨1, 1⟩, 1, 2, 2⟩, ⟨⟨1, -1⟩, 1, 2, 2⟩, ⟨⟨-1, 1⟩, 1, 2, 2⟩, ⟨⟨-1, -1⟩, 1, 2, 2⟩]

/-- Drive one metre along `x` in one control interval, at no more than 2 m/s. -/
noncomputable def demoOps : List (Op ℝ) :=
  [.setDrivetrain demoRobot, .poseWpt 0 0 0 0, .poseWpt 1 1 0 0, .controlIntervalCounts [1],
    .sgmtConstraint 0 1 (.linearVelocityMaxMagnitude 2)]

/-- The builder after these calls. -/
noncomputable def demoBuilder : Builder ℝ := run true demoOps Builder.new

theorem demo_table : (table demoBuilder).waypoints = 2 ∧ (table demoBuilder).counts = [1] ∧
    (table demoBuilder).drivetrain = some demoRobot ∧
    (table demoBuilder).instant 0 = [.poseEquality 0 0 0, .linearVelocityMaxMagnitude 2] ∧
    (table demoBuilder).instant 1 = [.poseEquality 1 0 0, .linearVelocityMaxMagnitude 2] ∧
    (table demoBuilder).continuous 0 = [.linearVelocityMaxMagnitude 2] ∧
    (table demoBuilder).callbacks = [] := by
  have r0 := run_snoc (b := (Builder.new : Builder ℝ)) (asserts := true) (ops := []) rfl
    (op := .setDrivetrain demoRobot) rfl
  generalize ht0 : Builder.setDrivetrain demoRobot (Builder.new : Builder ℝ) = b0 at r0
  obtain ⟨b1, e1, t1⟩ := C12_pose_wpt b0 ⟨_, _, r0⟩ 0 (by norm_num) 0 0 0
  have r1 := run_snoc r0 (op := .poseWpt 0 0 0 0) e1
  obtain ⟨b2, e2, t2⟩ := C12_pose_wpt b1 ⟨_, _, r1⟩ 1 (by norm_num) 1 0 0
  have r2 := run_snoc r1 (op := .poseWpt 1 1 0 0) e2
  have r3 := run_snoc r2 (op := .controlIntervalCounts [1]) rfl
  obtain ⟨b4, e4, t4⟩ := C11_sgmt_constraint true _ ⟨_, _, r3⟩ 0 1 (by norm_num) (by norm_num)
    (.linearVelocityMaxMagnitude 2)
  have r4 := run_snoc r3 (op := .sgmtConstraint 0 1 (.linearVelocityMaxMagnitude 2)) e4
  have hb : demoBuilder = b4 := r4.symm
  have t3 : table (b2.setControlIntervalCounts [1]) = { table b2 with counts := [1] } := rfl
  rw [hb, t4, t3, t2, t1, ← ht0]
  simp only [PathTable.requireAlong, PathTable.reach, PathTable.guessAt,
    PathTable.requireAt, table, Builder.setDrivetrain, Builder.new]
  simp

theorem demo_ready : Ready demoBuilder demoRobot := by
  obtain ⟨h1, h2, h3, -⟩ := demo_table
  exact ⟨h3, by rw [h1, h2]; simp, by rw [h2]; simp [sampleCount]⟩

/-- Accelerate for one second, with the given (real) headings at start and end. -/
noncomputable def driveTraj (h0 h1 : ℝ) : Traj where
  state n := if n = 0 then ⟨0, h0, 0, 0, 0, 0⟩ else ⟨1, h1, 1, 1, 0, 0⟩
  force n _ := if n = 0 then 0 else 1
  dt _ := 1

/-- Accelerate for one second. -/
noncomputable def demoTraj : Traj := driveTraj 1 1

/-- The demonstration robot can drive like this, as far as the path lets it. -/
theorem drive_obeys (t : PathTable ℝ) (ht : t.counts = [1]) (h0 h1 : ℝ)
    (hh : h1 * h0 = 1 ∨ h1 * h0 = -1) (hh1 : |h1| ≤ 2)
    (hi0 : ∀ c ∈ t.instant 0, Meaning c ((driveTraj h0 h1).state 0))
    (hi1 : ∀ c ∈ t.instant 1, Meaning c ((driveTraj h0 h1).state 1))
    (hc1 : ∀ c ∈ t.continuous 0, Meaning c ((driveTraj h0 h1).state 1)) :
    Obeys t demoRobot (driveTraj h0 h1) := by
  have hu : unitVec 0 = 1 := by simp [unitVec]
  have hm : demoRobot.modules.length = 4 := rfl
  have hgap : ∀ g, Gap demoRobot g → g = 2 := by
    rintro g ⟨hg, a, b, hab, h⟩
    simp only [demoRobot, List.tail_cons, List.zip_cons_cons, List.zip_nil_right, List.mem_cons,
      List.not_mem_nil, or_false, Prod.mk.injEq] at hab
    rcases hab with ⟨rfl, rfl⟩ | ⟨rfl, rfl⟩ | ⟨rfl, rfl⟩ <;> rcases h with rfl | rfl <;>
      first | (norm_num; done) | norm_num at hg
  have seg : ∀ s < t.counts.length, ∀ n ∈ segmentSamples t.counts s, s = 0 ∧ n = 1 := by
    intro s hs n hn
    rw [ht] at hs hn
    have : s = 0 := by simpa using hs
    subst this
    simp only [segmentSamples, waypointSample, Finset.mem_Ioc, List.take_zero, List.sum_nil,
      zero_add, List.take_succ_cons, List.sum_cons] at hn
    omega
  constructor
  · intro s hs n hn
    obtain ⟨rfl, rfl⟩ := seg s hs n hn
    constructor
    · simp [driveTraj]
    · simp only [driveTraj, Nat.sub_self, if_true, one_ne_zero, if_false, zero_mul, hu,
        Complex.conj_ofReal]
      rcases hh with e | e
      · left; rw [← Complex.ofReal_mul, e]; simp
      · right; rw [← Complex.ofReal_mul, e]; simp
    · simp [driveTraj]
    · simp [driveTraj]
  · intro n hn
    by_cases h0 : n = 0
    · subst h0
      refine ⟨?_, ?_, ?_, ?_⟩
      · simp [driveTraj]
      · simp [driveTraj, torque]
      · intro m hm
        simp only [driveTraj, wheelVelocity, maxSpeed, if_true, mul_zero, zero_mul,
          Complex.ofReal_zero, add_zero, norm_zero]
        exact abs_nonneg _
      · intro j
        simp [driveTraj, maxForce]
    · refine ⟨?_, ?_, ?_, ?_⟩
      · simp only [driveTraj, h0, if_false, Finset.sum_const, Finset.card_univ, Fintype.card_fin, hm]
        simp [demoRobot]
      · simp only [driveTraj, h0, if_false, torque, lever, mul_one, Complex.conj_im, vec]
        change ∑ j : Fin 4, -((⟨(demoRobot.modules[j]).translation.x,
          (demoRobot.modules[j]).translation.y⟩ : ℂ) * (h1 : ℂ)).im = _
        rw [Fin.sum_univ_four]
        simp [demoRobot]
      · intro m hm
        simp only [demoRobot, List.mem_cons, List.not_mem_nil, or_false] at hm
        simp only [driveTraj, h0, if_false, wheelVelocity, maxSpeed, Complex.conj_ofReal, mul_one,
          Complex.ofReal_zero, mul_zero, zero_mul, add_zero, Complex.norm_real, Real.norm_eq_abs]
        rcases hm with rfl | rfl | rfl | rfl <;> norm_num <;> exact hh1
      · intro j
        simp only [driveTraj, h0, if_false, norm_one]
        have : ∀ m ∈ demoRobot.modules, 1 ≤ maxForce m := by
          intro m hm
          simp only [demoRobot, List.mem_cons, List.not_mem_nil, or_false] at hm
          rcases hm with rfl | rfl | rfl | rfl <;> norm_num [maxForce]
        exact this _ (List.getElem_mem _)
  · intro s hs
    simp [driveTraj]
  · intro s hs m hm g hg
    rw [hgap g hg]
    simp only [demoRobot, List.mem_cons, List.not_mem_nil, or_false] at hm
    rcases hm with rfl | rfl | rfl | rfl <;> norm_num [driveTraj]
  · intro w hw c hc
    rw [ht] at hw ⊢
    have hw : w = 0 ∨ w = 1 := by simp at hw; omega
    rcases hw with rfl | rfl
    · exact hi0 c hc
    · exact hi1 c hc
  · intro s hs c hc n hn
    obtain ⟨rfl, rfl⟩ := seg s hs n hn
    exact hc1 c hc

/-- Also when the robot's heading flips on the way. -/
theorem demo_obeys_flip (h1 : ℝ) (hh : h1 = 1 ∨ h1 = -1) :
    Obeys (table demoBuilder) demoRobot (driveTraj 1 h1) := by
  obtain ⟨-, h2, -, h4, h5, h6, -⟩ := demo_table
  have hu : unitVec 0 = 1 := by simp [unitVec]
  refine drive_obeys _ h2 1 h1 (by simpa using hh)
    (by rcases hh with rfl | rfl <;> norm_num) ?_ ?_ ?_
  · rw [h4]
    intro c hc
    simp only [List.mem_cons, List.not_mem_nil, or_false] at hc
    rcases hc with rfl | rfl <;> simp [Meaning, driveTraj, vec, hu, Complex.ext_iff]
  · rw [h5]
    intro c hc
    simp only [List.mem_cons, List.not_mem_nil, or_false] at hc
    rcases hc with rfl | rfl <;> rcases hh with rfl | rfl <;>
      simp [Meaning, driveTraj, vec, hu, Complex.ext_iff]
  · rw [h6]
    intro c hc
    simp only [List.mem_cons, List.not_mem_nil, or_false] at hc
    subst hc
    simp [Meaning, driveTraj]

theorem demo_obeys : Obeys (table demoBuilder) demoRobot demoTraj := demo_obeys_flip 1 (.inl rfl)

/-- The hypotheses of C29 and C31 hold together: a builder with a feasible assignment. -/
example : ∃ g σ, Generator.construct demoBuilder 0 = .ok g ∧ g.problem.Feasible σ ∧
    ((decode g.vars σ).state 1).pos = 1 ∧ ‖((decode g.vars σ).state 1).vel‖ ≤ 2 := by
  have hreach : Reachable demoBuilder := ⟨true, demoOps, rfl⟩
  have hcounts := demo_table.2.1
  obtain ⟨g, hg, -, -, h⟩ := C29_problem demoBuilder hreach demoRobot demo_ready (by
    intro m hm
    simp only [demoRobot, List.mem_cons, List.not_mem_nil, or_false] at hm
    rcases hm with rfl | rfl | rfl | rfl <;> norm_num) 0
  obtain ⟨σ, hσ, ha⟩ := (h demoTraj).mp demo_obeys
  refine ⟨g, σ, hg, hσ, ?_, ?_⟩
  · rw [ha.state 1 (by rw [hcounts]; simp [sampleCount])]
    simp [demoTraj, driveTraj]
  · have := C31_segment true demoOps demoBuilder rfl demoRobot demo_ready 0 1
      (.linearVelocityMaxMagnitude 2) (by norm_num) (by norm_num) (by simp [demoOps]) (by simp) 0 g hg
      σ hσ 1 (by simp [waypointSample]) (by rw [hcounts]; simp [waypointSample])
    simpa [Meaning] using this

end Trajopt.Props
