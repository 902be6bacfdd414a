import Verif.Spec.Begin
import Verif.Props.Smooth
import Verif.Props.Start

/-!
# C120: the problem at the start values
-/

set_option autoImplicit false

namespace Trajopt.Props

open Spec

/-! ### Values -/

theorem defined_of_regular {σ : ℕ → ℝ} {e : Expr ℝ} (h : e.Regular σ) : e.Defined σ := by
  induction e with
  | const _ => trivial
  | var _ => trivial
  | add a b iha ihb => exact ⟨iha h.1, ihb h.2⟩
  | sub a b iha ihb => exact ⟨iha h.1, ihb h.2⟩
  | mul a b iha ihb => exact ⟨iha h.1, ihb h.2⟩
  | div a b iha ihb => exact ⟨iha h.1, ihb h.2.1, h.2.2⟩
  | neg a ih => exact ih h
  | sin a ih => exact ih h
  | cos a ih => exact ih h
  | atan2 a b => exact h.elim
  | hypot a b iha ihb => exact ⟨iha h.1, ihb h.2.1⟩
  | sign a ih => exact ih h.1

theorem hasValue_of_regular {σ : ℕ → ℝ} {c : Con ℝ} (h : RegularCon σ c) : HasValue σ c := by
  cases c with
  | eq a b => exact ⟨defined_of_regular h.1, defined_of_regular h.2⟩
  | le a b => exact ⟨defined_of_regular h.1, defined_of_regular h.2⟩
  | ge a b => exact ⟨defined_of_regular h.1, defined_of_regular h.2⟩
  | leInf a => exact defined_of_regular h

/-- At a proper heading a constraint of the path has a value unless its line segment has no length. -/
theorem apply_hasValue {σ : ℕ → ℝ} {m n : ℕ} (hh : (decodeSample σ (sampleVars m n)).heading ≠ 0) (c : Constraint ℝ) :
    (∀ k ∈ c.apply (sampleVars m n), HasValue σ k) ↔ ¬ HasNoLength c := by
  have hv : ∀ r : Translation2 ℝ, vec (evalT σ ((sampleVars m n).pose.translation.add
      (r.toV.rotateBy (sampleVars m n).pose.rotation))) = (decodeSample σ (sampleVars m n)).onRobot r := by
    intro r
    rw [State.onRobot, Complex.ext_iff]
    simp [vec, evalT, decodeSample, evalVec, Translation2.add, Translation2.rotateBy, Translation2.toV]
  have hc : ∀ r : Translation2 ℝ, vec (evalT σ r.toV) = vec r := fun _ => rfl
  have hr : ∀ r : Translation2 ℝ, ((sampleVars m n).pose.translation.add
      (r.toV.rotateBy (sampleVars m n).pose.rotation)).x.Defined σ ∧ ((sampleVars m n).pose.translation.add
      (r.toV.rotateBy (sampleVars m n).pose.rotation)).y.Defined σ := by
    intro r
    simp [Translation2.add, Translation2.rotateBy, Translation2.toV, sampleVars]
  have hvec : ∀ a b : Translation2 ℝ, vec a = vec b ↔ a = b := by
    rintro ⟨a, b⟩ ⟨c, d⟩; simp [vec, Complex.ext_iff]
  cases c with
  | linePoint a b p d =>
    have := linePointDistance_defined σ _ _ p.toV (hr a) (hr b) ⟨trivial, trivial⟩
    simp only [Constraint.apply, List.mem_singleton, forall_eq, HasValue, HasNoLength, defined_mul, defined_const,
      and_true, and_self, this, hv, State.onRobot, ne_eq, add_right_inj, mul_eq_mul_right_iff, hvec, hh, or_false]
  | pointLine r a b d =>
    have := linePointDistance_defined σ a.toV b.toV _ ⟨trivial, trivial⟩ ⟨trivial, trivial⟩ (hr r)
    simp only [Constraint.apply, List.mem_singleton, forall_eq, HasValue, HasNoLength, defined_mul, defined_const,
      and_true, and_self, this, hc, ne_eq, hvec]
  | pointAt p tol =>
    simp [Constraint.apply, HasValue, HasNoLength, sampleVars, Pose2.x, Pose2.y]
  | _ =>
    refine iff_of_true (fun k hk => hasValue_of_regular (apply_regular _ (by simp [Corner]) (by simp) k hk))
      (by simp [HasNoLength])

/-! ### The start values -/

/-- The start values as a vector have the states of the initial guess. -/
theorem start_state {b : Builder ℝ} (hb : Reachable b) {dr : SwerveDrivetrain ℝ} (hr : Ready b dr) {handle : ℤ}
    {g : Generator ℝ} (hg : Generator.construct b handle = .ok g) {n : ℕ} (hn : n < sampleCount (table b).counts) :
    (decode g.vars (ofVec (startVec g.problem))).state n = (decode g.vars g.problem.values).state n := by
  obtain ⟨sol, -, -, hcl⟩ := construct_closed hb hr handle
  rw [hg] at hcl
  cases hcl
  have hn : n < 1 + (table b).counts.sum := by simpa [sampleCount, add_comm] using hn
  have hv : ∀ k < 10, ofVec (startVec (closedGenerator b.path dr b.controlIntervalCounts sol handle).problem)
      (n * stride dr.modules.length + k) =
      (closedGenerator b.path dr b.controlIntervalCounts sol handle).problem.values (n * stride dr.modules.length + k) :=
    fun k hk => dif_pos (index_lt hn hk)
  rw [show (decode (closedGenerator b.path dr b.controlIntervalCounts sol handle).vars _).state _ =
      decodeSample _ (sampleVars dr.modules.length _) from decode_state _ _ _ _ hn,
    show (decode (closedGenerator b.path dr b.controlIntervalCounts sol handle).vars
      (closedGenerator b.path dr b.controlIntervalCounts sol handle).problem.values).state _ =
      decodeSample _ (sampleVars dr.modules.length _) from decode_state _ _ _ _ hn]
  have h0 := hv 0 (by omega)
  rw [Nat.add_zero] at h0
  simp only [decodeSample, evalVec, sampleVars, eval_var, h0, hv 1 (by omega), hv 2 (by omega), hv 3 (by omega),
    hv 4 (by omega), hv 5 (by omega), hv 6 (by omega), hv 7 (by omega), hv 8 (by omega), hv 9 (by omega)]

/-- The headings that solving starts from are directions if the first guess pose's heading is one. -/
theorem start_heading {b : Builder ℝ} (hb : Reachable b) {dr : SwerveDrivetrain ℝ} (hr : Ready b dr) {handle : ℤ}
    {g : Generator ℝ} (hg : Generator.construct b handle = .ok g)
    (hu : ∀ p ∈ (table b).guess 0, p.rotation.cos ^ 2 + p.rotation.sin ^ 2 = 1) {n : ℕ}
    (hn : n < sampleCount (table b).counts) : ((decode g.vars g.problem.values).state n).heading ≠ 0 := by
  obtain ⟨sol, d, hsol, -, -, hx, -⟩ := C43_start b hb dr hr handle g hg _ rfl
  obtain ⟨-, -, h1, h2⟩ := hx n hn
  have := C07_unit_headings _ _ _ hsol hr.size (fun p ps hp => hu p (by
    rw [show (table b).guess 0 = b.initialGuessPoints.getD 0 [originPose] from rfl, List.getD, hp]; simp)) n _ _ h1 h2
  intro h0
  rw [h0] at this
  simp at this

/-- C120: at the start values, the cost and every constraint of the problem has a value, unless a line
segment of the path's constraints has no length (then its constraint has none). -/
theorem C120_values (b : Builder ℝ) (hb : Reachable b) (dr : SwerveDrivetrain ℝ) (hr : Ready b dr)
    (handle : ℤ) (g : Generator ℝ) (hg : Generator.construct b handle = .ok g)
    (hu : ∀ p ∈ (table b).guess 0, p.rotation.cos ^ 2 + p.rotation.sin ^ 2 = 1)
    (hN : ∀ n ∈ (table b).counts, 0 < n) :
    (∀ e, g.problem.cost = some e → e.Defined g.problem.values) ∧
    ((∀ c ∈ g.problem.cons, HasValue g.problem.values c) ↔
      (∀ w ≤ (table b).counts.length, ∀ c ∈ (table b).instant w, ¬ HasNoLength c) ∧
      ∀ s < (table b).counts.length, ∀ c ∈ (table b).continuous s, ¬ HasNoLength c) := by
  have hh := fun n hn => start_heading hb hr hg hu (n := n) hn
  obtain ⟨sol, -, -, hcl⟩ := construct_closed hb hr handle
  rw [hg] at hcl
  cases hcl
  set σ := (closedGenerator b.path dr b.controlIntervalCounts sol handle).problem.values with hσ
  have hst : ∀ n < 1 + (table b).counts.sum, (decodeSample σ (sampleVars dr.modules.length n)).heading ≠ 0 := by
    intro n hn
    have := hh n (by simpa [sampleCount, add_comm] using hn)
    rwa [show (decode (closedGenerator b.path dr b.controlIntervalCounts sol handle).vars σ).state n =
      decodeSample σ (sampleVars dr.modules.length n) from decode_state _ _ _ _ hn] at this
  have hwlt : ∀ w, waypointSample (table b).counts w < 1 + (table b).counts.sum := by
    intro w
    have := sum_take_le (table b).counts w
    rw [waypointSample]; omega
  have hslt : ∀ s (_ : s < (table b).counts.length), ∀ n ∈ segmentSamples (table b).counts s,
      n < 1 + (table b).counts.sum := by
    intro s hs n hn
    obtain ⟨k, hk, rfl⟩ := (mem_segmentSamples hs).mp hn
    have := sum_take_le (table b).counts (s + 1)
    rw [List.sum_take_succ _ _ hs] at this
    omega
  refine ⟨?_, ?_, ?_⟩
  · intro e he
    obtain rfl : _ = e := Option.some.inj he
    exact defined_of_regular (regular_time _ _ _ trivial)
  · intro h
    constructor
    · intro w hw c hc
      exact (apply_hasValue (hst _ (hwlt w)) c).mp fun k hk => h k (wpt_mem hw hc hk)
    · intro s hs c hc
      have hpos : 0 < (table b).counts[s] := hN _ (List.getElem_mem hs)
      have hmem : waypointSample (table b).counts (s + 1) ∈ segmentSamples (table b).counts s := by
        refine Finset.mem_Ioc.mpr ⟨?_, le_rfl⟩
        rw [waypointSample, waypointSample, List.sum_take_succ _ _ hs]
        omega
      exact (apply_hasValue (hst _ (hwlt _)) c).mp fun k hk => h k (sgmt_mem hs hc hmem hk)
  · rintro ⟨hi, hc⟩ c hcm
    change c ∈ allCons b.path dr (table b).counts at hcm
    simp only [allCons, List.mem_append] at hcm
    rcases hcm with ((((h | h) | h) | h) | h) | h
    · simp only [List.mem_flatMap, List.mem_map] at h
      obtain ⟨_, _, _, _, rfl⟩ := h
      simp only [stepCap]
      refine hasValue_of_regular ?_
      split <;> simp [RegularCon]
    · simp only [List.mem_map] at h
      obtain ⟨_, _, rfl⟩ := h
      exact hasValue_of_regular (by simp [RegularCon])
    · simp only [kinList, List.mem_flatMap] at h
      obtain ⟨_, _, _, _, h⟩ := h
      exact hasValue_of_regular (regular_kin _ _ _ _ _ _ h)
    · simp only [List.mem_flatMap, dynCons, List.mem_append, List.mem_cons, List.not_mem_nil, or_false] at h
      obtain ⟨n, _, h | rfl | rfl | rfl⟩ := h
      · exact hasValue_of_regular (regular_power _ _ _ _ _ _ h)
      · exact hasValue_of_regular ⟨regular_accumulate _ _, trivial, trivial⟩
      · exact hasValue_of_regular ⟨regular_accumulate _ _, trivial, trivial⟩
      · exact hasValue_of_regular ⟨regular_torque _ _ _ _ _ _ trivial, trivial, trivial⟩
    · simp only [wptList, List.mem_flatMap, List.mem_range] at h
      obtain ⟨w, hw, c', hc', h⟩ := h
      exact (apply_hasValue (hst _ (hwlt w)) c').mpr (hi w (by omega) c' hc') c h
    · simp only [sgmtList, List.mem_flatMap, List.mem_range] at h
      obtain ⟨s, hs, c', hc', n, hn, h⟩ := h
      rw [List.mem_range'_1, getD_lt hs] at hn
      exact (apply_hasValue (hst _ (hslt s hs n ((mem_segmentSamples hs).mpr
        ⟨n - 1 - ((table b).counts.take s).sum, by omega, by omega⟩))) c').mpr (hc s hs c' hc') c h

/-- C120, the positive part: if no constraint of the path is at a corner in a state of the initial guess,
cost and constraints are infinitely often differentiable at the start values.  Missing: guesses at corners,
where the claim is false. -/
theorem C120_smooth_partial (b : Builder ℝ) (hb : Reachable b) (dr : SwerveDrivetrain ℝ) (hr : Ready b dr)
    (handle : ℤ) (g : Generator ℝ) (hg : Generator.construct b handle = .ok g)
    (T : Traj) (hT : T = decode g.vars g.problem.values)
    (hi : ∀ w ≤ (table b).counts.length, ∀ c ∈ (table b).instant w,
      ¬ Corner c (T.state (waypointSample (table b).counts w)))
    (hc : ∀ s < (table b).counts.length, ∀ c ∈ (table b).continuous s, ∀ n ∈ segmentSamples (table b).counts s,
      ¬ Corner c (T.state n)) (k : WithTop ℕ∞) : SmoothAt k g.problem (startVec g.problem) := by
  subst hT
  refine C110_smooth_partial b hb dr hr handle g hg _ ?_ ?_ k
  · intro w hw c hcw
    rw [start_state hb hr hg (by
      have := sum_take_le (table b).counts w
      rw [waypointSample, sampleCount]; omega)]
    exact hi w hw c hcw
  · intro s hs c hcs n hn
    rw [start_state hb hr hg (by
      obtain ⟨k, hk, rfl⟩ := (mem_segmentSamples hs).mp hn
      have := sum_take_le (table b).counts (s + 1)
      rw [List.sum_take_succ _ _ hs] at this
      rw [sampleCount]; omega)]
    exact hc s hs c hcs n hn

/-- C120 fails for every path one of whose segments' constraints is to face a point that the initial guess
passes through: at the start values that constraint's function is not differentiable. -/
theorem C120_facing_refuted (b : Builder ℝ) (hb : Reachable b) (dr : SwerveDrivetrain ℝ) (hr : Ready b dr)
    (handle : ℤ) (g : Generator ℝ) (hg : Generator.construct b handle = .ok g)
    (T : Traj) (hT : T = decode g.vars g.problem.values)
    (s : ℕ) (hs : s < (table b).counts.length) (p : Translation2 ℝ) (tol : ℝ) (htol : Real.cos tol ≠ 0)
    (hc : .pointAt p tol ∈ (table b).continuous s) (n : ℕ) (hn : n ∈ segmentSamples (table b).counts s)
    (hx : (T.state n).pos = vec p) : ¬ SmoothAt 1 g.problem (startVec g.problem) := by
  subst hT
  have hlt : n < 1 + (table b).counts.sum := by
    obtain ⟨k, hk, rfl⟩ := (mem_segmentSamples hs).mp hn
    have := sum_take_le (table b).counts (s + 1)
    rw [List.sum_take_succ _ _ hs] at this
    omega
  rw [← start_state hb hr hg (by rw [sampleCount]; omega)] at hx
  obtain ⟨sol, -, -, hcl⟩ := construct_closed hb hr handle
  rw [hg] at hcl
  cases hcl
  rw [show (decode (closedGenerator b.path dr b.controlIntervalCounts sol handle).vars (ofVec _)).state _ =
    decodeSample (ofVec _) (sampleVars dr.modules.length _) from decode_state _ _ _ _ hlt] at hx
  obtain ⟨c, hcm, h⟩ := facing_kink _ _ _ p tol htol hx
  exact fun hs' => rough_of_line (index_lt hlt (by norm_num)) (index_lt hlt (by norm_num)) 1 0 h
    (hs'.2 c (sgmt_mem hs hc hn hcm))

/-! ### A straight guess -/

/-- C120: on a segment guessed without points on the way, the start positions are equally spaced on the
line from guess to guess. -/
theorem C120_straight (b : Builder ℝ) (hb : Reachable b) (dr : SwerveDrivetrain ℝ) (hr : Ready b dr)
    (handle : ℤ) (g : Generator ℝ) (hg : Generator.construct b handle = .ok g)
    (T : Traj) (hT : T = decode g.vars g.problem.values)
    (s : ℕ) (hs : s < (table b).counts.length) (p q : Pose2 ℝ) (hp : ((table b).guess s).getLast? = some p)
    (hq : (table b).guess (s + 1) = [q]) (k : ℕ) (hk : k < (table b).counts[s]) :
    (T.state (waypointSample (table b).counts s + (k + 1))).pos =
      vec p.translation + ((k + 1 : ℕ) / (table b).counts[s] : ℝ) * (vec q.translation - vec p.translation) := by
  obtain ⟨sol, d, hsol, -, -, hx, -⟩ := C43_start b hb dr hr handle g hg T hT
  obtain ⟨hok, -, ⟨p0, ps, -, ex, ey, -, -⟩, -⟩ := generate_ok_elim hsol hr.size
  have hlt : waypointSample (table b).counts s + (k + 1) < sampleCount (table b).counts := by
    have := sum_take_le (table b).counts (s + 1)
    rw [List.sum_take_succ _ _ hs] at this
    rw [waypointSample, sampleCount]; omega
  obtain ⟨hx, hy, -, -⟩ := hx _ hlt
  have hpos : ((table b).counts[s] : ℝ) ≠ 0 := by exact_mod_cast (by omega : (table b).counts[s] ≠ 0)
  have hlast : lastGuess b.initialGuessPoints s = p := by
    obtain ⟨r, rs, e⟩ := hok s (le_of_lt hs)
    rw [show (table b).guess s = b.initialGuessPoints.getD s [originPose] from rfl, List.getD, e] at hp
    rw [lastGuess, List.getD, e]
    simpa using congrArg (Option.getD · Pose2.zero) hp
  have hcur : b.initialGuessPoints.getD (s + 1) [] = [q] := by
    obtain ⟨r, rs, e⟩ := hok (s + 1) hs
    rw [show (table b).guess (s + 1) = b.initialGuessPoints.getD (s + 1) [originPose] from rfl, List.getD, e] at hq
    rw [List.getD, e]
    exact hq
  have hNs : b.controlIntervalCounts.getD s 0 = (table b).counts[s] := getD_lt hs
  have comp : ∀ f : Comp, (f = .x ∨ f = .y) →
      (((guessPieces b.initialGuessPoints b.controlIntervalCounts).map f.get).flatten)[(b.controlIntervalCounts.take s).sum + k]? =
      some (f.ofPose p + (k + 1 : ℕ) * (f.ofPose q - f.ofPose p) / (table b).counts[s]) := by
    intro f hf
    rw [guessComp_getElem? f hok hs hk, hlast, hcur, hNs]
    have e := C02_entry (f.ofPose p) (f.ofPose q) (table b).counts[s] (k + 1) (by omega) (by omega)
    rw [Nat.add_sub_cancel] at e
    rw [← e]
    rcases hf with rfl | rfl <;>
    simp [segComp, segClosed, segPoint, pieceCount, guessPiece, Comp.get, Comp.ofPose]
  have c1 := comp .x (.inl rfl)
  have c2 := comp .y (.inr rfl)
  rw [ex, waypointSample, ← Nat.add_assoc, List.getElem?_cons_succ,
    show (List.take s (table b).counts).sum = (List.take s b.controlIntervalCounts).sum from rfl, c1,
    Option.some.injEq] at hx
  rw [ey, waypointSample, ← Nat.add_assoc, List.getElem?_cons_succ,
    show (List.take s (table b).counts).sum = (List.take s b.controlIntervalCounts).sum from rfl, c2,
    Option.some.injEq] at hy
  rw [waypointSample, ← Nat.add_assoc, Complex.ext_iff]
  constructor
  · refine hx.symm.trans ?_
    simp [vec, Comp.ofPose, Pose2.x]
    ring
  · refine hy.symm.trans ?_
    simp [vec, Comp.ofPose, Pose2.y]
    ring

/-- Two metres straight on, facing the middle of the way. -/
noncomputable def middleOps (N : ℕ) : List (Op ℝ) :=
  [.setDrivetrain demoRobot, .poseWpt 0 (-1) 0 0, .poseWpt 1 1 0 0, .sgmtConstraint 0 1 (.pointAt ⟨0, 0⟩ (1 / 10)),
    .controlIntervalCounts [N]]

theorem middle_table (N : ℕ) (hN : N < 2 ^ 63) :
    let b := run true (middleOps N) Builder.new
    Ready b demoRobot ∧ (table b).counts = [N] ∧ (table b).continuous 0 = [.pointAt ⟨0, 0⟩ (1 / 10)] ∧
    (table b).instant 0 = [.poseEquality (-1) 0 0, .pointAt ⟨0, 0⟩ (1 / 10)] ∧
    (table b).instant 1 = [.poseEquality 1 0 0, .pointAt ⟨0, 0⟩ (1 / 10)] ∧
    (table b).guess 0 = [.ofXYHeading (-1) 0 0] ∧ (table b).guess 1 = [.ofXYHeading 1 0 0] := by
  intro b
  obtain ⟨e, hr⟩ : table b = PathTable.empty.afterAll (middleOps N) ∧ Ready b demoRobot := by
    refine ready_of ?_ _ rfl ?_ ?_ ?_
    · simp [middleOps, PathTable.AcceptsAll, PathTable.Accepts]
    · simp [middleOps, PathTable.afterAll, PathTable.after,
        PathTable.empty, PathTable.reach, PathTable.requireAt, PathTable.requireAlong, PathTable.guessAt]
    · simp [middleOps, PathTable.afterAll, PathTable.after,
        PathTable.empty, PathTable.reach, PathTable.requireAt, PathTable.requireAlong, PathTable.guessAt]
    · simp [middleOps, PathTable.afterAll, PathTable.after,
        PathTable.empty, PathTable.reach, PathTable.requireAt, PathTable.requireAlong, PathTable.guessAt, sampleCount]
      omega
  refine ⟨hr, ?_⟩
  rw [e]
  simp [middleOps, PathTable.afterAll, PathTable.after,
    PathTable.empty, PathTable.reach, PathTable.requireAt, PathTable.requireAlong, PathTable.guessAt]

/-- C120 fails, and depends on the number of control intervals: the problem of driving two metres straight
on while facing the middle of the way is differentiable at the start values exactly if that number is odd. -/
theorem C120_refuted (N : ℕ) (h0 : 0 < N) (hN : N < 2 ^ 63) :
    ∃ g, Generator.construct (run true (middleOps N) Builder.new) 0 = .ok g ∧
      (SmoothAt 1 g.problem (startVec g.problem) ↔ Odd N) := by
  obtain ⟨hr, hc, hco, hi0, hi1, hg0, hg1⟩ := middle_table N hN
  have hb : Reachable (run true (middleOps N) Builder.new) := ⟨true, _, rfl⟩
  obtain ⟨g, hg, -, -, -⟩ := C29_problem _ hb demoRobot hr demo_radius 0
  refine ⟨g, hg, ?_⟩
  generalize run true (middleOps N) Builder.new = b at *
  obtain ⟨sol, d, hsol, -, -, hx, -⟩ := C43_start b hb demoRobot hr 0 g hg _ rfl
  have hs : 0 < (table b).counts.length := by rw [hc]; simp
  have hst := C120_straight b hb demoRobot hr 0 g hg _ rfl 0 hs (.ofXYHeading (-1) 0 0) (.ofXYHeading 1 0 0)
    (by rw [hg0]; rfl) hg1
  have hcs : (table b).counts[0] = N := by simp [hc]
  have w0 : waypointSample (table b).counts 0 = 0 := by simp [waypointSample]
  simp only [hcs, w0, Nat.zero_add] at hst
  have hNr : (N : ℝ) ≠ 0 := by exact_mod_cast h0.ne'
  have hpos : ∀ k < N, ((decode g.vars g.problem.values).state (k + 1)).pos = ((2 * (k + 1 : ℕ) / N - 1 : ℝ) : ℂ) := by
    intro k hk
    rw [hst k hk, Complex.ext_iff]
    simp [vec, Pose2.ofXYHeading]
    ring
  have hseg : segmentSamples (table b).counts 0 = Finset.Ioc 0 N := by
    rw [segmentSamples, w0]; simp [hc, waypointSample]
  have hcos : Real.cos (1 / 10) ≠ 0 := (Real.cos_pos_of_mem_Ioo
    ⟨by linarith [Real.pi_gt_three], by linarith [Real.pi_gt_three]⟩).ne'
  have key : ∀ k < N, 2 * (k + 1) ≠ N →
      ((decode g.vars g.problem.values).state (k + 1)).pos ≠ vec ⟨0, 0⟩ := by
    intro k hk hne h
    rw [hpos k hk, show vec (⟨0, 0⟩ : Translation2 ℝ) = ((0 : ℝ) : ℂ) from rfl, Complex.ofReal_inj,
      sub_eq_zero, div_eq_one_iff_eq hNr] at h
    exact hne (by exact_mod_cast h)
  constructor
  · intro h
    by_contra hodd
    rw [Nat.not_odd_iff_even] at hodd
    obtain ⟨k, hk⟩ := hodd
    obtain ⟨j, rfl⟩ : ∃ j, k = j + 1 := ⟨k - 1, by omega⟩
    refine C120_facing_refuted b hb demoRobot hr 0 g hg _ rfl 0 hs ⟨0, 0⟩ (1 / 10) hcos (by rw [hco]; simp) (j + 1)
      (by rw [hseg, Finset.mem_Ioc]; omega) ?_ h
    rw [hpos j (by omega), hk]
    have : ((j : ℝ) + 1) ≠ 0 := by positivity
    rw [show (2 * ((j + 1 : ℕ) : ℝ) / ((j + 1 + (j + 1) : ℕ) : ℝ) - 1 : ℝ) = 0 by
      push_cast; field_simp; ring]
    rfl
  · intro hodd
    have hne : ∀ k, 2 * (k + 1) ≠ N := by
      rintro k rfl
      exact (Nat.not_even_iff_odd.mpr hodd) ⟨k + 1, by ring⟩
    have hzero : ((decode g.vars g.problem.values).state 0).pos ≠ vec ⟨0, 0⟩ := by
      obtain ⟨p, ps, h1, h2, -⟩ := C05_start _ _ _ hsol hr.size
      have e := (hx 0 (by simp [sampleCount])).1
      have hp : p = .ofXYHeading (-1) 0 0 := by
        rw [show (table b).guess 0 = b.initialGuessPoints.getD 0 [originPose] from rfl, List.getD, h1] at hg0
        simpa using congrArg List.head? hg0
      rw [h2, hp, Option.some.injEq] at e
      intro h
      rw [h] at e
      have e : (-1 : ℝ) = 0 := e
      norm_num at e
    refine C120_smooth_partial b hb demoRobot hr 0 g hg _ rfl ?_ ?_ 1
    · rw [hc]
      intro w hw c hcm
      have hw : w ≤ 1 := hw
      interval_cases w
      · rw [hi0] at hcm
        simp only [List.mem_cons, List.not_mem_nil, or_false] at hcm
        rcases hcm with rfl | rfl
        · exact fun h => h
        · exact fun h => hzero (by simpa [waypointSample] using h.1)
      · rw [hi1] at hcm
        simp only [List.mem_cons, List.not_mem_nil, or_false] at hcm
        rcases hcm with rfl | rfl
        · exact fun h => h
        · obtain ⟨k, rfl⟩ : ∃ k, N = k + 1 := ⟨N - 1, by omega⟩
          exact fun h => key k (by omega) (hne k) (by simpa [waypointSample] using h.1)
    · intro s hs' c hcm n hn
      obtain rfl : s = 0 := by rw [hc] at hs'; simpa using hs'
      rw [hco, List.mem_singleton] at hcm
      subst hcm
      rw [hseg, Finset.mem_Ioc] at hn
      obtain ⟨k, rfl⟩ : ∃ k, n = k + 1 := ⟨n - 1, by omega⟩
      exact fun h => key k (by omega) (hne k) h.1

/-- C120, non-vacuity: the path of `C120_refuted` with 40 control intervals. -/
example : ∃ g, Generator.construct (run true (middleOps 40) Builder.new) 0 = .ok g ∧
    (∀ c ∈ g.problem.cons, HasValue g.problem.values c) ∧ ¬ SmoothAt 1 g.problem (startVec g.problem) := by
  obtain ⟨hr, hc, hco, hi0, hi1, hg0, hg1⟩ := middle_table 40 (by norm_num)
  obtain ⟨g, hg, hs⟩ := C120_refuted 40 (by norm_num) (by norm_num)
  refine ⟨g, hg, ((C120_values _ ⟨true, _, rfl⟩ demoRobot hr 0 g hg ?_ ?_).2.mpr ⟨?_, ?_⟩), ?_⟩
  · rw [hg0]; simp [Pose2.ofXYHeading, Rotation2.ofAngle]
  · rw [hc]; simp
  · rw [hc]
    intro w hw c hcm
    have hw : w ≤ 1 := hw
    interval_cases w
    · rw [hi0] at hcm
      simp only [List.mem_cons, List.not_mem_nil, or_false] at hcm
      rcases hcm with rfl | rfl <;> exact fun h => h
    · rw [hi1] at hcm
      simp only [List.mem_cons, List.not_mem_nil, or_false] at hcm
      rcases hcm with rfl | rfl <;> exact fun h => h
  · intro s hs' c hcm
    obtain rfl : s = 0 := by rw [hc] at hs'; simpa using hs'
    rw [hco, List.mem_singleton] at hcm
    subst hcm
    exact fun h => h
  · rw [hs]; decide

end Trajopt.Props
