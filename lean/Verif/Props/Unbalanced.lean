import Verif.Props.FirstOrder

/-!
# C124: a path for which the solver looks in vain
-/

set_option autoImplicit false

namespace Trajopt.Props

open Spec Filter Topology

/-- In direction `d` an equation keeps its value, and an inequality is not active or gets no closer to its limit. -/
def Falls (σ d : ℕ → ℝ) : Con ℝ → Prop
  | .eq a b => a.Plain ∧ b.Plain ∧ a.tangent σ d - b.tangent σ d = 0
  | .le a b => a.eval σ < b.eval σ ∨ a.Plain ∧ b.Plain ∧ a.tangent σ d - b.tangent σ d ≤ 0
  | .ge a b => b.eval σ < a.eval σ ∨ a.Plain ∧ b.Plain ∧ 0 ≤ a.tangent σ d - b.tangent σ d
  | .leInf _ => True

/-- A direction in which the cost falls and no constraint objects excludes multipliers. -/
theorem not_balanced {p : Problem ℝ} {x : Fin p.nvars → ℝ} (hs : SmoothAt 1 p x)
    (hscope : ∀ c ∈ p.cons, ∀ i, Involves c i → i < p.nvars) (d : ℕ → ℝ)
    (hd : ∀ c ∈ p.cons, Falls (ofVec x) d c) {e : Expr ℝ} (he : p.cost = some e)
    (hcost : fderiv ℝ (fun y : Fin p.nvars → ℝ => e.eval (ofVec y)) x (fun i => d i) < 0) :
    ¬ ∃ m, Balanced p x 1 m := by
  classical
  rintro ⟨m, hB⟩
  have hbal := hB.balance e he fun i => d i
  have hrate : ∀ a b : Expr ℝ, (∀ i, Involves (.eq a b) i → i < p.nvars) →
      DifferentiableAt ℝ (fun y : Fin p.nvars → ℝ => conFun (ofVec y) (.eq a b)) x → a.Plain → b.Plain →
      fderiv ℝ (fun y : Fin p.nvars → ℝ => conFun (ofVec y) (.eq a b)) x (fun i => d i) =
        a.tangent (ofVec x) d - b.tangent (ofVec x) d := fun a b h1 h2 ha hb =>
    fderiv_of_rate h1 h2 ((rate_iff ha hb _).mpr rfl)
  have hsum : ∑ c ∈ p.cons.toFinset, m c * fderiv ℝ (fun y : Fin p.nvars → ℝ => conFun (ofVec y) c) x (fun i => d i) ≤ 0 := by
    refine Finset.sum_nonpos fun c hc => ?_
    rw [List.mem_toFinset] at hc
    have hdiff := (hs.2 c hc).differentiableAt (by simp)
    have hf := hd c hc
    by_cases hm : m c = 0
    · rw [hm, zero_mul]
    have hact := hB.active c hc hm
    cases c with
    | eq a b => rw [hrate a b (hscope _ hc) hdiff hf.1 hf.2.1, hf.2.2, mul_zero]
    | le a b =>
      rcases hf with hf | hf
      · exact absurd (sub_eq_zero.mp hact) hf.ne
      · have := hrate a b (hscope (.le a b) hc) hdiff hf.1 hf.2.1
        change _ * fderiv ℝ (fun y : Fin p.nvars → ℝ => conFun (ofVec y) (.eq a b)) x (fun i => d i) ≤ 0
        rw [this]
        exact mul_nonpos_of_nonneg_of_nonpos (hB.le a b) hf.2.2
    | ge a b =>
      rcases hf with hf | hf
      · exact absurd (sub_eq_zero.mp hact) hf.ne'
      · have := hrate a b (hscope (.ge a b) hc) hdiff hf.1 hf.2.1
        change _ * fderiv ℝ (fun y : Fin p.nvars → ℝ => conFun (ofVec y) (.eq a b)) x (fun i => d i) ≤ 0
        rw [this]
        exact mul_nonpos_of_nonpos_of_nonneg (hB.ge a b) hf.2.2
    | leInf a => exact absurd (hB.unlimited a) hm
  rw [one_mul] at hbal
  linarith

/-- A robot whose wheels roll freely. -/
noncomputable def rollRobot : SwerveDrivetrain ℝ := ⟨2, 1, [⟨⟨1, 1⟩, 1, 2, 0⟩, ⟨⟨-1, -1⟩, 1, 2, 0⟩]⟩

/-- Half a metre, starting with at most one metre per second and without turning. -/
noncomputable def rollOps : List (Op ℝ) :=
  [.setDrivetrain rollRobot, .poseWpt 0 0 0 0, .wptConstraint 0 (.linearVelocityMaxMagnitude 1),
    .wptConstraint 0 (.angularVelocityMaxMagnitude 0), .poseWpt 1 (1 / 2) 0 0, .controlIntervalCounts [1]]

theorem roll_table : let b : Builder ℝ := run true rollOps Builder.new
    Ready b rollRobot ∧ (table b).counts = [1] ∧ (table b).continuous 0 = [] ∧
      (table b).instant 0 = [.poseEquality 0 0 0, .linearVelocityMaxMagnitude 1, .angularVelocityMaxMagnitude 0] ∧
      (table b).instant 1 = [.poseEquality (1 / 2) 0 0] := by
  intro b
  obtain ⟨e, hr⟩ : table b = PathTable.empty.afterAll rollOps ∧ Ready b rollRobot := by
    refine ready_of ?_ _ rfl ?_ ?_ ?_ <;>
    simp [rollOps, PathTable.AcceptsAll, PathTable.Accepts, PathTable.afterAll, PathTable.after,
      PathTable.empty, PathTable.reach, PathTable.requireAt, PathTable.guessAt, sampleCount]
  refine ⟨hr, ?_⟩
  rw [e]
  simp [rollOps, PathTable.afterAll, PathTable.after, PathTable.empty, PathTable.reach, PathTable.requireAt,
    PathTable.guessAt]

theorem roll_gap (g : ℝ) (hg : Gap rollRobot g) : g = 2 := by
  obtain ⟨h0, m, m', hmm, hg⟩ := hg
  have : m = ⟨⟨1, 1⟩, 1, 2, 0⟩ ∧ m' = ⟨⟨-1, -1⟩, 1, 2, 0⟩ := by
    simpa [rollRobot] using hmm
  obtain ⟨rfl, rfl⟩ := this
  norm_num at hg
  exact hg

/-- What is known of every trajectory of the robot. -/
theorem roll_facts (T : Traj) (h : Obeys (table (run true rollOps Builder.new : Builder ℝ)) rollRobot T) :
    (∀ n < 2, (T.state n).acc = 0 ∧ (T.state n).alpha = 0 ∧ (T.state n).omega = 0 ∧ ‖(T.state n).heading‖ = 1 ∧
      ∀ j < 2, T.force n j = 0) ∧
    (T.state 1).vel = (T.state 0).vel ∧ ‖(T.state 0).vel‖ ≤ 1 ∧ 0 < T.dt 0 := by
  obtain ⟨-, hc, hco, hi0, hi1⟩ := roll_table
  obtain ⟨o1, o2, o3, o4, o5, o6⟩ := h
  rw [hc] at o1 o2 o3 o4 o5 o6
  have hF : ∀ n < 2, ∀ j < 2, T.force n j = 0 := by
    intro n hn j hj
    have := (o2 n (by simpa [sampleCount] using hn)).limit ⟨j, by simpa [rollRobot] using hj⟩
    rw [← norm_le_zero_iff]
    refine this.trans (le_of_eq ?_)
    interval_cases j <;> simp [rollRobot, maxForce]
  have ha : ∀ n < 2, (T.state n).acc = 0 ∧ (T.state n).alpha = 0 := by
    intro n hn
    have hd := o2 n (by simpa [sampleCount] using hn)
    have e1 := hd.force
    have e2 := hd.torque
    have hz : ∀ j : Fin rollRobot.modules.length, T.force n j = 0 := fun j => hF n hn j (by
      have := j.2
      simpa [rollRobot] using this)
    simp only [hz, torque, mul_zero, Complex.zero_im, Finset.sum_const_zero] at e1 e2
    exact ⟨by simpa [rollRobot] using e1.symm, by simpa [rollRobot] using e2.symm⟩
  have hI := o1 0 (by simp) 1 (by simp [segmentSamples, waypointSample])
  have hw0 : waypointSample [1] 0 = 0 ∧ waypointSample [1] 1 = 1 := ⟨rfl, rfl⟩
  have m0 := o5 0 (by simp)
  have m1 := o5 1 (by simp)
  rw [hi0, hw0.1] at m0
  rw [hi1, hw0.2] at m1
  have p0 := m0 (.poseEquality 0 0 0) (by simp)
  have v0 := m0 (.linearVelocityMaxMagnitude 1) (by simp)
  have w0 := m0 (.angularVelocityMaxMagnitude 0) (by simp)
  have p1 := m1 (.poseEquality (1 / 2) 0 0) (by simp)
  have hw0' : (T.state 0).omega = 0 := by
    have : |(T.state 0).omega| ≤ 0 := w0
    exact abs_nonpos_iff.mp this
  have hv : (T.state 1).vel = (T.state 0).vel := by
    have := hI.vel
    rw [(ha 1 (by norm_num)).1, mul_zero, add_zero] at this
    exact this
  have hw1 : (T.state 1).omega = 0 := by
    have := hI.omega
    rw [(ha 1 (by norm_num)).2, mul_zero, add_zero] at this
    exact this.trans hw0'
  refine ⟨fun n hn => ⟨(ha n hn).1, (ha n hn).2, ?_, ?_, hF n hn⟩, hv, ?_, ?_⟩
  · interval_cases n
    · exact hw0'
    · exact hw1
  · have hu : ∀ z : ℂ, z = unitVec 0 ∨ z = -unitVec 0 → ‖z‖ = 1 := by
      rintro z (rfl | rfl) <;> simp [unitVec]
    interval_cases n
    · exact hu _ p0.2
    · exact hu _ p1.2
  · have : ‖(T.state 0).vel‖ ≤ |(1 : ℝ)| := v0
    rwa [abs_one] at this
  · refine lt_of_le_of_ne (o3 0 (by simp)) fun h0 => ?_
    have := hI.pos
    rw [← h0, p1.1, p0.1] at this
    have := congrArg Complex.re this
    norm_num [vec] at this

/-- The robot can roll to the second waypoint. -/
theorem roll_solves : ∃ T, Solves (run true rollOps Builder.new) rollRobot T := by
  obtain ⟨hr, hc, hco, hi0, hi1⟩ := roll_table
  refine ⟨⟨fun n => ⟨(n : ℂ) / 2, 1, 1, 0, 0, 0⟩, fun _ _ => 0, fun _ => 1 / 2⟩, ?_⟩
  rw [solves_iff ⟨true, _, rfl⟩ hr (by simp [rollRobot])]
  constructor <;> rw [hc]
  · intro s hs n hn
    obtain rfl : s = 0 := by simpa using hs
    obtain rfl : n = 1 := by
      simp [segmentSamples, waypointSample] at hn
      omega
    constructor
    · simp
    · left; simp [unitVec]
    · simp
    · simp
  · intro n _
    constructor
    · simp
    · simp [torque]
    · intro m hm
      simp only [rollRobot, List.mem_cons, List.not_mem_nil, or_false] at hm
      rcases hm with rfl | rfl <;> norm_num [wheelVelocity, maxSpeed]
    · intro j
      simp [maxForce]
  · intro s _; norm_num
  · intro s _ m hm g hg
    rw [roll_gap g hg]
    simp only [rollRobot, List.mem_cons, List.not_mem_nil, or_false] at hm
    rcases hm with rfl | rfl <;> norm_num
  · intro w hw c hcm
    have hw0 : waypointSample [1] 0 = 0 ∧ waypointSample [1] 1 = 1 := ⟨rfl, rfl⟩
    have hw : w ≤ 1 := by simpa using hw
    interval_cases w
    · rw [hi0] at hcm
      simp only [List.mem_cons, List.not_mem_nil, or_false] at hcm
      rw [hw0.1]
      rcases hcm with rfl | rfl | rfl
      · exact ⟨by simp [vec, Complex.ext_iff], .inl (by simp [unitVec])⟩
      · simp [Meaning]
      · simp [Meaning]
    · rw [hi1] at hcm
      simp only [List.mem_cons, List.not_mem_nil, or_false] at hcm
      rw [hw0.2]
      subst hcm
      exact ⟨by simp [vec, Complex.ext_iff], .inl (by simp [unitVec])⟩
  · intro s hs c hcm
    obtain rfl : s = 0 := by simpa using hs
    rw [hco] at hcm
    simp at hcm

/-- Pull away, and arrive earlier. -/
noncomputable def pull (σ : ℕ → ℝ) (i : ℕ) : ℝ :=
  if i = 18 then σ 18 else if i = 19 then σ 19 else if i = 21 then σ 18 / σ 28 else if i = 22 then σ 19 / σ 28
  else if i = 24 then σ 18 / σ 28 else if i = 25 then σ 19 / σ 28 else if i = 26 then σ 18 / σ 28
  else if i = 27 then σ 19 / σ 28 else if i = 28 then -σ 28 else 0

/-- What feasibility says about the variables. -/
structure Rolling (σ : ℕ → ℝ) : Prop where
  idle : ∀ i ∈ [6, 7, 8, 9, 10, 11, 12, 13, 20, 21, 22, 23, 24, 25, 26, 27], σ i = 0
  same : σ 4 = σ 18 ∧ σ 5 = σ 19
  slow : σ 18 * σ 18 + σ 19 * σ 19 ≤ 1
  facing : σ 2 * σ 2 + σ 3 * σ 3 = 1 ∧ σ 16 * σ 16 + σ 17 * σ 17 = 1
  time : 0 < σ 28

theorem roll_falls {σ : ℕ → ℝ} (h : Rolling σ) {path : SwervePath ℝ}
    (h0 : (path.waypoints.getD 0 {}).waypointConstraints =
      [.poseEquality 0 0 0, .linearVelocityMaxMagnitude 1, .angularVelocityMaxMagnitude 0])
    (h1 : (path.waypoints.getD 1 {}).waypointConstraints = [.poseEquality (1 / 2) 0 0])
    (h2 : (path.waypoints.getD 1 {}).segmentConstraints = []) :
    ∀ c ∈ allCons path rollRobot [1], Falls σ (pull σ) c := by
  obtain ⟨hi, ⟨s4, s5⟩, hs, ⟨f0, f1⟩, ht⟩ := h
  simp only [List.mem_cons, List.not_mem_nil, or_false, forall_eq_or_imp, forall_eq] at hi
  obtain ⟨i6, i7, i8, i9, i10, i11, i12, i13, i20, i21, i22, i23, i24, i25, i26, i27⟩ := hi
  have p : pull σ 18 = σ 18 ∧ pull σ 19 = σ 19 ∧ pull σ 21 = σ 18 / σ 28 ∧ pull σ 22 = σ 19 / σ 28 ∧
      pull σ 24 = σ 18 / σ 28 ∧ pull σ 25 = σ 19 / σ 28 ∧ pull σ 26 = σ 18 / σ 28 ∧ pull σ 27 = σ 19 / σ 28 ∧
      pull σ 28 = -σ 28 := by simp [pull]
  obtain ⟨p18, p19, p21, p22, p24, p25, p26, p27, p28⟩ := p
  have q : ∀ i ∈ [0, 1, 2, 3, 4, 5, 6, 7, 8, 9, 10, 11, 12, 13, 14, 15, 16, 17, 20, 23], pull σ i = 0 := by simp [pull]
  simp only [List.mem_cons, List.not_mem_nil, or_false, forall_eq_or_imp, forall_eq] at q
  obtain ⟨q0, q1, q2, q3, q4, q5, q6, q7, q8, q9, q10, q11, q12, q13, q14, q15, q16, q17, q20, q23⟩ := q
  have ht' := ht.ne'
  simp only [List.getD_eq_getElem?_getD] at h0 h1 h2
  intro c hc
  simp only [allCons, List.mem_append] at hc
  rcases hc with ((((hc | hc) | hc) | hc) | hc) | hc
  · change c ∈ [stepCap (minWidth rollRobot.modules) 28 ⟨⟨1, 1⟩, 1, 2, 0⟩,
      stepCap (minWidth rollRobot.modules) 28 ⟨⟨-1, -1⟩, 1, 2, 0⟩] at hc
    simp only [List.mem_cons, List.not_mem_nil, or_false] at hc
    have : ∀ w : Option ℝ, ∀ md : SwerveModule ℝ, md.wheelRadius = 1 → md.wheelMaxAngularVelocity = 2 →
        Falls σ (pull σ) (stepCap w 28 md) := by
      intro w md e1 e2
      cases w with
      | none => trivial
      | some w =>
        right
        refine ⟨⟨⟨trivial, trivial⟩, trivial⟩, trivial, ?_⟩
        simp [p28, e1, e2, ht.le]
    rcases hc with rfl | rfl
    · exact this _ _ rfl rfl
    · exact this _ _ rfl rfl
  · change c ∈ [Con.ge (Expr.var 28) (Num.lit 0)] at hc
    rw [List.mem_singleton] at hc
    subst hc
    left
    simpa using ht
  · simp [kinList, kinCons, rollRobot, stride, sampleVars, Translation2.eqCons, Rotation2.eqCons] at hc
    rcases hc with rfl | rfl | rfl | rfl | rfl | rfl | rfl | rfl <;>
    simp [Falls, Rotation2.ofAngle, Rotation2.sub, Rotation2.add, Rotation2.rotateBy, Rotation2.neg, Translation2.add, Translation2.smul, *]
  · simp [dynCons, rollRobot, stride, sampleVars, powerList, powerCons, forceVars, List.range_succ] at hc
    rcases hc with rfl | rfl | rfl | rfl | rfl | rfl | rfl | rfl | rfl | rfl | rfl | rfl | rfl | rfl
    all_goals
      first
      | left
        simp [Translation2.rotateBy, Translation2.squaredNorm, Rotation2.neg, i6, i20, s4, s5]
        first
        | linear_combination hs + (σ 18 * σ 18 + σ 19 * σ 19) * f0
        | linear_combination hs + (σ 18 * σ 18 + σ 19 * σ 19) * f1
      | right
        simp [Translation2.squaredNorm, i10, i11, i12, i13, i24, i25, i26, i27]
      | simp [Falls, accumulate, torqueExpr, forceVars, stride, sampleVars, Translation2.rotateBy, Translation2.cross,
          Translation2.toV, *]
    all_goals ring
  · simp [wptList, List.range_succ, h0, h1, Constraint.apply, Pose2.eqCons, Translation2.eqCons, Rotation2.eqCons,
      Dbl.eq, rollRobot, stride, sampleVars] at hc
    rcases hc with rfl | rfl | rfl | rfl | rfl | rfl | rfl | rfl | rfl | rfl
    all_goals simp [Falls, Translation2.squaredNorm, Translation2.toV, Rotation2.toV, *]
  · simp [sgmtList, h2] at hc

/-- C124 is false: there is a path with a fastest trajectory for which no trajectory at all satisfies the conditions that
the solver looks for, though cost and constraints are smooth everywhere.  The wheels have no torque, so that the robot cannot
pull; but the gradient of the limit `‖F‖² ≤ 0` is zero at `F = 0` and does not show it. -/
theorem C124_refuted : ∃ (b : Builder ℝ) (dr : SwerveDrivetrain ℝ) (g : Generator ℝ),
    Generator.construct b 0 = .ok g ∧ (∃ T, Fastest b dr T) ∧
    ∀ x : Fin g.problem.nvars → ℝ, g.problem.Feasible (ofVec x) →
      SmoothAt 1 g.problem x ∧ ¬ ∃ m, Balanced g.problem x 1 m := by
  obtain ⟨hr, hc, hco, hi0, hi1⟩ := roll_table
  have hb : Reachable (run true rollOps Builder.new : Builder ℝ) := ⟨true, _, rfl⟩
  have hR : ∀ m ∈ rollRobot.modules, m.wheelRadius ≠ 0 := by simp [rollRobot]
  obtain ⟨g, hg, hf, -, -⟩ := C29_problem _ hb rollRobot hr hR 0
  refine ⟨_, rollRobot, g, hg, C78_fastest _ rollRobot roll_solves 0 (Nat.zero_le _) 0 0 0 (by rw [hi0]; simp)
    ⟨⟨⟨1, 1⟩, 1, 2, 0⟩, by simp [rollRobot], ⟨⟨-1, -1⟩, 1, 2, 0⟩, by simp [rollRobot], by norm_num⟩ (by simp [rollRobot])
    (by simp [rollRobot]), fun x hx => ?_⟩
  have hsm : SmoothAt 1 g.problem x := by
    refine C110_smooth_partial _ hb rollRobot hr 0 g hg x ?_ ?_ 1
    · intro w hw c hcm
      rw [hc] at hw
      have hw : w ≤ 1 := by simpa using hw
      interval_cases w
      · rw [hi0] at hcm
        simp only [List.mem_cons, List.not_mem_nil, or_false] at hcm
        rcases hcm with rfl | rfl | rfl <;> exact fun h => h
      · rw [hi1] at hcm
        simp only [List.mem_cons, List.not_mem_nil, or_false] at hcm
        subst hcm
        exact fun h => h
    · intro s hs c hcm
      rw [hc] at hs
      obtain rfl : s = 0 := by simpa using hs
      rw [hco] at hcm
      simp at hcm
  refine ⟨hsm, ?_⟩
  obtain ⟨hn, hv, hv0, hdt⟩ := roll_facts _ ((hf _).mp hx)
  obtain ⟨e, he, hev⟩ := C42_objective _ hb rollRobot hr (by rw [hc]; simp) 0 g hg
  have hscope := C111_scope _ hb rollRobot hr 0 g hg
  obtain ⟨hvars, hnv, hcons, -⟩ := closed_parts hb hr hg
  rw [hc] at hvars hnv hcons
  have hnv : g.problem.nvars = 29 := hnv
  have hd0 : ∀ σ, (decode g.vars σ).dt 0 = σ 28 := fun σ => by
    rw [hvars]
    rfl
  have hS : ∀ n < 2, (decode g.vars (ofVec x)).state n = decodeSample (ofVec x) (sampleVars 2 n) := fun n h => by
    rw [hvars]
    exact decode_state _ _ _ _ h
  have hF : ∀ n < 2, ∀ j < 2, (decode g.vars (ofVec x)).force n j = forceOf (ofVec x) 2 n j := fun n h j hj => by
    rw [hvars]
    exact decode_force _ _ _ _ h hj
  have hroll : Rolling (ofVec x) := by
    rw [hd0] at hdt
    rw [hS 0 (by norm_num), hS 1 (by norm_num)] at hv
    rw [hS 0 (by norm_num)] at hv0
    obtain ⟨a0, b0, c0, e0, f0⟩ := hn 0 (by norm_num)
    obtain ⟨a1, b1, c1, e1, f1⟩ := hn 1 (by norm_num)
    have f00 := f0 0 (by norm_num)
    have f01 := f0 1 (by norm_num)
    have f10 := f1 0 (by norm_num)
    have f11 := f1 1 (by norm_num)
    rw [hS 0 (by norm_num)] at a0 b0 c0 e0
    rw [hS 1 (by norm_num)] at a1 b1 c1 e1
    rw [hF _ (by norm_num) _ (by norm_num)] at f00 f01 f10 f11
    simp only [decodeSample, evalVec, sampleVars, forceOf, stride, Complex.ext_iff, eval_var, Complex.zero_re,
      Complex.zero_im] at a0 b0 c0 f00 f01 a1 b1 c1 f10 f11 hv hv0
    have hsq : ∀ a b : ℝ, ‖(⟨a, b⟩ : ℂ)‖ ^ 2 = a * a + b * b := fun a b => by rw [Complex.sq_norm, Complex.normSq_mk]
    refine ⟨?_, ⟨hv.1.symm, hv.2.symm⟩, ?_, ⟨?_, ?_⟩, hdt⟩
    · simp only [List.mem_cons, List.not_mem_nil, or_false, forall_eq_or_imp, forall_eq]
      exact ⟨c0, a0.1, a0.2, b0, f00.1, f00.2, f01.1, f01.2, c1, a1.1, a1.2, b1, f10.1, f10.2, f11.1, f11.2⟩
    · have h := hsq (ofVec x 4) (ofVec x 5)
      have hv0 : ‖(⟨ofVec x 4, ofVec x 5⟩ : ℂ)‖ ≤ 1 := hv0
      have e4 : ofVec x 18 = ofVec x 4 := hv.1
      have e5 : ofVec x 19 = ofVec x 5 := hv.2
      rw [e4, e5, ← h]
      exact pow_le_one₀ (norm_nonneg _) hv0
    · have h := hsq (ofVec x 2) (ofVec x 3)
      have e0 : ‖(⟨ofVec x 2, ofVec x 3⟩ : ℂ)‖ = 1 := e0
      rw [← h, e0, one_pow]
    · have h := hsq (ofVec x 16) (ofVec x 17)
      have e1 : ‖(⟨ofVec x 16, ofVec x 17⟩ : ℂ)‖ = 1 := e1
      rw [← h, e1, one_pow]
  have h28 : 28 < g.problem.nvars := by omega
  refine not_balanced hsm hscope (pull (ofVec x)) ?_ he ?_
  · rw [hcons]
    exact roll_falls hroll hi0 hi1 hco
  · have hcost : (fun y : Fin g.problem.nvars → ℝ => e.eval (ofVec y)) = fun y => y ⟨28, h28⟩ := by
      funext y
      rw [(hev (ofVec y)).1]
      have hsum : ∀ (l : List ℕ) (f : ℕ → ℝ), l = [1] → ∑ s : Fin l.length, (l[s] : ℝ) * f s = f 0 := by
        rintro l f rfl
        simp
      rw [hsum _ _ hc]
      simp [hd0, ofVec, h28]
    rw [hcost, (hasFDerivAt_apply (𝕜 := ℝ) (⟨28, h28⟩ : Fin g.problem.nvars) x).fderiv]
    simp only [ContinuousLinearMap.proj_apply]
    have : pull (ofVec x) 28 = -ofVec x 28 := rfl
    rw [this]
    exact neg_neg_of_pos hroll.time

end Trajopt.Props
