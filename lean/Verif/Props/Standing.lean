import Verif.Props.Steer

/-!
# C109: standing on a segment
-/

set_option autoImplicit false

namespace Trajopt.Props

open Spec

/-- The constraints prescribe a place. -/
def Sited (cs : List (Constraint ℝ)) : Prop :=
  (∃ x y θ, .poseEquality x y θ ∈ cs) ∨ ∃ t, .translationEquality t ∈ cs

theorem placed_mem {b : Builder ℝ} {dr : SwerveDrivetrain ℝ} {w : ℕ} (hw : w ≤ (table b).counts.length)
    (h : Sited ((table b).instant w)) : ∃ x, Con.eq (.var (waypointSample (table b).counts w * stride dr.modules.length))
      (.const x) ∈ allCons b.path dr (table b).counts := by
  have key : ∀ c ∈ (table b).instant w, ∀ k ∈ c.apply (sampleVars dr.modules.length (waypointSample (table b).counts w)),
      k ∈ allCons b.path dr (table b).counts := by
    intro c hc k hk
    simp only [allCons, List.mem_append]
    exact .inl (.inr (List.mem_flatMap.mpr ⟨w, List.mem_range.mpr (by omega), List.mem_flatMap.mpr ⟨c, hc, hk⟩⟩))
  rcases h with ⟨x, y, θ, h⟩ | ⟨t, h⟩
  · refine ⟨x, key _ h _ ?_⟩
    simp only [Constraint.apply, Pose2.eqCons, Translation2.eqCons, List.mem_append]
    exact .inl (List.mem_cons_self ..)
  · refine ⟨t.x, key _ h _ ?_⟩
    simp only [Constraint.apply, Translation2.eqCons]
    exact List.mem_cons_self ..

/-- The constraints of a waypoint are among the constraints of the problem. -/
theorem waypoint_mem {b : Builder ℝ} {dr : SwerveDrivetrain ℝ} {w : ℕ} (hw : w ≤ (table b).counts.length)
    {c : Constraint ℝ} (hc : c ∈ (table b).instant w) {k : Con ℝ}
    (hk : k ∈ c.apply (sampleVars dr.modules.length (waypointSample (table b).counts w))) :
    k ∈ allCons b.path dr (table b).counts := by
  simp only [allCons, List.mem_append]
  exact .inl (.inr (List.mem_flatMap.mpr ⟨w, List.mem_range.mpr (by omega), List.mem_flatMap.mpr ⟨c, hc, hk⟩⟩))

/-- A constraint on a segment, or at the end of a segment of a single control interval, is there at all samples of the segment. -/
theorem along_mem {b : Builder ℝ} {dr : SwerveDrivetrain ℝ} {s : ℕ} (hs : s < (table b).counts.length)
    {c : Constraint ℝ} (hc : c ∈ (table b).continuous s ∨ (table b).counts[s] = 1 ∧ c ∈ (table b).instant (s + 1))
    {n : ℕ} (hn : n ∈ segmentSamples (table b).counts s) {k : Con ℝ}
    (hk : k ∈ c.apply (sampleVars dr.modules.length n)) : k ∈ allCons b.path dr (table b).counts := by
  rw [segmentSamples, Finset.mem_Ioc, waypointSample, waypointSample, sum_take_succ _ hs] at hn
  rcases hc with h | ⟨h1, h⟩
  · simp only [allCons, List.mem_append]
    refine .inr (List.mem_flatMap.mpr ⟨s, List.mem_range.mpr hs, List.mem_flatMap.mpr ⟨_, h, List.mem_flatMap.mpr
      ⟨_, ?_, hk⟩⟩⟩)
    rw [List.mem_range'_1, getD_lt hs]
    omega
  · refine waypoint_mem hs h ?_
    rw [waypointSample, sum_take_succ _ hs, h1, show ((table b).counts.take s).sum + 1 = n by omega]
    exact hk

/-- A coordinate prescribed at both ends of a segment on which its rate of change is prescribed to be zero. -/
theorem chain_dependent {b : Builder ℝ} (hb : Reachable b) {dr : SwerveDrivetrain ℝ} (hr : Ready b dr)
    {handle : ℤ} {g : Generator ℝ} (hg : Generator.construct b handle = .ok g) (p q : ℕ)
    (hkin : ∀ n dt, Con.eq (.add (.var ((n - 1) * stride dr.modules.length + p))
      (.mul (.var (n * stride dr.modules.length + q)) (.var dt))) (.var (n * stride dr.modules.length + p)) ∈
      kinCons (sampleVars dr.modules.length (n - 1)) (sampleVars dr.modules.length n) (.var dt : Expr ℝ))
    {s : ℕ} (hs : s < (table b).counts.length) (h0 : 0 < (table b).counts[s])
    (hw : ∀ w, w = s ∨ w = s + 1 → ∃ x, Con.eq (.var (waypointSample (table b).counts w * stride dr.modules.length + p))
      (.const x) ∈ allCons b.path dr (table b).counts)
    (hstill : ∀ n ∈ segmentSamples (table b).counts s,
      Con.eq (.var (n * stride dr.modules.length + q)) (.const 0) ∈ allCons b.path dr (table b).counts)
    {σ : ℕ → ℝ} (hσ : g.problem.Feasible σ) :
    ¬ Independent (fun c => ¬ Identity c ∧ ∀ n, 0 < n → n < sampleCount (table b).counts →
      c ≠ headRow dr.modules.length n) g.problem.cons σ := by
  classical
  rw [Problem.Feasible] at hσ
  rw [cons_closed hb hr hg] at hσ ⊢
  set N := (table b).counts with hN
  set m := dr.modules.length with hm
  intro h
  obtain ⟨d, hd⟩ := independent_mem h fun c => if ∃ (n : ℕ) (dt : ℕ), c = .eq (.add (.var ((n - 1) * stride m + p))
    (.mul (.var (n * stride m + q)) (.var dt))) (.var (n * stride m + p)) then 1 else 0
  have hplace : ∀ w, w = s ∨ w = s + 1 → d (waypointSample N w * stride m + p) = 0 := by
    intro w hwl
    obtain ⟨x, hx⟩ := hw w hwl
    have := hd _ hx
    rw [if_neg (by rintro ⟨n, dt, e⟩; cases e)] at this
    have := row_of this ⟨fun hi => ?_, fun n _ _ e => by cases e⟩ trivial trivial
    · simpa using this
    · have := (hi fun _ => x + 1).2.2
      simp at this
  have hmv : ∀ n ∈ segmentSamples N s, σ (n * stride m + q) = 0 ∧ d (n * stride m + q) = 0 := by
    intro n hn
    have hmem := hstill n hn
    refine ⟨by simpa using (hσ _ hmem).2.2, ?_⟩
    have := hd _ hmem
    rw [if_neg (by rintro ⟨n, dt, e⟩; cases e)] at this
    have := row_of this ⟨fun hi => ?_, fun n _ _ e => by cases e⟩ trivial trivial
    · simpa using this
    · have := (hi fun _ => 1).2.2
      simp at this
  have hstep : ∀ n ∈ segmentSamples N s, d (n * stride m + p) = d ((n - 1) * stride m + p) - 1 := by
    intro n hn
    have hlt : 0 < n ∧ n ≤ N.sum := by
      rw [segmentSamples, Finset.mem_Ioc] at hn
      have := sum_take_le N (s + 1)
      simp only [waypointSample] at *
      omega
    obtain ⟨dt, hk⟩ := kin_mem (path := b.path) (dr := dr) (N := N) (n := n) hlt.1 hlt.2
    have := hd _ (hk _ (hkin n dt))
    rw [if_pos ⟨n, dt, rfl⟩] at this
    have := row_of this ⟨fun hi => ?_, fun n _ _ e => by cases e⟩ ⟨trivial, trivial, trivial⟩ trivial
    · simp only [Expr.tangent, Expr.eval, (hmv n hn).1, (hmv n hn).2] at this
      linarith
    · have := (hi fun _ => 1).2.2
      norm_num [Expr.eval] at this
  have hsum : ∀ k ≤ N[s], d ((waypointSample N s + k) * stride m + p) = -k := by
    intro k
    induction k with
    | zero => intro _; simpa using hplace s (.inl rfl)
    | succ k ih =>
      intro hk
      have := hstep (waypointSample N s + (k + 1)) (by
        rw [segmentSamples, Finset.mem_Ioc, waypointSample, waypointSample, sum_take_succ N hs]
        omega)
      rw [this, show waypointSample N s + (k + 1) - 1 = waypointSample N s + k by omega, ih (by omega)]
      push_cast
      ring
  have he := hplace (s + 1) (.inr rfl)
  have := hsum N[s] le_rfl
  rw [show waypointSample N s + N[s] = waypointSample N (s + 1) by
    unfold waypointSample; rw [sum_take_succ N hs], he] at this
  have hpos : (0 : ℝ) < N[s] := by exact_mod_cast h0
  linarith

/-- C109 also fails where the robot has to stand between two prescribed places: on a whole segment, or at the end of a segment
of a single control interval.  The equations of motion then say again that the two places are the same. -/
theorem C109_still_refuted (b : Builder ℝ) (hb : Reachable b) (dr : SwerveDrivetrain ℝ) (hr : Ready b dr)
    (handle : ℤ) (g : Generator ℝ) (hg : Generator.construct b handle = .ok g)
    (s : ℕ) (hs : s < (table b).counts.length) (h0 : 0 < (table b).counts[s])
    (hw : Sited ((table b).instant s)) (hw' : Sited ((table b).instant (s + 1)))
    (hstill : .linearVelocityMaxMagnitude 0 ∈ (table b).continuous s ∨
      (table b).counts[s] = 1 ∧ .linearVelocityMaxMagnitude 0 ∈ (table b).instant (s + 1))
    (σ : ℕ → ℝ) (hσ : g.problem.Feasible σ) :
    ¬ Independent (fun c => ¬ Identity c ∧ ∀ n, 0 < n → n < sampleCount (table b).counts →
      c ≠ headRow dr.modules.length n) g.problem.cons σ := by
  refine chain_dependent hb hr hg 0 4 (fun n dt => ?_) hs h0 ?_ (fun n hn => along_mem hs hstill hn ?_) hσ
  · simp only [kinCons, List.mem_append]
    exact .inl (.inl (.inl (List.mem_cons_self ..)))
  · rintro w (rfl | rfl)
    · exact placed_mem hs.le hw
    · exact placed_mem hs hw'
  · simp [Constraint.apply, Dbl.eq, sampleVars, Num.lit]

/-- And where the robot has to stop at two waypoints without accelerating in between: the equations of motion then say again
that the velocities agree. -/
theorem C109_coast_refuted (b : Builder ℝ) (hb : Reachable b) (dr : SwerveDrivetrain ℝ) (hr : Ready b dr)
    (handle : ℤ) (g : Generator ℝ) (hg : Generator.construct b handle = .ok g)
    (s : ℕ) (hs : s < (table b).counts.length) (h0 : 0 < (table b).counts[s])
    (hw : .linearVelocityMaxMagnitude 0 ∈ (table b).instant s)
    (hw' : .linearVelocityMaxMagnitude 0 ∈ (table b).instant (s + 1))
    (hcoast : .linearAccelerationMaxMagnitude 0 ∈ (table b).continuous s ∨
      (table b).counts[s] = 1 ∧ .linearAccelerationMaxMagnitude 0 ∈ (table b).instant (s + 1))
    (σ : ℕ → ℝ) (hσ : g.problem.Feasible σ) :
    ¬ Independent (fun c => ¬ Identity c ∧ ∀ n, 0 < n → n < sampleCount (table b).counts →
      c ≠ headRow dr.modules.length n) g.problem.cons σ := by
  refine chain_dependent hb hr hg 4 7 (fun n dt => ?_) hs h0 ?_ (fun n hn => along_mem hs hcoast hn ?_) hσ
  · simp only [kinCons, List.mem_append]
    exact .inl (.inr (List.mem_cons_self ..))
  · rintro w (rfl | rfl)
    · exact ⟨0, waypoint_mem hs.le hw (by simp [Constraint.apply, Dbl.eq, sampleVars, Num.lit])⟩
    · exact ⟨0, waypoint_mem hs hw' (by simp [Constraint.apply, Dbl.eq, sampleVars, Num.lit])⟩
  · simp [Constraint.apply, Dbl.eq, sampleVars, Num.lit]

theorem turn_rates {c s c' s' dc ds dc' ds' : ℝ} (hq : c' * c' + s' * s' = 1)
    (hn : (c * c' + s * s') ^ 2 + (s * c' - c * s') ^ 2 = 1) (hl : s * c' - c * s' = 0)
    (hd : ds * c' + s * dc' - dc * s' - c * ds' = c * c' + s * s') :
    c * c + s * s = 1 ∧ c * ds - s * dc = c' * ds' - s' * dc' + 1 := by
  have h1 : c = (c * c' + s * s') * c' := by linear_combination -c * hq - s' * hl
  have h2 : s = (c * c' + s * s') * s' := by linear_combination -s * hq + c' * hl
  generalize c * c' + s * s' = e at *
  subst h1 h2
  have he : e * e = 1 := by linear_combination hn - (e * s' * c' - e * c' * s') * hl
  refine ⟨by linear_combination e * e * hq + he, ?_⟩
  linear_combination e * hd + he + (c' * ds' - s' * dc') * he

/-- How much each constraint is to change: each equation of a turn by the cosine of that turn. -/
noncomputable def turnRhs (σ : ℕ → ℝ) : Con ℝ → ℝ
  | .eq (.sub (.mul a (.sin _)) _) _ => -a.eval σ
  | _ => 0

/-- And where the robot must not turn between two prescribed headings: the equations of motion then say again that the two
headings agree. -/
theorem C109_turn_refuted (b : Builder ℝ) (hb : Reachable b) (dr : SwerveDrivetrain ℝ) (hr : Ready b dr)
    (handle : ℤ) (g : Generator ℝ) (hg : Generator.construct b handle = .ok g)
    (s : ℕ) (hs : s < (table b).counts.length) (h0 : 0 < (table b).counts[s]) (x y θ x' y' θ' : ℝ)
    (hw : .poseEquality x y θ ∈ (table b).instant s) (hw' : .poseEquality x' y' θ' ∈ (table b).instant (s + 1))
    (hstill : .angularVelocityMaxMagnitude 0 ∈ (table b).continuous s ∨
      (table b).counts[s] = 1 ∧ .angularVelocityMaxMagnitude 0 ∈ (table b).instant (s + 1))
    (σ : ℕ → ℝ) (hσ : g.problem.Feasible σ) :
    ¬ Independent (fun c => ¬ Identity c ∧ ∀ n, 0 < n → n < sampleCount (table b).counts →
      c ≠ headRow dr.modules.length n) g.problem.cons σ := by
  rw [Problem.Feasible] at hσ
  rw [cons_closed hb hr hg] at hσ ⊢
  set N := (table b).counts with hN
  set m := dr.modules.length with hm
  intro h
  obtain ⟨d, hd⟩ := independent_mem h (turnRhs σ)
  let q : ℕ → ℝ := fun n => σ (n * stride m + 2) * σ (n * stride m + 2) + σ (n * stride m + 3) * σ (n * stride m + 3)
  let f : ℕ → ℝ := fun n => σ (n * stride m + 2) * d (n * stride m + 3) - σ (n * stride m + 3) * d (n * stride m + 2)
  have hplace : ∀ w ≤ N.length, ∀ x y θ, .poseEquality x y θ ∈ (table b).instant w →
      q (waypointSample N w) = 1 ∧ f (waypointSample N w) = 0 := by
    intro w hwl x y θ hp
    have hq : q (waypointSample N w) = 1 := by
      have := (hσ _ (headRow_mem (dr := dr) hwl hp)).2.2
      simpa [sampleVars, q] using this
    refine ⟨hq, ?_⟩
    have hmem : Con.eq (.sub (.mul (.var (waypointSample N w * stride m + 2)) (.const (Real.sin θ)))
        (.mul (.var (waypointSample N w * stride m + 3)) (.const (Real.cos θ)))) (.const 0) ∈ allCons b.path dr N := by
      refine waypoint_mem hwl hp ?_
      simp only [Constraint.apply, Pose2.eqCons, Rotation2.eqCons, List.mem_append]
      refine .inr (.inl (.inl ?_))
      rw [List.mem_singleton]
      simp [sampleVars, Pose2.ofXYHeading, Rotation2.ofAngle, Rotation2.toV, Num.lit]
      rfl
    have h1 := (hσ _ hmem).2.2
    have h2 := row_of (hd _ hmem) ⟨fun hi => ?_, fun n _ _ e => by cases e⟩ ⟨⟨trivial, trivial⟩, trivial, trivial⟩ trivial
    · simp only [Expr.tangent, Expr.eval, turnRhs, mul_zero, add_zero, sub_zero] at h1 h2
      simp only [f]
      have e := Real.sin_sq_add_cos_sq θ
      linear_combination (d (waypointSample N w * stride m + 3) * Real.sin θ +
          d (waypointSample N w * stride m + 2) * Real.cos θ) * h1 -
        (σ (waypointSample N w * stride m + 3) * Real.sin θ + σ (waypointSample N w * stride m + 2) * Real.cos θ) * h2 -
        (σ (waypointSample N w * stride m + 2) * d (waypointSample N w * stride m + 3) -
          σ (waypointSample N w * stride m + 3) * d (waypointSample N w * stride m + 2)) * e
    · have := (hi fun i => if i = waypointSample N w * stride m + 2 then Real.sin θ else -Real.cos θ).2.2
      simp [Expr.eval] at this
      nlinarith [Real.sin_sq_add_cos_sq θ]
  have hstep : ∀ n ∈ segmentSamples N s, q (n - 1) = 1 → q n = 1 ∧ f n = f (n - 1) + 1 := by
    intro n hn hq
    have hlt : 0 < n ∧ n ≤ N.sum := by
      rw [segmentSamples, Finset.mem_Ioc] at hn
      have := sum_take_le N (s + 1)
      simp only [waypointSample] at *
      omega
    have hmemω : Con.eq (.var (n * stride m + 6)) (.const 0) ∈ allCons b.path dr N :=
      along_mem hs hstill hn (by rw [← hm]; simp [Constraint.apply, Dbl.eq, sampleVars, Num.lit])
    have o1 := (hσ _ hmemω).2.2
    have o2 := row_of (hd _ hmemω) ⟨fun hi => by simpa using (hi fun _ => 1).2.2, fun n _ _ e => by cases e⟩ trivial trivial
    simp only [Expr.tangent, Expr.eval, turnRhs, sub_zero] at o1 o2
    have hmem := turnRow_mem (path := b.path) (dr := dr) hlt.1 hlt.2
    have t1 := (hσ _ hmem).2.2
    obtain ⟨dt, hk⟩ := kin_mem (path := b.path) (dr := dr) (N := N) (n := n) hlt.1 hlt.2
    have hmemc := hk (.eq (((sampleVars m n).pose.rotation.sub (sampleVars m (n - 1)).pose.rotation).cos *
        Num.sin ((sampleVars m n).angularVelocity * .var dt) -
      ((sampleVars m n).pose.rotation.sub (sampleVars m (n - 1)).pose.rotation).sin *
        Num.cos ((sampleVars m n).angularVelocity * .var dt)) (Num.lit 0)) (by
      simp only [kinCons, Rotation2.eqCons, List.mem_append]
      exact .inl <| .inl <| .inr <| .inl <| .inl (by rw [List.mem_singleton]; rfl))
    have c1 := (hσ _ hmemc).2.2
    have c2 := row_of (hd _ hmemc) ⟨fun hi => ?_, fun n _ _ e => by cases e⟩
      (by simp [sampleVars, Rotation2.sub, Rotation2.add, Rotation2.neg, Rotation2.rotateBy]) trivial
    · change _ = -Expr.eval σ _ at c2
      simp only [sampleVars, Rotation2.sub, Rotation2.add, Rotation2.neg, Rotation2.rotateBy,
        tangent_add, tangent_sub, tangent_mul, tangent_neg, tangent_var, tangent_lit, tangent_sin, tangent_cos, eval_add,
        eval_sub, eval_mul, eval_neg, eval_var, eval_lit, Rat.cast_one, eval_sin, eval_cos, o1, o2, zero_mul, mul_zero,
        Real.sin_zero, Real.cos_zero, mul_one, add_zero, Rat.cast_zero, neg_zero] at t1 c1 c2
      simp only [q, f] at hq ⊢
      refine turn_rates hq ?_ ?_ ?_
      · linear_combination t1
      · linear_combination -c1
      · linear_combination -c2
    · have := (hi fun _ => 1).2.2
      simp [sampleVars, Rotation2.sub, Rotation2.add, Rotation2.neg, Rotation2.rotateBy] at this
      have := Real.sin_pos_of_pos_of_le_one one_pos le_rfl
      linarith
  have hsum : ∀ k ≤ N[s], q (waypointSample N s + k) = 1 ∧ f (waypointSample N s + k) = k := by
    intro k
    induction k with
    | zero => intro _; simpa using hplace s hs.le x y θ hw
    | succ k ih =>
      intro hk
      obtain ⟨i1, i2⟩ := ih (by omega)
      have := hstep (waypointSample N s + (k + 1)) (by
        rw [segmentSamples, Finset.mem_Ioc, waypointSample, waypointSample, sum_take_succ N hs]
        omega)
      rw [show waypointSample N s + (k + 1) - 1 = waypointSample N s + k by omega, i2] at this
      push_cast
      exact this i1
  have he := (hplace (s + 1) hs x' y' θ' hw').2
  have := (hsum N[s] le_rfl).2
  rw [show waypointSample N s + N[s] = waypointSample N (s + 1) by
    unfold waypointSample; rw [sum_take_succ N hs], he] at this
  have hpos : (0 : ℝ) < N[s] := by exact_mod_cast h0
  linarith

/-- From a pose to the same pose, standing on the way, without acceleration and turning. -/
noncomputable def waitOps : List (Op ℝ) :=
  [.setDrivetrain demoRobot, .poseWpt 0 0 0 0, .poseWpt 1 0 0 0,
    .sgmtConstraint 0 1 (.linearVelocityMaxMagnitude 0),
    .sgmtConstraint 0 1 (.linearAccelerationMaxMagnitude 0),
    .sgmtConstraint 0 1 (.angularVelocityMaxMagnitude 0), .controlIntervalCounts [2]]

theorem wait_table :
    let b := run true waitOps Builder.new
    Ready b demoRobot ∧ (table b).counts = [2] ∧ (table b).continuous 0 = [.linearVelocityMaxMagnitude 0, .linearAccelerationMaxMagnitude 0,
      .angularVelocityMaxMagnitude 0] ∧
    (table b).instant 0 = [.poseEquality 0 0 0, .linearVelocityMaxMagnitude 0, .linearAccelerationMaxMagnitude 0,
      .angularVelocityMaxMagnitude 0] ∧
    (table b).instant 1 = [.poseEquality 0 0 0, .linearVelocityMaxMagnitude 0, .linearAccelerationMaxMagnitude 0,
      .angularVelocityMaxMagnitude 0] := by
  intro b
  obtain ⟨e, hr⟩ : table b = PathTable.empty.afterAll waitOps ∧ Ready b demoRobot := by
    refine ready_of ?_ _ rfl ?_ ?_ ?_ <;>
    simp [waitOps, PathTable.AcceptsAll, PathTable.Accepts, PathTable.afterAll, PathTable.after,
      PathTable.empty, PathTable.reach, PathTable.requireAt, PathTable.requireAlong, PathTable.guessAt, sampleCount]
  refine ⟨hr, ?_⟩
  rw [e]
  simp [waitOps, PathTable.afterAll, PathTable.after,
    PathTable.empty, PathTable.reach, PathTable.requireAt, PathTable.requireAlong, PathTable.guessAt]

/-- The problem can be solved, and its equations depend on each other at each of its solutions. -/
example : ∃ g, Generator.construct (run true waitOps Builder.new) 0 = .ok g ∧ (∃ σ, g.problem.Feasible σ) ∧
    ∀ σ, g.problem.Feasible σ → ¬ Independent (fun c => ¬ Identity c ∧ ∀ n, 0 < n →
      n < sampleCount (table (run true waitOps Builder.new)).counts → c ≠ headRow demoRobot.modules.length n)
      g.problem.cons σ := by
  obtain ⟨hr, hc, hco, hi0, hi1⟩ := wait_table
  obtain ⟨g, hg, -, -, hf⟩ := C29_problem _ ⟨true, _, rfl⟩ demoRobot hr demo_radius 0
  have hob : Obeys (table (run true waitOps Builder.new)) demoRobot
      ⟨fun _ => ⟨0, unitVec 0, ((0 : ℝ) : ℂ), ((0 : ℝ) : ℂ), 0, 0⟩, fun _ _ => 0, fun _ => 0⟩ := by
    refine ⟨?_, ?_, ?_, ?_, ?_, ?_⟩
    · intro s _ n _
      exact ⟨by simp, .inl (by simp [unitVec]), by simp, by simp⟩
    · intro n _
      have := demo_dynamics 0 0 0 0 0 0 (by norm_num) (by norm_num)
      simpa using this
    · intro s _; exact le_rfl
    · intro s _ m _ g hg
      rw [demo_gap g hg]
      norm_num
    · rw [hc]
      intro w hw c hcm
      have hw : w ≤ 1 := hw
      interval_cases w
      · rw [hi0] at hcm
        simp only [List.mem_cons, List.not_mem_nil, or_false] at hcm
        rcases hcm with rfl | rfl | rfl | rfl
        · exact ⟨by apply Complex.ext <;> simp [vec], .inl rfl⟩
        · simp [Meaning]
        · simp [Meaning]
        · simp [Meaning]
      · rw [hi1] at hcm
        simp only [List.mem_cons, List.not_mem_nil, or_false] at hcm
        rcases hcm with rfl | rfl | rfl | rfl
        · exact ⟨by apply Complex.ext <;> simp [vec], .inl rfl⟩
        · simp [Meaning]
        · simp [Meaning]
        · simp [Meaning]
    · rw [hc]
      intro s hs c hcm n _
      obtain rfl : s = 0 := by simpa using hs
      rw [hco] at hcm
      simp only [List.mem_cons, List.not_mem_nil, or_false] at hcm
      rcases hcm with rfl | rfl | rfl <;> simp [Meaning]
  obtain ⟨σ, hσ, -⟩ := (hf _).mp hob
  refine ⟨g, hg, ⟨σ, hσ⟩, fun σ hσ => C109_still_refuted _ ⟨true, _, rfl⟩ demoRobot hr 0 g hg 0 (by rw [hc]; simp)
    (by simp [hc]) (.inl ⟨0, 0, 0, by rw [hi0]; simp⟩) (.inl ⟨0, 0, 0, by rw [hi1]; simp⟩) (.inl (by rw [hco]; simp)) σ hσ⟩

/-- So it is for the other reason. -/
example (g : Generator ℝ) (hg : Generator.construct (run true waitOps Builder.new) 0 = .ok g) (σ : ℕ → ℝ)
    (hσ : g.problem.Feasible σ) : ¬ Independent (fun c => ¬ Identity c ∧ ∀ n, 0 < n →
      n < sampleCount (table (run true waitOps Builder.new)).counts → c ≠ headRow demoRobot.modules.length n)
      g.problem.cons σ := by
  obtain ⟨hr, hc, hco, hi0, hi1⟩ := wait_table
  exact C109_coast_refuted _ ⟨true, _, rfl⟩ demoRobot hr 0 g hg 0 (by rw [hc]; simp) (by simp [hc])
    (by rw [hi0]; simp) (by rw [hi1]; simp) (.inl (by rw [hco]; simp)) σ hσ

/-- And for the third. -/
example (g : Generator ℝ) (hg : Generator.construct (run true waitOps Builder.new) 0 = .ok g) (σ : ℕ → ℝ)
    (hσ : g.problem.Feasible σ) : ¬ Independent (fun c => ¬ Identity c ∧ ∀ n, 0 < n →
      n < sampleCount (table (run true waitOps Builder.new)).counts → c ≠ headRow demoRobot.modules.length n)
      g.problem.cons σ := by
  obtain ⟨hr, hc, hco, hi0, hi1⟩ := wait_table
  exact C109_turn_refuted _ ⟨true, _, rfl⟩ demoRobot hr 0 g hg 0 (by rw [hc]; simp) (by simp [hc]) 0 0 0 0 0 0
    (by rw [hi0]; simp) (by rw [hi1]; simp) (.inl (by rw [hco]; simp)) σ hσ

end Trajopt.Props
