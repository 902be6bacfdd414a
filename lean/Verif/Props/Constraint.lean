import Verif.Lemmas.Semantics
import Verif.Props.Geometry

/-!
# C16–C25 What the constraints mean (real arithmetic)

`Satisfies σ c s`: the assignment `σ` satisfies everything `c.Apply` generates for the sample `s`.
`Intended c` is the documented meaning, `Meaning c` the actual one (`Spec/Semantics.lean`).
-/

set_option autoImplicit false

namespace Trajopt.Props

open Spec

/-- C56: promoting poses to expressions does not change what rotating them gives, whatever the
decision variables are. -/
theorem C56_promotion (σ : ℕ → ℝ) (p : Pose2 ℝ) (r : Rotation2 ℝ) :
    let q := p.toV.rotateBy r.toV
    evalVec σ q.translation.x q.translation.y = vec (p.rotateBy r).translation ∧
    evalVec σ q.rotation.cos q.rotation.sin = dir (p.rotateBy r).rotation := by
  constructor <;> apply Complex.ext <;>
    simp [evalVec, vec, dir, Pose2.rotateBy, Pose2.toV, Translation2.rotateBy, Translation2.toV,
      Rotation2.rotateBy, Rotation2.toV]

/-- The exact meaning of all ten constraints. -/
theorem constraint_meaning (σ : ℕ → ℝ) (c : Constraint ℝ) (s : SampleVars ℝ)
    (hs : DefinedSample σ s) : Satisfies σ c s ↔ Meaning c (decodeSample σ s) := by
  obtain ⟨hp, hr, hv, ha, hw, hal⟩ := hs
  have honR : ∀ r : Translation2 ℝ,
      vec (evalT σ (s.pose.translation.add (r.toV.rotateBy s.pose.rotation))) =
        (decodeSample σ s).onRobot r := by
    intro r
    apply Complex.ext <;>
      simp [vec, evalT, decodeSample, State.onRobot, evalVec, Translation2.add,
        Translation2.rotateBy, Translation2.toV]
  have honD : ∀ r : Translation2 ℝ,
      (s.pose.translation.add (r.toV.rotateBy s.pose.rotation)).x.Defined σ ∧
      (s.pose.translation.add (r.toV.rotateBy s.pose.rotation)).y.Defined σ := by
    intro r
    simp [Translation2.add, Translation2.rotateBy, Translation2.toV, hp, hr]
  have hconst : ∀ r : Translation2 ℝ, r.toV.x.Defined σ ∧ r.toV.y.Defined σ :=
    fun r => ⟨trivial, trivial⟩
  have hcv : ∀ r : Translation2 ℝ, vec (evalT σ r.toV) = vec r := fun r => rfl
  cases c with
  | angularVelocityMaxMagnitude m =>
    simp only [Satisfies, Constraint.apply, Meaning, real_eq, real_lit, Rat.cast_zero,
      decide_eq_true_eq, decodeSample]
    split
    next h =>
      subst h
      simp [Con.Holds, hw]
    next h =>
      simp [Con.Holds, hw, abs_le]
  | linePoint a b p d =>
    simp only [Satisfies, Constraint.apply, Meaning, List.mem_singleton, forall_eq, real_mul]
    rw [linePoint_con _ _ _ _ _ (honD a) (honD b) (hconst p), honR, honR, hcv]
  | linearAccelerationMaxMagnitude m =>
    simp only [Satisfies, Constraint.apply, Meaning, real_eq, real_lit, Rat.cast_zero,
      decide_eq_true_eq, decodeSample, real_mul]
    split
    next h =>
      subst h
      simp only [List.mem_cons, List.not_mem_nil, or_false, forall_eq_or_imp, forall_eq, Con.Holds,
        ha, defined_lit, eval_lit, true_and, abs_zero, norm_le_zero_iff, Rat.cast_zero]
      rw [evalVec, Complex.ext_iff]
      rfl
    next h =>
      simp only [List.mem_singleton, forall_eq, Con.Holds, Translation2.squaredNorm, defined_add,
        defined_mul, defined_const, ha, true_and, eval_add, eval_mul, eval_const, and_self]
      exact norm_le_iff _ _ _
  | linearVelocityDirection a =>
    simp only [Satisfies, Constraint.apply, Meaning, decodeSample, List.mem_singleton, forall_eq,
      Con.Holds, Translation2.dot, Translation2.squaredNorm, defined_add, defined_mul,
      defined_const, hv, true_and, and_self, eval_add, eval_mul, eval_const, Rotation2.ofAngle,
      real_cos, real_sin]
    rw [parallel_iff _ _ _ _ (Real.cos_sq_add_sin_sq a)]
    refine exists_congr fun t => ?_
    rw [unitVec_mk, Complex.ext_iff]
    simp [evalVec]
  | linearVelocityMaxMagnitude m =>
    simp only [Satisfies, Constraint.apply, Meaning, real_eq, real_lit, Rat.cast_zero,
      decide_eq_true_eq, decodeSample, real_mul]
    split
    next h =>
      subst h
      simp only [List.mem_cons, List.not_mem_nil, or_false, forall_eq_or_imp, forall_eq, Con.Holds,
        hv, defined_lit, eval_lit, true_and, abs_zero, norm_le_zero_iff, Rat.cast_zero]
      rw [evalVec, Complex.ext_iff]
      rfl
    next h =>
      simp only [List.mem_singleton, forall_eq, Con.Holds, Translation2.squaredNorm, defined_add,
        defined_mul, defined_const, hv, true_and, eval_add, eval_mul, eval_const, and_self]
      exact norm_le_iff _ _ _
  | pointAt p tol =>
    simp only [Satisfies, Constraint.apply, Meaning, decodeSample, List.mem_singleton, forall_eq,
      Con.Holds, Pose2.x, Pose2.y, defined_add, defined_mul, defined_sub, defined_const,
      defined_hypot, hp, hr, true_and, and_self, eval_add, eval_mul, eval_sub, eval_const,
      eval_hypot, real_cos, real_hypot, ge_iff_le]
    have h1 : dist (evalVec σ s.pose.translation.x s.pose.translation.y) (vec p) =
        Real.sqrt ((p.x - s.pose.translation.x.eval σ) ^ 2 +
          (p.y - s.pose.translation.y.eval σ) ^ 2) := by
      rw [← norm_mk, dist_comm, dist_eq_norm]
      congr 1
    rw [h1]
    have h2 : ((vec p - evalVec σ s.pose.translation.x s.pose.translation.y) *
        (starRingEnd ℂ) (evalVec σ s.pose.rotation.cos s.pose.rotation.sin)).re =
        s.pose.rotation.cos.eval σ * (p.x - s.pose.translation.x.eval σ) +
        s.pose.rotation.sin.eval σ * (p.y - s.pose.translation.y.eval σ) := by
      simp [vec, evalVec]; ring
    rw [h2]
  | pointLine r a b d =>
    simp only [Satisfies, Constraint.apply, Meaning, List.mem_singleton, forall_eq, real_mul]
    rw [linePoint_con _ _ _ _ _ (hconst a) (hconst b) (honD r), honR, hcv, hcv]
  | pointPoint r p d =>
    have h := honR r
    have hd := honD r
    simp only [Satisfies, Constraint.apply, Meaning, List.mem_singleton, forall_eq, Con.Holds,
      defined_add, defined_mul, defined_sub, defined_const, hd, true_and, and_self, eval_add,
      eval_mul, eval_sub, eval_const, ge_iff_le, real_mul]
    rw [← h, le_norm_iff, dist_comm, dist_eq_norm]
    have : (vec p - vec (evalT σ (s.pose.translation.add (r.toV.rotateBy s.pose.rotation)))) =
        ⟨p.x - (s.pose.translation.add (r.toV.rotateBy s.pose.rotation)).x.eval σ,
         p.y - (s.pose.translation.add (r.toV.rotateBy s.pose.rotation)).y.eval σ⟩ := by
      apply Complex.ext <;> simp [vec, evalT]
    rw [this]
  | poseEquality x y h =>
    simp only [Satisfies, Constraint.apply, Pose2.eqCons, Translation2.eqCons, Rotation2.eqCons,
      Meaning, decodeSample, List.mem_append, List.mem_cons, List.not_mem_nil, or_false, if_true,
      Bool.false_eq_true, if_false, or_imp, forall_and, forall_eq, Con.Holds, Pose2.ofXYHeading,
      Translation2.toV, Rotation2.toV, Rotation2.ofAngle, defined_const, defined_sub, defined_mul,
      defined_add, defined_lit, hp, hr, true_and, and_self, eval_const, eval_sub, eval_mul,
      eval_add, eval_lit, Rat.cast_zero, Rat.cast_one, real_cos, real_sin]
    rw [unit_parallel_iff _ _ _ _ (Real.cos_sq_add_sin_sq h), unitVec_mk]
    simp only [evalVec, vec, Complex.ext_iff, Complex.neg_re, Complex.neg_im]
  | translationEquality t =>
    simp only [Satisfies, Constraint.apply, Translation2.eqCons, Meaning, decodeSample,
      List.mem_cons, List.not_mem_nil, or_false, forall_eq_or_imp, forall_eq, Con.Holds,
      Translation2.toV, defined_const, hp, true_and, eval_const]
    simp only [evalVec, vec, Complex.ext_iff]

/-- C16: the linear velocity limit. -/
theorem C16_linear_velocity (σ : ℕ → ℝ) (s : SampleVars ℝ) (hs : DefinedSample σ s) (m : ℝ)
    (hm : 0 ≤ m) : Satisfies σ (.linearVelocityMaxMagnitude m) s ↔ ‖(decodeSample σ s).vel‖ ≤ m := by
  rw [constraint_meaning σ _ s hs, Meaning, abs_of_nonneg hm]

/-- C17: the linear acceleration limit. -/
theorem C17_linear_acceleration (σ : ℕ → ℝ) (s : SampleVars ℝ) (hs : DefinedSample σ s) (m : ℝ)
    (hm : 0 ≤ m) :
    Satisfies σ (.linearAccelerationMaxMagnitude m) s ↔ ‖(decodeSample σ s).acc‖ ≤ m := by
  rw [constraint_meaning σ _ s hs, Meaning, abs_of_nonneg hm]

/-- C18: the angular velocity limit. -/
theorem C18_angular_velocity (σ : ℕ → ℝ) (s : SampleVars ℝ) (hs : DefinedSample σ s) (m : ℝ) :
    (0 ≤ m → (Satisfies σ (.angularVelocityMaxMagnitude m) s ↔ |(decodeSample σ s).omega| ≤ m)) ∧
    (m < 0 → ¬ Satisfies σ (.angularVelocityMaxMagnitude m) s) := by
  rw [constraint_meaning σ _ s hs, Meaning]
  exact ⟨fun _ => Iff.rfl, fun h h' => absurd (le_trans (abs_nonneg _) h') (not_le.mpr h)⟩

/-- C21: translation equality. -/
theorem C21_translation (σ : ℕ → ℝ) (s : SampleVars ℝ) (hs : DefinedSample σ s) (x y : ℝ) :
    Satisfies σ (.translationEquality ⟨x, y⟩) s ↔
      (decodeSample σ s).pos.re = x ∧ (decodeSample σ s).pos.im = y := by
  rw [constraint_meaning σ _ s hs, Meaning, Complex.ext_iff]
  rfl

/-- C22: with unit heading and `0 ≤ tol ≤ π`, point-at holds exactly if the robot is at the point or
its heading is at most `tol` off the direction to the point. -/
theorem C22_point_at (σ : ℕ → ℝ) (s : SampleVars ℝ) (hs : DefinedSample σ s)
    (p : Translation2 ℝ) (tol : ℝ) (h0 : 0 ≤ tol) (h1 : tol ≤ Real.pi)
    (hunit : ‖(decodeSample σ s).heading‖ = 1) :
    Satisfies σ (.pointAt p tol) s ↔
      (decodeSample σ s).pos = vec p ∨
      |Complex.arg ((vec p - (decodeSample σ s).pos) / (decodeSample σ s).heading)| ≤ tol := by
  rw [constraint_meaning σ _ s hs, Meaning]
  generalize decodeSample σ s = st at hunit
  have hdiv : (vec p - st.pos) / st.heading = (vec p - st.pos) * (starRingEnd ℂ) st.heading := by
    rw [div_eq_mul_inv, Complex.inv_def, Complex.normSq_eq_norm_sq, hunit]
    simp
  rw [hdiv]
  by_cases hw : st.pos = vec p
  · simp [hw]
  · have hw' : vec p - st.pos ≠ 0 := fun h => hw (sub_eq_zero.mp h).symm
    have hh : st.heading ≠ 0 := by intro h; rw [h] at hunit; simp at hunit
    set z := (vec p - st.pos) * (starRingEnd ℂ) st.heading with hz
    have hz0 : z ≠ 0 := mul_ne_zero hw' ((map_ne_zero _).mpr hh)
    have hn : dist st.pos (vec p) = ‖z‖ := by
      rw [hz, norm_mul, RCLike.norm_conj, hunit, mul_one, dist_comm, dist_eq_norm]
    have hpos : 0 < ‖z‖ := norm_pos_iff.mpr hz0
    rw [hn, or_iff_right hw]
    have hre : z.re = Real.cos |Complex.arg z| * ‖z‖ := by
      rw [Real.cos_abs, Complex.cos_arg hz0, div_mul_cancel₀ _ hpos.ne']
    rw [hre, mul_le_mul_iff_of_pos_right hpos]
    exact Real.strictAntiOn_cos.le_iff_ge ⟨h0, h1⟩ ⟨abs_nonneg _, Complex.abs_arg_le_pi z⟩

/-- C23: point-point keep-out. -/
theorem C23_point_point (σ : ℕ → ℝ) (s : SampleVars ℝ) (hs : DefinedSample σ s)
    (r p : Translation2 ℝ) (d : ℝ) (hd : 0 ≤ d) :
    Satisfies σ (.pointPoint r p d) s ↔ d ≤ dist ((decodeSample σ s).onRobot r) (vec p) := by
  rw [constraint_meaning σ _ s hs, Meaning, abs_of_nonneg hd]

/-- C25: for distinct end points `LinePointDistance` is the minimum over the segment of the squared
distance; it is a number only for distinct end points. -/
theorem C25_line_point_distance (σ : ℕ → ℝ) (a b p : Translation2 (Expr ℝ))
    (ha : a.x.Defined σ ∧ a.y.Defined σ) (hb : b.x.Defined σ ∧ b.y.Defined σ)
    (hp : p.x.Defined σ ∧ p.y.Defined σ) (A B P : ℂ) (hA : A = evalVec σ a.x a.y)
    (hB : B = evalVec σ b.x b.y) (hP : P = evalVec σ p.x p.y) :
    ((linePointDistance a b p).Defined σ ↔ A ≠ B) ∧
    (A ≠ B → (∀ q ∈ segment ℝ A B, (linePointDistance a b p).eval σ ≤ dist q P ^ 2) ∧
      ∃ q ∈ segment ℝ A B, (linePointDistance a b p).eval σ = dist q P ^ 2) := by
  subst hA hB hP
  exact ⟨linePointDistance_defined σ a b p ha hb hp, fun h =>
    linePointDistance_real (evalT σ a) (evalT σ b) (evalT σ p) h⟩

/-- C25: no sample satisfies a segment constraint built from a degenerate segment. -/
theorem C25_degenerate (σ : ℕ → ℝ) (s : SampleVars ℝ) (hs : DefinedSample σ s)
    (a p : Translation2 ℝ) (d : ℝ) :
    ¬ Satisfies σ (.linePoint a a p d) s ∧ ¬ Satisfies σ (.pointLine p a a d) s := by
  rw [constraint_meaning σ _ s hs, constraint_meaning σ _ s hs]
  exact ⟨fun h => h.1 rfl, fun h => h.1 rfl⟩

/-! ### C19, C20, C24 are false -/

/-- A sample whose components are the given numbers. -/
noncomputable def constSample (st : State) : SampleVars ℝ where
  pose := ⟨⟨.const st.pos.re, .const st.pos.im⟩, ⟨.const st.heading.re, .const st.heading.im⟩⟩
  linearVelocity := ⟨.const st.vel.re, .const st.vel.im⟩
  angularVelocity := .const st.omega
  linearAcceleration := ⟨.const st.acc.re, .const st.acc.im⟩
  angularAcceleration := .const st.alpha

theorem constSample_defined (σ : ℕ → ℝ) (st : State) : DefinedSample σ (constSample st) := by
  simp [DefinedSample, constSample]

theorem constSample_decode (σ : ℕ → ℝ) (st : State) : decodeSample σ (constSample st) = st := rfl

/-- C19 is false: driving backwards satisfies the direction constraint. -/
theorem C19_refuted : ¬ ∀ (σ : ℕ → ℝ) (s : SampleVars ℝ) (a : ℝ), DefinedSample σ s →
    (Satisfies σ (.linearVelocityDirection a) s ↔
      Intended (.linearVelocityDirection a) (decodeSample σ s)) := by
  intro h
  have := h (fun _ => 0) (constSample ⟨0, 1, -1, 0, 0, 0⟩) 0 (constSample_defined _ _)
  rw [constraint_meaning _ _ _ (constSample_defined _ _), constSample_decode] at this
  obtain ⟨t, ht, he⟩ := this.mp ⟨-1, by simp [unitVec]⟩
  simp only [unitVec, Complex.ofReal_zero, zero_mul, Complex.exp_zero, mul_one] at he
  have := congrArg Complex.re he
  simp at this
  linarith

/-- C19, what holds: the velocity is some multiple of `(cos a, sin a)`; in particular every
velocity in the wanted direction is allowed.  Missing: the sign. -/
theorem C19_partial (σ : ℕ → ℝ) (s : SampleVars ℝ) (hs : DefinedSample σ s) (a : ℝ) :
    (Satisfies σ (.linearVelocityDirection a) s ↔
      ∃ t : ℝ, (decodeSample σ s).vel = t * unitVec a) ∧
    (Intended (.linearVelocityDirection a) (decodeSample σ s) →
      Satisfies σ (.linearVelocityDirection a) s) := by
  have h := constraint_meaning σ (.linearVelocityDirection a) s hs
  refine ⟨h, fun ⟨t, _, ht⟩ => h.mpr ⟨t, ht⟩⟩

/-- C20 is false: facing the opposite way satisfies the pose constraint. -/
theorem C20_refuted : ¬ ∀ (σ : ℕ → ℝ) (s : SampleVars ℝ) (x y h : ℝ), DefinedSample σ s →
    (Satisfies σ (.poseEquality x y h) s ↔
      Intended (.poseEquality x y h) (decodeSample σ s)) := by
  intro h
  have := h (fun _ => 0) (constSample ⟨0, -1, 0, 0, 0, 0⟩) 0 0 0 (constSample_defined _ _)
  rw [constraint_meaning _ _ _ (constSample_defined _ _), constSample_decode] at this
  have h2 := (this.mp ⟨by apply Complex.ext <;> simp [vec], .inr (by simp [unitVec])⟩).2
  simp only [unitVec, Complex.ofReal_zero, zero_mul, Complex.exp_zero] at h2
  have := congrArg Complex.re h2
  norm_num at this

/-- C20, what holds: position fixed, heading fixed up to a half turn; in particular the heading is a
unit vector. Missing: the half turn. -/
theorem C20_partial (σ : ℕ → ℝ) (s : SampleVars ℝ) (hs : DefinedSample σ s) (x y h : ℝ) :
    (Satisfies σ (.poseEquality x y h) s ↔
      (decodeSample σ s).pos = vec ⟨x, y⟩ ∧
      ((decodeSample σ s).heading = unitVec h ∨ (decodeSample σ s).heading = -unitVec h)) ∧
    (Satisfies σ (.poseEquality x y h) s → ‖(decodeSample σ s).heading‖ = 1) ∧
    (Satisfies σ (.poseEquality x y h) s →
      0 < ((decodeSample σ s).heading * (starRingEnd ℂ) (unitVec h)).re →
      Intended (.poseEquality x y h) (decodeSample σ s)) := by
  have hm := constraint_meaning σ (.poseEquality x y h) s hs
  have hn : ‖unitVec h‖ = 1 := Complex.norm_exp_ofReal_mul_I h
  refine ⟨hm, fun hsat => ?_, fun hsat hpos => ?_⟩
  · rcases (hm.mp hsat).2 with e | e <;> rw [e]
    · exact hn
    · rw [norm_neg, hn]
  · refine ⟨(hm.mp hsat).1, ?_⟩
    rcases (hm.mp hsat).2 with e | e
    · exact e
    · rw [e, neg_mul, Complex.mul_conj, Complex.normSq_eq_norm_sq, hn] at hpos
      norm_num at hpos

theorem segment_above (q : ℂ) (hq : q ∈ segment ℝ (⟨0, 0⟩ : ℂ) ⟨1, 0⟩) : q.im = 0 ∧ 0 ≤ q.re := by
  obtain ⟨s, h0, h1, rfl⟩ := mem_segment_mk.mp hq
  simp [h0]

/-- C24 is false, too strict: a robot edge at distance 1/2 from the point violates the constraint
"at least 1/2". -/
theorem C24_refuted_too_strict : ∃ (σ : ℕ → ℝ) (s : SampleVars ℝ) (a b p : Translation2 ℝ) (d : ℝ),
    DefinedSample σ s ∧ ‖(decodeSample σ s).heading‖ = 1 ∧ 0 ≤ d ∧
    Intended (.linePoint a b p d) (decodeSample σ s) ∧ ¬ Satisfies σ (.linePoint a b p d) s := by
  refine ⟨fun _ => 0, constSample ⟨0, 1, 0, 0, 0, 0⟩, ⟨0, 0⟩, ⟨1, 0⟩, ⟨0, 1 / 2⟩, 1 / 2,
    constSample_defined _ _, by rw [constSample_decode]; simp, by norm_num, ?_, ?_⟩
  · rw [constSample_decode]
    intro q hq
    have h := segment_above q (by simpa [State.onRobot, vec] using hq)
    have hd := dist_sq_mk q (vec ⟨0, 1 / 2⟩)
    simp only [vec, h.1] at hd ⊢
    have h0 : 0 ≤ dist q (⟨0, 1 / 2⟩ : ℂ) := dist_nonneg
    nlinarith [sq_nonneg (q.re - 0)]
  · rw [constraint_meaning _ _ _ (constSample_defined _ _), constSample_decode]
    intro h
    have := h.2 0 (by
      simp only [State.onRobot, vec]
      exact mem_segment_mk.mpr ⟨0, le_refl _, by norm_num, by apply Complex.ext <;> simp⟩)
    rw [dist_sq_mk] at this
    norm_num [vec, abs_of_pos] at this

/-- C24 is false, too weak: a robot edge at distance 3/2 from the point satisfies the constraint
"at least 2". -/
theorem C24_refuted_too_weak : ∃ (σ : ℕ → ℝ) (s : SampleVars ℝ) (a b p : Translation2 ℝ) (d : ℝ),
    DefinedSample σ s ∧ ‖(decodeSample σ s).heading‖ = 1 ∧ 0 ≤ d ∧
    Satisfies σ (.linePoint a b p d) s ∧ ¬ Intended (.linePoint a b p d) (decodeSample σ s) := by
  refine ⟨fun _ => 0, constSample ⟨0, 1, 0, 0, 0, 0⟩, ⟨0, 0⟩, ⟨1, 0⟩, ⟨0, 3 / 2⟩, 2,
    constSample_defined _ _, by rw [constSample_decode]; simp, by norm_num, ?_, ?_⟩
  · rw [constraint_meaning _ _ _ (constSample_defined _ _), constSample_decode]
    refine ⟨by simp [State.onRobot, vec, Complex.ext_iff], ?_⟩
    intro q hq
    have h := segment_above q (by simpa [State.onRobot, vec] using hq)
    rw [dist_sq_mk]
    simp only [vec, h.1]
    norm_num
    nlinarith [sq_nonneg q.re]
  · rw [constSample_decode]
    intro h
    have := h 0 (by
      simp only [State.onRobot, vec]
      exact mem_segment_mk.mpr ⟨0, le_refl _, by norm_num, by apply Complex.ext <;> simp⟩)
    have h2 := dist_sq_mk 0 (vec ⟨0, 3 / 2⟩)
    norm_num [vec] at h2 this
    have h0 : 0 ≤ dist (0 : ℂ) ⟨0, 3 / 2⟩ := dist_nonneg
    nlinarith

/-- C24, what holds: the constraint bounds the *squared* distance by `d`, and only for a
non-degenerate segment. Hence it implies the documented meaning for `d ≤ 1` and is implied by it, on
non-degenerate segments, for `d ≥ 1`. Missing: equality of the two. -/
theorem C24_partial (σ : ℕ → ℝ) (s : SampleVars ℝ) (hs : DefinedSample σ s)
    (a b p : Translation2 ℝ) (d : ℝ) (hd : 0 ≤ d) (st : State) (hst : st = decodeSample σ s) :
    (Satisfies σ (.linePoint a b p d) s ↔ st.onRobot a ≠ st.onRobot b ∧
      ∀ q ∈ segment ℝ (st.onRobot a) (st.onRobot b), d ≤ dist q (vec p) ^ 2) ∧
    (Satisfies σ (.pointLine p a b d) s ↔ vec a ≠ vec b ∧
      ∀ q ∈ segment ℝ (vec a) (vec b), d ≤ dist q (st.onRobot p) ^ 2) ∧
    (d ≤ 1 → (Satisfies σ (.linePoint a b p d) s → Intended (.linePoint a b p d) st) ∧
      (Satisfies σ (.pointLine p a b d) s → Intended (.pointLine p a b d) st)) ∧
    (1 ≤ d →
      (st.onRobot a ≠ st.onRobot b → Intended (.linePoint a b p d) st →
        Satisfies σ (.linePoint a b p d) s) ∧
      (vec a ≠ vec b → Intended (.pointLine p a b d) st → Satisfies σ (.pointLine p a b d) s)) := by
  subst hst
  have h1 := constraint_meaning σ (.linePoint a b p d) s hs
  have h2 := constraint_meaning σ (.pointLine p a b d) s hs
  simp only [Meaning, abs_of_nonneg hd] at h1 h2
  refine ⟨h1, h2, fun hd1 => ⟨fun h q hq => ?_, fun h q hq => ?_⟩,
    fun hd1 => ⟨fun hne h => h1.mpr ⟨hne, fun q hq => ?_⟩, fun hne h => h2.mpr ⟨hne, fun q hq => ?_⟩⟩⟩
  · have := (h1.mp h).2 q hq
    have h0 : 0 ≤ dist q (vec p) := dist_nonneg
    nlinarith
  · have := (h2.mp h).2 q hq
    have h0 : 0 ≤ dist q ((decodeSample σ s).onRobot p) := dist_nonneg
    nlinarith
  · have := h q hq
    nlinarith
  · have := h q hq
    nlinarith

/-- The hypotheses of the theorems above are met: a sample at `(1, 2)` heading along `(3/5, 4/5)`,
moving at speed 5, satisfies a velocity limit of 6 and violates one of 4. -/
example : ∃ (σ : ℕ → ℝ) (s : SampleVars ℝ), DefinedSample σ s ∧ ‖(decodeSample σ s).heading‖ = 1 ∧
    Satisfies σ (.linearVelocityMaxMagnitude 6) s ∧ ¬ Satisfies σ (.linearVelocityMaxMagnitude 4) s ∧
    Satisfies σ (.translationEquality ⟨1, 2⟩) s ∧
    Satisfies σ (.pointAt ⟨4, 6⟩ 0) s ∧ Satisfies σ (.pointPoint ⟨1, 0⟩ ⟨4, 6⟩ 4) s := by
  have hd := constSample_defined (fun _ => 0) ⟨⟨1, 2⟩, ⟨3 / 5, 4 / 5⟩, ⟨3, 4⟩, 0, 0, 0⟩
  have h5 : ‖(⟨3, 4⟩ : ℂ)‖ = 5 := by
    rw [norm_mk, show (3 : ℝ) ^ 2 + 4 ^ 2 = 5 ^ 2 by norm_num]
    exact Real.sqrt_sq (by norm_num)
  have hu : ‖(⟨3 / 5, 4 / 5⟩ : ℂ)‖ = 1 := norm_mk_eq_one.mpr (by norm_num)
  refine ⟨fun _ => 0, constSample ⟨⟨1, 2⟩, ⟨3 / 5, 4 / 5⟩, ⟨3, 4⟩, 0, 0, 0⟩, hd, hu, ?_, ?_, ?_, ?_, ?_⟩
  · rw [C16_linear_velocity _ _ hd _ (by norm_num), constSample_decode, h5]; norm_num
  · rw [C16_linear_velocity _ _ hd _ (by norm_num), constSample_decode, h5]; norm_num
  · rw [C21_translation _ _ hd]; exact ⟨rfl, rfl⟩
  · rw [C22_point_at _ _ hd _ _ (le_refl _) Real.pi_pos.le hu, constSample_decode]
    right
    have : (vec ⟨4, 6⟩ - (⟨1, 2⟩ : ℂ)) / (⟨3 / 5, 4 / 5⟩ : ℂ) = (5 : ℝ) := by
      rw [div_eq_iff]
      · apply Complex.ext <;> simp [vec] <;> norm_num
      · simp [Complex.ext_iff]
    rw [this, Complex.arg_ofReal_of_nonneg (by norm_num)]; simp
  · rw [C23_point_point _ _ hd _ _ _ (by norm_num), constSample_decode]
    have : State.onRobot ⟨⟨1, 2⟩, ⟨3 / 5, 4 / 5⟩, ⟨3, 4⟩, 0, 0, 0⟩ ⟨1, 0⟩ = (⟨8 / 5, 14 / 5⟩ : ℂ) := by
      apply Complex.ext <;> simp [State.onRobot, vec] <;> norm_num
    rw [this]
    have hsq := dist_sq_mk (⟨8 / 5, 14 / 5⟩ : ℂ) (vec ⟨4, 6⟩)
    have h0 : 0 ≤ dist (⟨8 / 5, 14 / 5⟩ : ℂ) (vec ⟨4, 6⟩) := dist_nonneg
    have e : (8 / 5 - 4 : ℝ) ^ 2 + (14 / 5 - 6) ^ 2 = 16 := by norm_num
    simp only [vec] at hsq h0 ⊢
    rw [e] at hsq
    nlinarith

end Trajopt.Props
