import Verif.Lemmas.Refinement
import Verif.Spec.Tolerance

/-! # What the generated constraints mean up to a tolerance, piece by piece (real arithmetic) -/

set_option autoImplicit false

namespace Trajopt

open Spec Props

variable (σ : ℕ → ℝ) (ε : ℝ)

theorem abs_le_congr {x y : ℝ} (h : x = y) : |x| ≤ ε ↔ |y| ≤ ε := by rw [h]

theorem abs_le_congr_neg {x y : ℝ} (h : x = -y) : |x| ≤ ε ↔ |y| ≤ ε := by rw [h, abs_neg]

theorem along_mk (a x y : ℝ) : Along ε ⟨x, y⟩ (unitVec a) ↔
    |x * Real.sin a - y * Real.cos a - 0| ≤ ε ∧ |x * x + y * y - 1| ≤ ε := by
  rw [Along, unitVec_mk, norm_mk_sq]
  simp only [Complex.mul_im, Complex.conj_re, Complex.conj_im]
  exact and_congr (abs_le_congr_neg ε (by ring)) (abs_le_congr ε (by ring))

theorem kinCons_within (hε : 0 ≤ ε) (prev cur : SampleVars ℝ) (dt : ℕ) (hp : DefinedSample σ prev)
    (hc : DefinedSample σ cur) :
    (∀ c ∈ kinCons prev cur (.var dt), c.HoldsWithin ε σ) ↔
      IntervalWithin ε (σ dt) (decodeSample σ prev) (decodeSample σ cur) := by
  obtain ⟨hp, hr, hv, -, hw, -⟩ := hp
  obtain ⟨hp', hr', hv', ha', hw', hal'⟩ := hc
  simp only [kinCons, Translation2.eqCons, Rotation2.eqCons, List.mem_append, List.mem_cons,
    List.not_mem_nil, or_false, or_imp, forall_and, forall_eq, Con.HoldsWithin, if_true,
    Translation2.add, Translation2.smul, Rotation2.sub, Rotation2.add, Rotation2.neg,
    Rotation2.rotateBy, Rotation2.ofAngle, defined_add, defined_sub, defined_mul, defined_neg,
    defined_var, defined_cos, defined_sin, hp, hr, hv, hw, hp', hr', hv', ha', hw',
    hal', true_and, and_self, defined_lit, eval_add, eval_mul, eval_sub, eval_neg, eval_var,
    eval_lit, eval_sin, eval_cos, Rat.cast_zero, Rat.cast_one]
  have turn := along_mk ε (cur.angularVelocity.eval σ * σ dt)
    (cur.pose.rotation.cos.eval σ * prev.pose.rotation.cos.eval σ -
      cur.pose.rotation.sin.eval σ * -prev.pose.rotation.sin.eval σ)
    (cur.pose.rotation.cos.eval σ * -prev.pose.rotation.sin.eval σ +
      cur.pose.rotation.sin.eval σ * prev.pose.rotation.cos.eval σ)
  have hmul : (⟨cur.pose.rotation.cos.eval σ * prev.pose.rotation.cos.eval σ -
      cur.pose.rotation.sin.eval σ * -prev.pose.rotation.sin.eval σ,
      cur.pose.rotation.cos.eval σ * -prev.pose.rotation.sin.eval σ +
      cur.pose.rotation.sin.eval σ * prev.pose.rotation.cos.eval σ⟩ : ℂ) =
      (decodeSample σ cur).heading * (starRingEnd ℂ) (decodeSample σ prev).heading := by
    apply Complex.ext <;> simp [decodeSample, evalVec]
  rw [hmul] at turn
  have hcs : |Real.cos (cur.angularVelocity.eval σ * σ dt) *
      Real.cos (cur.angularVelocity.eval σ * σ dt) +
      Real.sin (cur.angularVelocity.eval σ * σ dt) *
      Real.sin (cur.angularVelocity.eval σ * σ dt) - 1| ≤ ε := by
    rw [← sq, ← sq, Real.cos_sq_add_sin_sq, sub_self, abs_zero]
    exact hε
  have hnear : ∀ (x y u v p q : ℝ) , (|p + u * σ dt - x| ≤ ε ∧ |q + v * σ dt - y| ≤ ε) ↔
      Near ε ⟨x, y⟩ (⟨p, q⟩ + σ dt * ⟨u, v⟩) := by
    intro x y u v p q
    rw [Near]
    refine and_congr (abs_le_congr_neg ε ?_) (abs_le_congr_neg ε ?_) <;>
      simp <;> ring
  constructor
  · rintro ⟨⟨⟨h1, ⟨h3, h4⟩, -⟩, h5⟩, h7⟩
    refine ⟨(hnear _ _ _ _ _ _).mp h1, turn.mpr ⟨h3, h4⟩, (hnear _ _ _ _ _ _).mp h5, ?_⟩
    exact (abs_le_congr_neg ε (by simp only [decodeSample]; ring)).mp h7
  · rintro ⟨hp, ht, hv, hw⟩
    exact ⟨⟨⟨(hnear _ _ _ _ _ _).mpr hp, turn.mp ht, hcs⟩, (hnear _ _ _ _ _ _).mpr hv⟩,
      (abs_le_congr_neg ε (by simp only [decodeSample]; ring)).mp hw⟩

theorem norm_within_iff (x y m : ℝ) :
    x * x + y * y ≤ m * m + ε ↔ ‖(⟨x, y⟩ : ℂ)‖ ^ 2 ≤ m ^ 2 + ε := by
  rw [norm_mk_sq, sq, sq, sq]

theorem powerCons_within (m n j : ℕ) (md : SwerveModule ℝ) :
    (∀ c ∈ powerCons (sampleVars m n) (forceVars m n j) md, c.HoldsWithin ε σ) ↔
      ‖wheelVelocity (decodeSample σ (sampleVars m n)) md‖ ^ 2 ≤ maxSpeed md ^ 2 + ε ∧
      ‖forceOf σ m n j‖ ^ 2 ≤ maxForce md ^ 2 + ε := by
  simp only [powerCons, List.mem_cons, List.not_mem_nil, or_false, forall_eq_or_imp, forall_eq,
    Con.HoldsWithin, Translation2.squaredNorm, Translation2.rotateBy, Rotation2.neg, sampleVars,
    forceVars, defined_add, defined_sub, defined_mul, defined_neg, defined_var, defined_const,
    true_and, and_self, eval_add, eval_sub, eval_mul, eval_neg, eval_var, eval_const, real_mul,
    real_div, norm_within_iff, maxSpeed, maxForce, forceOf, sq_abs]
  have : ∀ a b : ℂ, a = b → ∀ c : ℝ, ‖a‖ ^ 2 ≤ c ↔ ‖b‖ ^ 2 ≤ c := by rintro a _ rfl c; rfl
  refine and_congr (this _ _ ?_ _) Iff.rfl
  simp only [wheelVelocity, decodeSample, evalVec, vec, eval_var]
  apply Complex.ext <;> simp <;> ring

theorem powerList_within (m n : ℕ) (mods : List (SwerveModule ℝ)) (i : ℕ) :
    (∀ c ∈ powerList m n mods i, c.HoldsWithin ε σ) ↔
      ∀ j : Fin mods.length,
        ‖wheelVelocity (decodeSample σ (sampleVars m n)) mods[j]‖ ^ 2 ≤ maxSpeed mods[j] ^ 2 + ε ∧
        ‖forceOf σ m n (i + j)‖ ^ 2 ≤ maxForce mods[j] ^ 2 + ε := by
  induction mods generalizing i with
  | nil => simp [powerList]
  | cons md rest ih =>
    rw [powerList, List.forall_mem_append, powerCons_within, ih]
    simp only [List.length_cons, Fin.forall_fin_succ, Fin.getElem_fin, Fin.val_zero, Fin.val_succ,
      List.getElem_cons_zero, List.getElem_cons_succ, Nat.add_zero, Nat.add_assoc, Nat.add_comm 1]

theorem dynCons_within (dr : SwerveDrivetrain ℝ) (n : ℕ) :
    (∀ c ∈ dynCons dr n, c.HoldsWithin ε σ) ↔
      DynamicsWithin ε dr (decodeSample σ (sampleVars dr.modules.length n))
        (forceOf σ dr.modules.length n) := by
  obtain ⟨hx, hx'⟩ := foldl_add_eval σ (fun j => n * stride dr.modules.length + 10 + 2 * j)
    dr.modules.length
  obtain ⟨hy, hy'⟩ := foldl_add_eval σ (fun j => n * stride dr.modules.length + 11 + 2 * j)
    dr.modules.length
  obtain ⟨ht, ht'⟩ := torqueExpr_eval σ dr.modules.length n dr.modules 0 (Num.lit 0) trivial
  simp only [dynCons, List.forall_mem_append]
  rw [powerList_within]
  simp only [List.mem_cons, List.not_mem_nil,
    or_false, forall_eq_or_imp, forall_eq, Con.HoldsWithin, accumulate, hx, hx', hy, hy', ht, ht',
    defined_mul, defined_const, true_and, eval_mul, eval_const, eval_lit, Rat.cast_zero, zero_add]
  have hF : Near ε (∑ j : Fin dr.modules.length, forceOf σ dr.modules.length n j)
      (dr.mass * (decodeSample σ (sampleVars dr.modules.length n)).acc) ↔
      |∑ j : Fin dr.modules.length, σ (n * stride dr.modules.length + 10 + 2 * j) -
        dr.mass * σ (n * stride dr.modules.length + 7)| ≤ ε ∧
      |∑ j : Fin dr.modules.length, σ (n * stride dr.modules.length + 11 + 2 * j) -
        dr.mass * σ (n * stride dr.modules.length + 8)| ≤ ε := by
    rw [Near, Complex.re_sum, Complex.im_sum]
    simp [forceOf, decodeSample, evalVec, sampleVars]
  constructor
  · rintro ⟨hp, ⟨-, h1⟩, ⟨-, h2⟩, -, h3⟩
    refine ⟨hF.mpr ⟨h1, h2⟩, h3, ?_, fun j => (hp j).2⟩
    intro m hm
    obtain ⟨i, hi, rfl⟩ := List.getElem_of_mem hm
    exact (hp ⟨i, hi⟩).1
  · rintro ⟨hf, ht, hs, hl⟩
    obtain ⟨h1, h2⟩ := hF.mp hf
    exact ⟨fun j => ⟨hs _ (List.getElem_mem _), hl j⟩, ⟨trivial, h1⟩, ⟨trivial, h2⟩, trivial, ht⟩

theorem stepCap_within (dr : SwerveDrivetrain ℝ) (dt : ℕ) (m : SwerveModule ℝ) :
    (stepCap (minWidth dr.modules) dt m).HoldsWithin ε σ ↔
      ∀ g, Gap dr g → σ dt * m.wheelRadius * m.wheelMaxAngularVelocity ≤ g + ε := by
  have h1 : (stepCap (minWidth dr.modules) dt m).HoldsWithin ε σ ↔
      Capped (σ dt * m.wheelRadius * m.wheelMaxAngularVelocity - ε) (minWidth dr.modules) := by
    rw [stepCap.eq_def]
    cases minWidth dr.modules <;> simp [Con.HoldsWithin, Capped]
  rw [h1, minWidth, capped_loop]
  simp only [Capped, true_and, Gap]
  constructor
  · rintro h g ⟨hg, a, b, hab, rfl | rfl⟩
    · linarith [(h _ hab).1 hg]
    · linarith [(h _ hab).2 hg]
  · rintro h ⟨a, b⟩ hab
    exact ⟨fun hg => by linarith [h _ ⟨hg, a, b, hab, .inl rfl⟩],
      fun hg => by linarith [h _ ⟨hg, a, b, hab, .inr rfl⟩]⟩

theorem linePoint_within (a b p : Translation2 (Expr ℝ)) (d : ℝ)
    (ha : a.x.Defined σ ∧ a.y.Defined σ) (hb : b.x.Defined σ ∧ b.y.Defined σ)
    (hp : p.x.Defined σ ∧ p.y.Defined σ) :
    (Con.ge (linePointDistance a b p * linePointDistance a b p) (.const (d * d))).HoldsWithin ε σ ↔
      vec (evalT σ a) ≠ vec (evalT σ b) ∧
      ∀ q ∈ segment ℝ (vec (evalT σ a)) (vec (evalT σ b)),
        d ^ 2 ≤ dist q (vec (evalT σ p)) ^ 4 + ε := by
  simp only [Con.HoldsWithin, defined_mul, defined_const, linePointDistance_defined σ a b p ha hb hp,
    true_and, eval_mul, eval_const, linePointDistance_eval, and_self]
  refine and_congr_right fun hab => ?_
  obtain ⟨hmin, q, hq, hat⟩ := linePointDistance_real _ _ (evalT σ p) hab
  have h0 : 0 ≤ linePointDistance (evalT σ a) (evalT σ b) (evalT σ p) := by rw [hat]; positivity
  constructor
  · intro h q hq
    have := mul_le_mul (hmin q hq) (hmin q hq) h0 (by positivity)
    have h4 : dist q (vec (evalT σ p)) ^ 4 =
        dist q (vec (evalT σ p)) ^ 2 * dist q (vec (evalT σ p)) ^ 2 := by ring
    rw [h4, sq d]
    linarith
  · intro h
    have := h q hq
    rw [hat]
    calc d * d = d ^ 2 := (sq d).symm
      _ ≤ _ := this
      _ = _ := by ring

/-- The meaning of all ten constraints, up to `ε`. -/
theorem constraint_within (c : Constraint ℝ) (s : SampleVars ℝ)
    (hs : DefinedSample σ s) :
    (∀ k ∈ c.apply s, k.HoldsWithin ε σ) ↔ MeaningWithin ε c (decodeSample σ s) := by
  obtain ⟨hp, hr, hv, ha, hw, hal⟩ := hs
  have honR : ∀ r : Translation2 ℝ,
      vec (evalT σ (s.pose.translation.add (r.toV.rotateBy s.pose.rotation))) =
        (decodeSample σ s).onRobot r := by
    intro r
    apply Complex.ext <;>
      simp [vec, evalT, decodeSample, State.onRobot, evalVec, Translation2.add,
        Translation2.rotateBy, Translation2.toV]
  have honD : ∀ r : Translation2 ℝ,
      (s.pose.translation.add (r.toV.rotateBy s.pose.rotation)).x.Defined σ ∧
      (s.pose.translation.add (r.toV.rotateBy s.pose.rotation)).y.Defined σ := by
    intro r
    simp [Translation2.add, Translation2.rotateBy, Translation2.toV, hp, hr]
  have hconst : ∀ r : Translation2 ℝ, r.toV.x.Defined σ ∧ r.toV.y.Defined σ :=
    fun r => ⟨trivial, trivial⟩
  have hcv : ∀ r : Translation2 ℝ, vec (evalT σ r.toV) = vec r := fun r => rfl
  cases c with
  | angularVelocityMaxMagnitude m =>
    simp only [Constraint.apply, MeaningWithin, real_eq, real_lit, Rat.cast_zero,
      decide_eq_true_eq, decodeSample]
    split
    next h =>
      subst h
      simp [Con.HoldsWithin, hw]
    next h =>
      simp only [List.mem_cons, List.not_mem_nil, or_false, forall_eq_or_imp, forall_eq,
        Con.HoldsWithin, hw, defined_const, eval_const, true_and, real_neg, abs_le]
      constructor <;> rintro ⟨h1, h2⟩ <;> constructor <;> linarith
  | linePoint a b p d =>
    simp only [Constraint.apply, MeaningWithin, List.mem_singleton, forall_eq, real_mul]
    rw [linePoint_within _ _ _ _ _ _ (honD a) (honD b) (hconst p), honR, honR, hcv]
  | linearAccelerationMaxMagnitude m =>
    simp only [Constraint.apply, MeaningWithin, real_eq, real_lit, Rat.cast_zero,
      decide_eq_true_eq, decodeSample, real_mul]
    split
    next h =>
      simp [Con.HoldsWithin, ha, h, Near, evalVec]
    next h =>
      simp only [List.mem_singleton, forall_eq, Con.HoldsWithin, Translation2.squaredNorm, defined_add,
        defined_mul, defined_const, ha, true_and, eval_add, eval_mul, eval_const, and_self, h,
        ne_eq, not_false_eq_true, forall_true_left, false_implies]
      exact norm_within_iff _ _ _ _
  | linearVelocityDirection a =>
    simp only [Constraint.apply, MeaningWithin, decodeSample, List.mem_singleton, forall_eq,
      Con.HoldsWithin, Translation2.dot, Translation2.squaredNorm, defined_add, defined_mul,
      defined_const, hv, true_and, and_self, eval_add, eval_mul, eval_const, Rotation2.ofAngle,
      real_cos, real_sin]
    have hu := Real.cos_sq_add_sin_sq a
    have : (s.linearVelocity.x.eval σ * Real.cos a + s.linearVelocity.y.eval σ * Real.sin a) *
        (s.linearVelocity.x.eval σ * Real.cos a + s.linearVelocity.y.eval σ * Real.sin a) -
        (s.linearVelocity.x.eval σ * s.linearVelocity.x.eval σ +
          s.linearVelocity.y.eval σ * s.linearVelocity.y.eval σ) =
        -((evalVec σ s.linearVelocity.x s.linearVelocity.y * (starRingEnd ℂ) (unitVec a)).im ^ 2) := by
      rw [unitVec_mk]
      simp only [evalVec, Complex.mul_im, Complex.conj_re, Complex.conj_im]
      linear_combination (s.linearVelocity.x.eval σ ^ 2 + s.linearVelocity.y.eval σ ^ 2) * hu
    rw [this, abs_neg, abs_of_nonneg (by positivity)]
  | linearVelocityMaxMagnitude m =>
    simp only [Constraint.apply, MeaningWithin, real_eq, real_lit, Rat.cast_zero,
      decide_eq_true_eq, decodeSample, real_mul]
    split
    next h =>
      simp [Con.HoldsWithin, hv, h, Near, evalVec]
    next h =>
      simp only [List.mem_singleton, forall_eq, Con.HoldsWithin, Translation2.squaredNorm, defined_add,
        defined_mul, defined_const, hv, true_and, eval_add, eval_mul, eval_const, and_self, h,
        ne_eq, not_false_eq_true, forall_true_left, false_implies]
      exact norm_within_iff _ _ _ _
  | pointAt p tol =>
    simp only [Constraint.apply, MeaningWithin, decodeSample, List.mem_singleton, forall_eq,
      Con.HoldsWithin, Pose2.x, Pose2.y, defined_add, defined_mul, defined_sub, defined_const,
      defined_hypot, hp, hr, true_and, and_self, eval_add, eval_mul, eval_sub, eval_const,
      eval_hypot, real_cos, real_hypot]
    have h1 : dist (evalVec σ s.pose.translation.x s.pose.translation.y) (vec p) =
        Real.sqrt ((p.x - s.pose.translation.x.eval σ) ^ 2 +
          (p.y - s.pose.translation.y.eval σ) ^ 2) := by
      rw [← norm_mk, dist_comm, dist_eq_norm]
      congr 1
    rw [h1]
    have h2 : ((vec p - evalVec σ s.pose.translation.x s.pose.translation.y) *
        (starRingEnd ℂ) (evalVec σ s.pose.rotation.cos s.pose.rotation.sin)).re =
        s.pose.rotation.cos.eval σ * (p.x - s.pose.translation.x.eval σ) +
        s.pose.rotation.sin.eval σ * (p.y - s.pose.translation.y.eval σ) := by
      simp [vec, evalVec]; ring
    rw [h2]
  | pointLine r a b d =>
    simp only [Constraint.apply, MeaningWithin, List.mem_singleton, forall_eq, real_mul]
    rw [linePoint_within _ _ _ _ _ _ (hconst a) (hconst b) (honD r), honR, hcv, hcv]
  | pointPoint r p d =>
    have h := honR r
    have hd := honD r
    simp only [Constraint.apply, MeaningWithin, List.mem_singleton, forall_eq, Con.HoldsWithin,
      defined_add, defined_mul, defined_sub, defined_const, hd, true_and, and_self, eval_add,
      eval_mul, eval_sub, eval_const, real_mul]
    rw [← h, dist_comm, dist_eq_norm]
    have : (vec p - vec (evalT σ (s.pose.translation.add (r.toV.rotateBy s.pose.rotation)))) =
        ⟨p.x - (s.pose.translation.add (r.toV.rotateBy s.pose.rotation)).x.eval σ,
         p.y - (s.pose.translation.add (r.toV.rotateBy s.pose.rotation)).y.eval σ⟩ := by
      apply Complex.ext <;> simp [vec, evalT]
    rw [this, norm_mk_sq, sq, sq, sq]
  | poseEquality x y h =>
    simp only [Constraint.apply, Pose2.eqCons, Translation2.eqCons, Rotation2.eqCons,
      MeaningWithin, decodeSample, List.mem_append, List.mem_cons, List.not_mem_nil, or_false, if_true,
      Bool.false_eq_true, if_false, or_imp, forall_and, forall_eq, Con.HoldsWithin, Pose2.ofXYHeading,
      Translation2.toV, Rotation2.toV, Rotation2.ofAngle, defined_const, defined_sub, defined_mul,
      defined_add, defined_lit, hp, hr, true_and, and_self, eval_const, eval_sub, eval_mul,
      eval_add, eval_lit, Rat.cast_zero, Rat.cast_one, real_cos, real_sin]
    rw [evalVec, evalVec, along_mk]
    rfl
  | translationEquality t =>
    simp only [Constraint.apply, Translation2.eqCons, MeaningWithin, decodeSample,
      List.mem_cons, List.not_mem_nil, or_false, forall_eq_or_imp, forall_eq, Con.HoldsWithin,
      Translation2.toV, defined_const, hp, true_and, eval_const]
    rfl

end Trajopt
