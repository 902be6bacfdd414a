import Verif.Spec.Rounding
import Verif.Lemmas.Double
import Verif.Props.Constraint
import Verif.Props.Double
import Mathlib.Analysis.Real.Pi.Bounds

/-!
# C75 Constraints whose constants are doubles
-/

set_option autoImplicit false

namespace Trajopt.Props

open Spec Doubles

variable {A : Arith}

section
variable (a b : Expr (Doubles A))
@[simp] theorem map_add : (a + b).map val = a.map val + b.map val := rfl
@[simp] theorem map_sub : (a - b).map val = a.map val - b.map val := rfl
@[simp] theorem map_mul : (a * b).map val = a.map val * b.map val := rfl
@[simp] theorem map_div : (a / b).map val = a.map val / b.map val := rfl
@[simp] theorem map_neg : (-a).map val = -(a.map val) := rfl
@[simp] theorem map_hypot : (Num.hypot a b).map val = Num.hypot (a.map val) (b.map val) := rfl
@[simp] theorem map_sign : (Num.sign a).map val = Num.sign (a.map val) := rfl
@[simp] theorem map_const (d : Doubles A) : (Expr.const d).map val = .const d.val := rfl
@[simp] theorem map_var (i : ℕ) : (Expr.var i : Expr (Doubles A)).map val = .var i := rfl
theorem map_lit (q : ℚ) : (Num.lit q : Expr (Doubles A)).map val = .const (A.rnd q) := rfl
@[simp] theorem map_zero : (Num.lit 0 : Expr (Doubles A)).map val = Num.lit 0 := by
  rw [map_lit, Rat.cast_zero, rnd_zero]
  change _ = Expr.const ((0 : ℚ) : ℝ)
  simp
@[simp] theorem map_one : (Num.lit 1 : Expr (Doubles A)).map val = Num.lit 1 := by
  rw [map_lit, Rat.cast_one, rnd_one]
  change _ = Expr.const ((1 : ℚ) : ℝ)
  simp
@[simp] theorem map_half : (Num.lit (1 / 2) : Expr (Doubles A)).map val = Num.lit (1 / 2) := by
  have e : ((1 / 2 : ℚ) : ℝ) = 1 / 2 := by norm_num
  change Expr.const (A.rnd ((1 / 2 : ℚ) : ℝ)) = Expr.const ((1 / 2 : ℚ) : ℝ)
  rw [e, A.half]
@[simp] theorem map_neg_half :
    (Num.lit (-1 / 2) : Expr (Doubles A)).map val = Num.lit (-1 / 2) := by
  have e : ((-1 / 2 : ℚ) : ℝ) = -(1 / 2) := by norm_num
  change Expr.const (A.rnd ((-1 / 2 : ℚ) : ℝ)) = Expr.const ((-1 / 2 : ℚ) : ℝ)
  rw [e, A.symm, A.half]
end

/-- Constants of a point replaced. -/
def mapT (t : Translation2 (Expr (Doubles A))) : Translation2 (Expr ℝ) := ⟨t.x.map val, t.y.map val⟩

theorem map_linePointDistance (a b p : Translation2 (Expr (Doubles A))) :
    (linePointDistance a b p).map val = linePointDistance (mapT a) (mapT b) (mapT p) := by
  simp only [linePointDistance, lpdLerp, lpdMin, lpdMax, Translation2.dot,
    Translation2.squaredNorm, Translation2.sub, Translation2.add, Translation2.neg, mapT, map_add,
    map_sub, map_mul, map_div, map_neg, map_sign, map_zero, map_one, map_half, map_neg_half]

theorem rnd_sq_bounds (d : ℝ) : (1 - A.u) * d ^ 2 - A.η ≤ A.rnd (d * d) ∧
    A.rnd (d * d) ≤ (1 + A.u) * d ^ 2 + A.η ∧ 0 ≤ A.rnd (d * d) := by
  have h := A.error (d * d)
  rw [abs_of_nonneg (mul_self_nonneg d)] at h
  obtain ⟨h1, h2⟩ := abs_le.mp h
  exact ⟨by nlinarith, by nlinarith, rnd_nonneg (mul_self_nonneg d)⟩

theorem eq_zero_iff (m : Doubles A) : (Dbl.eq m (Num.lit 0) = true) ↔ m.val = 0 := by
  change decide (m.val = A.rnd ((0 : ℚ) : ℝ)) = true ↔ _
  rw [Rat.cast_zero, rnd_zero, decide_eq_true_eq]

theorem speed_con (σ : ℕ → ℝ) (m : Doubles A) (i j : ℕ) :
    (∀ k ∈ (if Dbl.eq m (Num.lit 0) then
        ([.eq (.var i) (Num.lit 0), .eq (.var j) (Num.lit 0)] : List (Con (Doubles A)))
      else [.le (Translation2.squaredNorm ⟨.var i, .var j⟩) (.const (m * m))]),
      (k.map val).Holds σ) ↔
    if m.val = 0 then (⟨σ i, σ j⟩ : ℂ) = 0 else ‖(⟨σ i, σ j⟩ : ℂ)‖ ^ 2 ≤ A.rnd (m.val * m.val) := by
  by_cases h : m.val = 0
  · rw [if_pos ((eq_zero_iff m).mpr h), if_pos h]
    simp [Con.map, Con.Holds, Complex.ext_iff]
  · rw [if_neg (by rw [eq_zero_iff]; exact h), if_neg h]
    simp only [List.mem_singleton, forall_eq, Con.map, Con.Holds, Translation2.squaredNorm, map_add,
      map_mul, map_var, map_const, val_mul, defined_add, defined_mul, defined_var, defined_const,
      true_and, eval_add, eval_mul, eval_var, eval_const, and_self]
    rw [norm_mk_sq]
    constructor <;> intro h <;> nlinarith

theorem linePoint_conD (σ : ℕ → ℝ) (a b p : Translation2 (Expr (Doubles A))) (d : Doubles A)
    (ha : (mapT a).x.Defined σ ∧ (mapT a).y.Defined σ)
    (hb : (mapT b).x.Defined σ ∧ (mapT b).y.Defined σ)
    (hp : (mapT p).x.Defined σ ∧ (mapT p).y.Defined σ) :
    ((Con.ge (linePointDistance a b p * linePointDistance a b p) (.const (d * d))).map val).Holds σ ↔
      vec (evalT σ (mapT a)) ≠ vec (evalT σ (mapT b)) ∧
      ∀ q ∈ segment ℝ (vec (evalT σ (mapT a))) (vec (evalT σ (mapT b))),
        A.rnd (d.val * d.val) ≤ dist q (vec (evalT σ (mapT p))) ^ 4 := by
  have h0 := (rnd_sq_bounds (A := A) d.val).2.2
  have e : (Con.ge (linePointDistance a b p * linePointDistance a b p) (.const (d * d))).map val =
      Con.ge (linePointDistance (mapT a) (mapT b) (mapT p) *
        linePointDistance (mapT a) (mapT b) (mapT p))
        (.const (Real.sqrt (A.rnd (d.val * d.val)) * Real.sqrt (A.rnd (d.val * d.val)))) := by
    rw [Real.mul_self_sqrt h0]
    simp only [Con.map, map_mul, map_const, val_mul, map_linePointDistance]
  rw [e, linePoint_con _ _ _ _ _ ha hb hp]
  refine and_congr_right fun _ => forall₂_congr fun q _ => ?_
  rw [abs_of_nonneg (Real.sqrt_nonneg _), Real.sqrt_le_left (by positivity)]
  rw [← pow_mul]

theorem onRobotD_eval (σ : ℕ → ℝ) (i : VarIds) (r : Translation2 (Doubles A)) :
    let t : Translation2 (Expr (Doubles A)) :=
      i.sample.pose.translation.add (r.toV.rotateBy i.sample.pose.rotation)
    ((mapT t).x.Defined σ ∧ (mapT t).y.Defined σ) ∧
    vec (evalT σ (mapT t)) = (i.state σ).onRobotD r := by
  refine ⟨by simp [mapT, Translation2.add, Translation2.rotateBy, Translation2.toV, VarIds.sample], ?_⟩
  apply Complex.ext <;>
    simp [vec, vecD, evalT, mapT, VarIds.state, VarIds.sample, State.onRobotD, Translation2.add,
      Translation2.rotateBy, Translation2.toV]

/-- What the constraints with rounded constants come down to. -/
def Exact (c : Constraint (Doubles A)) (s : State) : Prop :=
  match c with
  | .angularVelocityMaxMagnitude m => |s.omega| ≤ m.val
  | .linearAccelerationMaxMagnitude m =>
    if m.val = 0 then s.acc = 0 else ‖s.acc‖ ^ 2 ≤ A.rnd (m.val * m.val)
  | .linearVelocityMaxMagnitude m =>
    if m.val = 0 then s.vel = 0 else ‖s.vel‖ ^ 2 ≤ A.rnd (m.val * m.val)
  | .linearVelocityDirection a =>
    (s.vel.re * A.rnd (A.cos a.val) + s.vel.im * A.rnd (A.sin a.val)) ^ 2 = ‖s.vel‖ ^ 2
  | .pointAt p tol => A.rnd (A.cos tol.val) * dist s.pos (vecD p) ≤
      ((vecD p - s.pos) * (starRingEnd ℂ) s.heading).re
  | .linePoint a b p d => s.onRobotD a ≠ s.onRobotD b ∧
      ∀ q ∈ segment ℝ (s.onRobotD a) (s.onRobotD b), A.rnd (d.val * d.val) ≤ dist q (vecD p) ^ 4
  | .pointLine r a b d => vecD a ≠ vecD b ∧
      ∀ q ∈ segment ℝ (vecD a) (vecD b), A.rnd (d.val * d.val) ≤ dist q (s.onRobotD r) ^ 4
  | .pointPoint r p d => A.rnd (d.val * d.val) ≤ dist (s.onRobotD r) (vecD p) ^ 2
  | .poseEquality x y h => s.pos = ⟨x.val, y.val⟩ ∧
      s.heading.re * A.rnd (A.sin h.val) - s.heading.im * A.rnd (A.cos h.val) = 0 ∧ ‖s.heading‖ = 1
  | .translationEquality t => s.pos = vecD t

theorem satisfiesD_iff (σ : ℕ → ℝ) (c : Constraint (Doubles A)) (i : VarIds) :
    SatisfiesD σ c i ↔ Exact c (i.state σ) := by
  have hvt : ∀ t : Translation2 (Doubles A),
      ((mapT t.toV).x.Defined σ ∧ (mapT t.toV).y.Defined σ) ∧ vec (evalT σ (mapT t.toV)) = vecD t :=
    fun t => ⟨⟨trivial, trivial⟩, rfl⟩
  cases c with
  | angularVelocityMaxMagnitude m =>
    simp only [SatisfiesD, Constraint.apply, Exact, VarIds.sample, VarIds.state]
    by_cases h : m.val = 0
    · rw [if_pos ((eq_zero_iff m).mpr h), h]
      simp [Con.map, Con.Holds]
    · rw [if_neg (by rw [eq_zero_iff]; exact h)]
      simp [Con.map, Con.Holds, abs_le]
  | linePoint a b p d =>
    simp only [SatisfiesD, Constraint.apply, Exact, List.mem_singleton, forall_eq]
    obtain ⟨ha, ha'⟩ := onRobotD_eval σ i a
    obtain ⟨hb, hb'⟩ := onRobotD_eval σ i b
    rw [linePoint_conD _ _ _ _ _ ha hb (hvt p).1, ha', hb', (hvt p).2]
  | linearAccelerationMaxMagnitude m => exact speed_con σ m i.ax i.ay
  | linearVelocityDirection a =>
    simp only [SatisfiesD, Constraint.apply, Exact, VarIds.sample, VarIds.state,
      List.mem_singleton, forall_eq, Con.map, Con.Holds, Translation2.dot,
      Translation2.squaredNorm, Rotation2.ofAngle, map_add, map_mul, map_var, map_const, val_cos,
      val_sin, defined_add, defined_mul, defined_var, defined_const, true_and, and_self, eval_add,
      eval_mul, eval_var, eval_const]
    rw [norm_mk_sq]
    constructor <;> intro h <;> linarith
  | linearVelocityMaxMagnitude m => exact speed_con σ m i.vx i.vy
  | pointAt p tol =>
    simp only [SatisfiesD, Constraint.apply, Exact, VarIds.sample, VarIds.state,
      List.mem_singleton, forall_eq, Con.map, Con.Holds, Pose2.x, Pose2.y, map_add, map_mul, map_sub,
      map_hypot, map_var, map_const, val_cos, defined_add, defined_mul, defined_sub, defined_hypot,
      defined_var, defined_const, true_and, and_self, eval_add, eval_mul, eval_sub, eval_hypot,
      eval_var, eval_const, real_hypot, ge_iff_le]
    have h1 : dist (⟨σ i.x, σ i.y⟩ : ℂ) (vecD p) =
        Real.sqrt ((p.x.val - σ i.x) ^ 2 + (p.y.val - σ i.y) ^ 2) := by
      rw [← norm_mk, dist_comm, dist_eq_norm]
      congr 1
    rw [h1]
    have h2 : ((vecD p - ⟨σ i.x, σ i.y⟩) * (starRingEnd ℂ) (⟨σ i.cos, σ i.sin⟩ : ℂ)).re =
        σ i.cos * (p.x.val - σ i.x) + σ i.sin * (p.y.val - σ i.y) := by
      simp [vecD]; ring
    rw [h2]
  | pointLine r a b d =>
    simp only [SatisfiesD, Constraint.apply, Exact, List.mem_singleton, forall_eq]
    obtain ⟨hr, hr'⟩ := onRobotD_eval σ i r
    rw [linePoint_conD _ _ _ _ _ (hvt a).1 (hvt b).1 hr, hr', (hvt a).2, (hvt b).2]
  | pointPoint r p d =>
    obtain ⟨hr, hr'⟩ := onRobotD_eval σ i r
    simp only [SatisfiesD, Constraint.apply, Exact, List.mem_singleton, forall_eq, Con.map,
      Con.Holds, map_add, map_mul, map_sub, map_const, val_mul, defined_add, defined_mul,
      defined_sub, defined_const, true_and, eval_add, eval_mul, eval_sub, eval_const, ge_iff_le]
    have hx := hr.1
    have hy := hr.2
    rw [← hr', dist_sq_mk]
    simp only [mapT] at hx hy
    simp only [hx, hy, and_self, true_and, vec, vecD, evalT, mapT]
    constructor <;> intro h <;> nlinarith
  | poseEquality x y h =>
    simp only [SatisfiesD, Constraint.apply, Pose2.eqCons, Translation2.eqCons, Rotation2.eqCons,
      Exact, VarIds.sample, VarIds.state, List.mem_append, List.mem_cons, List.not_mem_nil, or_false,
      if_true, Bool.false_eq_true, if_false, or_imp, forall_and, forall_eq, Con.map, Con.Holds,
      Pose2.ofXYHeading, Translation2.toV, Rotation2.toV, Rotation2.ofAngle, map_add, map_mul,
      map_sub, map_var, map_const, map_zero, map_one, val_cos, val_sin, defined_const, defined_sub,
      defined_mul, defined_add, defined_lit, defined_var, true_and, and_self, eval_const, eval_sub,
      eval_mul, eval_add, eval_lit, eval_var, Rat.cast_zero, Rat.cast_one, and_assoc]
    have hn : ‖(⟨σ i.cos, σ i.sin⟩ : ℂ)‖ = 1 ↔ σ i.cos * σ i.cos + σ i.sin * σ i.sin = 1 := by
      rw [← pow_eq_one_iff_of_nonneg (norm_nonneg _) two_ne_zero, norm_mk_sq]
      constructor <;> intro h <;> linarith
    rw [hn, Complex.ext_iff]
    tauto
  | translationEquality t =>
    simp only [SatisfiesD, Constraint.apply, Translation2.eqCons, Exact, VarIds.sample,
      VarIds.state, List.mem_cons, List.not_mem_nil, or_false, forall_eq_or_imp, forall_eq, Con.map,
      Con.Holds, Translation2.toV, map_var, map_const, defined_var, defined_const, eval_var,
      eval_const, true_and]
    rw [Complex.ext_iff]
    rfl

theorem eps_nonneg (A : Arith) : 0 ≤ A.ε := (abs_nonneg _).trans (A.sin_error 0)

/-- The component of a vector across a unit direction. -/
theorem norm_sub_proj (v : ℂ) (a : ℝ) :
    ‖v - ((v.re * Real.cos a + v.im * Real.sin a : ℝ) : ℂ) * unitVec a‖ =
      |v.re * Real.sin a - v.im * Real.cos a| := by
  have h := Real.sin_sq_add_cos_sq a
  rw [← Real.sqrt_sq (norm_nonneg _), ← Real.sqrt_sq_eq_abs, ← Complex.normSq_eq_norm_sq,
    Complex.normSq_apply, unitVec_mk]
  congr 1
  simp only [Complex.sub_re, Complex.sub_im, Complex.mul_re, Complex.mul_im, Complex.ofReal_re,
    Complex.ofReal_im, zero_mul, sub_zero, add_zero]
  generalize Real.cos a = C at *
  generalize Real.sin a = S at *
  have hC : C ^ 2 = 1 - S ^ 2 := by linarith
  have e1 : v.re - (v.re * C + v.im * S) * C = S * (v.re * S - v.im * C) := by
    linear_combination (-v.re) * hC
  have e2 : v.im - (v.re * C + v.im * S) * S = -(C * (v.re * S - v.im * C)) := by
    linear_combination (-v.im) * hC
  rw [e1, e2]
  linear_combination (v.re * S - v.im * C) ^ 2 * h

/-- Rounding the direction moves the component across it by at most `2ε`. -/
theorem cross_round (v : ℂ) (C S c s ε : ℝ) (hc : |c - C| ≤ ε) (hs : |s - S| ≤ ε) :
    |v.re * S - v.im * C| ≤ |v.re * s - v.im * c| + 2 * ε * ‖v‖ := by
  have hε : 0 ≤ ε := (abs_nonneg _).trans hc
  have e : v.re * S - v.im * C = (v.re * s - v.im * c) + (v.im * (c - C) - v.re * (s - S)) := by ring
  rw [e]
  refine (abs_add_le _ _).trans ?_
  have h1 : |v.im * (c - C)| ≤ ‖v‖ * ε := by
    rw [abs_mul]
    exact mul_le_mul (Complex.abs_im_le_norm v) hc (abs_nonneg _) (norm_nonneg _)
  have h2 : |v.re * (s - S)| ≤ ‖v‖ * ε := by
    rw [abs_mul]
    exact mul_le_mul (Complex.abs_re_le_norm v) hs (abs_nonneg _) (norm_nonneg _)
  have h3 := abs_sub (v.im * (c - C)) (v.re * (s - S))
  linarith

/-- A rounded direction is almost a unit vector. -/
theorem rounded_unit (C S c s ε : ℝ) (h1 : S ^ 2 + C ^ 2 = 1) (hc : |c - C| ≤ ε) (hs : |s - S| ≤ ε)
    (hε : ε ≤ 1 / 8) : |c ^ 2 + s ^ 2 - 1| ≤ 4 * ε := by
  obtain ⟨c1, c2⟩ := abs_le.mp hc
  obtain ⟨s1, s2⟩ := abs_le.mp hs
  have hε0 : 0 ≤ ε := (abs_nonneg _).trans hc
  have e : c ^ 2 + s ^ 2 - 1 = 2 * (C * (c - C) + S * (s - S)) + ((c - C) ^ 2 + (s - S) ^ 2) := by
    linear_combination h1
  have hq1 : (c - C) ^ 2 ≤ ε ^ 2 := by
    rw [← sq_abs (c - C)]; exact pow_le_pow_left₀ (abs_nonneg _) hc 2
  have hq2 : (s - S) ^ 2 ≤ ε ^ 2 := by
    rw [← sq_abs (s - S)]; exact pow_le_pow_left₀ (abs_nonneg _) hs 2
  have hcs : (C * (c - C) + S * (s - S)) ^ 2 ≤ 2 * ε ^ 2 := by
    have : (C * (c - C) + S * (s - S)) ^ 2 + (C * (s - S) - S * (c - C)) ^ 2 =
        (S ^ 2 + C ^ 2) * ((c - C) ^ 2 + (s - S) ^ 2) := by ring
    rw [h1] at this
    nlinarith [sq_nonneg (C * (s - S) - S * (c - C))]
  have hab : |C * (c - C) + S * (s - S)| ≤ 3 / 2 * ε := by
    apply abs_le_of_sq_le_sq _ (by linarith)
    nlinarith
  obtain ⟨x1, x2⟩ := abs_le.mp hab
  rw [e, abs_le]
  constructor <;> nlinarith [sq_nonneg (c - C), sq_nonneg (s - S)]

/-- C75: what a satisfied constraint with double constants guarantees. -/
theorem C75_guaranteed_partial (hε : A.ε ≤ 1 / 8) (σ : ℕ → ℝ) (c : Constraint (Doubles A))
    (i : VarIds) (h : SatisfiesD σ c i) : Guaranteed c (i.state σ) := by
  rw [satisfiesD_iff] at h
  have hε0 := eps_nonneg A
  have hu := A.u_nonneg
  have hη := eta_nonneg A
  generalize i.state σ = s at h
  cases c with
  | angularVelocityMaxMagnitude m => exact h
  | translationEquality t => exact h
  | linearAccelerationMaxMagnitude m =>
    simp only [Exact, Guaranteed] at h ⊢
    split at h
    · rw [h, norm_zero]
      have := mul_nonneg (by linarith : 0 ≤ 1 + A.u) (sq_nonneg m.val)
      norm_num; linarith
    · exact h.trans (rnd_sq_bounds m.val).2.1
  | linearVelocityMaxMagnitude m =>
    simp only [Exact, Guaranteed] at h ⊢
    split at h
    · rw [h, norm_zero]
      have := mul_nonneg (by linarith : 0 ≤ 1 + A.u) (sq_nonneg m.val)
      norm_num; linarith
    · exact h.trans (rnd_sq_bounds m.val).2.1
  | linearVelocityDirection a =>
    simp only [Exact, Guaranteed] at h ⊢
    refine ⟨_, (norm_sub_proj s.vel a.val).trans_le ?_⟩
    have hc := A.cos_error a.val
    have hs := A.sin_error a.val
    generalize A.rnd (A.cos a.val) = c at *
    generalize A.rnd (A.sin a.val) = d at *
    have hru := rounded_unit _ _ _ _ _ (Real.sin_sq_add_cos_sq a.val) hc hs hε
    refine (cross_round s.vel _ _ _ _ _ hc hs).trans ?_
    have hn := Complex.normSq_eq_norm_sq s.vel
    rw [Complex.normSq_apply] at hn
    have hx : (s.vel.re * d - s.vel.im * c) ^ 2 = (c ^ 2 + d ^ 2 - 1) * ‖s.vel‖ ^ 2 := by
      have e : (s.vel.re * d - s.vel.im * c) ^ 2 + (s.vel.re * c + s.vel.im * d) ^ 2 =
        (c ^ 2 + d ^ 2) * (s.vel.re * s.vel.re + s.vel.im * s.vel.im) := by ring
      rw [h, hn] at e
      linarith
    have hsq := Real.sq_sqrt hε0
    have hcr : |s.vel.re * d - s.vel.im * c| ≤ 2 * Real.sqrt A.ε * ‖s.vel‖ := by
      apply abs_le_of_sq_le_sq _ (by positivity)
      rw [hx]
      have := mul_le_mul_of_nonneg_right ((abs_le.mp hru).2) (sq_nonneg ‖s.vel‖)
      calc _ ≤ 4 * A.ε * ‖s.vel‖ ^ 2 := this
        _ = _ := by rw [mul_pow, mul_pow, hsq]; ring
    have h2 : 2 * A.ε ≤ Real.sqrt A.ε := by
      have h3 : Real.sqrt A.ε ≤ 1 / 2 := by
        rw [Real.sqrt_le_left (by norm_num)]
        linarith
      nlinarith [Real.sqrt_nonneg A.ε]
    have := mul_le_mul_of_nonneg_right h2 (norm_nonneg s.vel)
    linarith
  | pointAt p tol =>
    simp only [Exact, Guaranteed] at h ⊢
    refine le_trans ?_ h
    have := (abs_le.mp (A.cos_error tol.val)).1
    exact mul_le_mul_of_nonneg_right (by linarith) dist_nonneg
  | linePoint a b p d =>
    exact ⟨h.1, fun q hq => (rnd_sq_bounds d.val).1.trans (h.2 q hq)⟩
  | pointLine r a b d =>
    exact ⟨h.1, fun q hq => (rnd_sq_bounds d.val).1.trans (h.2 q hq)⟩
  | pointPoint r p d => exact (rnd_sq_bounds d.val).1.trans h
  | poseEquality x y hd =>
    obtain ⟨h1, h2, h3⟩ := h
    refine ⟨h1, h3, ?_⟩
    have hc := A.cos_error hd.val
    have hs := A.sin_error hd.val
    have hcr := cross_round s.heading _ _ _ _ _ hc hs
    rw [h2, abs_zero, zero_add, h3, mul_one] at hcr
    have hn := Complex.normSq_eq_norm_sq s.heading
    rw [Complex.normSq_apply, h3] at hn
    have hcs := Real.sin_sq_add_cos_sq hd.val
    have key : ∀ C S : ℝ, S ^ 2 + C ^ 2 = 1 → |s.heading.re * S - s.heading.im * C| ≤ 2 * A.ε →
        0 ≤ s.heading.re * C + s.heading.im * S → ‖s.heading - ⟨C, S⟩‖ ≤ 3 * A.ε := by
      intro C S hCS hcross ht
      have hcross2 : (s.heading.re * S - s.heading.im * C) ^ 2 ≤ (2 * A.ε) ^ 2 := by
        rw [← sq_abs]; exact pow_le_pow_left₀ (abs_nonneg _) hcross 2
      have ht2 : (s.heading.re * C + s.heading.im * S) ^ 2 =
          1 - (s.heading.re * S - s.heading.im * C) ^ 2 := by
        linear_combination (s.heading.re * s.heading.re + s.heading.im * s.heading.im) * hCS + hn
      apply le_of_sq_le_sq _ (by linarith)
      rw [← Complex.normSq_eq_norm_sq, Complex.normSq_apply]
      simp only [Complex.sub_re, Complex.sub_im]
      have e : (s.heading.re - C) * (s.heading.re - C) + (s.heading.im - S) * (s.heading.im - S) =
          2 - 2 * (s.heading.re * C + s.heading.im * S) := by
        linear_combination hCS + hn
      rw [e]
      generalize s.heading.re * C + s.heading.im * S = t at *
      have ht1 : t ≤ 1 := by nlinarith [sq_nonneg (s.heading.re * S - s.heading.im * C)]
      nlinarith
    rcases le_total 0 (s.heading.re * Real.cos hd.val + s.heading.im * Real.sin hd.val) with ht | ht
    · left
      rw [unitVec_mk]
      exact key _ _ hcs hcr ht
    · right
      have := key (-Real.cos hd.val) (-Real.sin hd.val) (by linarith)
        (by
          have e : s.heading.re * -Real.sin hd.val - s.heading.im * -Real.cos hd.val =
            -(s.heading.re * Real.sin hd.val - s.heading.im * Real.cos hd.val) := by ring
          rw [e, abs_neg]; exact hcr) (by linarith)
      rw [unitVec_mk]
      have e : s.heading + ⟨Real.cos hd.val, Real.sin hd.val⟩ =
          s.heading - ⟨-Real.cos hd.val, -Real.sin hd.val⟩ := by
        apply Complex.ext <;> simp
      rw [e]; exact this

/-- C75: what is enough to satisfy a constraint with double constants. -/
theorem C75_enough (σ : ℕ → ℝ) (c : Constraint (Doubles A)) (i : VarIds)
    (h : Enough c (i.state σ)) : SatisfiesD σ c i := by
  rw [satisfiesD_iff]
  have hu := A.u_nonneg
  have hη := eta_nonneg A
  generalize i.state σ = s at h
  have speed : ∀ (v : ℂ) (m : ℝ), (v = 0 ∨ ‖v‖ ^ 2 ≤ (1 - A.u) * m ^ 2 - A.η) →
      if m = 0 then v = 0 else ‖v‖ ^ 2 ≤ A.rnd (m * m) := by
    intro v m hv
    have hb := rnd_sq_bounds (A := A) m
    split
    next h0 =>
      rcases hv with hv | hv
      · exact hv
      · rw [h0] at hv
        have : ‖v‖ ^ 2 ≤ 0 := by norm_num at hv; linarith
        have h2 : ‖v‖ = 0 := by
          have := le_antisymm this (sq_nonneg _)
          exact pow_eq_zero_iff two_ne_zero |>.mp this
        exact norm_eq_zero.mp h2
    next h0 =>
      rcases hv with hv | hv
      · rw [hv, norm_zero]; norm_num; exact hb.2.2
      · exact hv.trans hb.1
  cases c with
  | angularVelocityMaxMagnitude m => exact h
  | translationEquality t => exact h
  | linearAccelerationMaxMagnitude m => exact speed _ _ h
  | linearVelocityMaxMagnitude m => exact speed _ _ h
  | linearVelocityDirection a =>
    simp only [Enough] at h
    simp [Exact, h]
  | pointAt p tol =>
    simp only [Exact, Enough] at h ⊢
    refine le_trans ?_ h
    have := (abs_le.mp (A.cos_error tol.val)).2
    exact mul_le_mul_of_nonneg_right (by linarith) dist_nonneg
  | linePoint a b p d => exact ⟨h.1, fun q hq => (rnd_sq_bounds d.val).2.1.trans (h.2 q hq)⟩
  | pointLine r a b d => exact ⟨h.1, fun q hq => (rnd_sq_bounds d.val).2.1.trans (h.2 q hq)⟩
  | pointPoint r p d => exact (rnd_sq_bounds d.val).2.1.trans h
  | poseEquality x y hd =>
    obtain ⟨h1, t, h2, h3⟩ := h
    refine ⟨h1, ?_, h2⟩
    rw [h3]
    simp
    ring

/-- C75: a pose constraint can always be met, by a heading within rounding of the given one. -/
theorem C75_pose_feasible (hε : A.ε ≤ 1 / 8) (x y h : Doubles A) :
    ∃ heading : ℂ, ‖heading - unitVec h.val‖ ≤ 3 * A.ε ∧
      ∀ (σ : ℕ → ℝ) (i : VarIds), σ i.x = x.val → σ i.y = y.val → σ i.cos = heading.re →
        σ i.sin = heading.im → SatisfiesD σ (.poseEquality x y h) i := by
  have hc := A.cos_error h.val
  have hs := A.sin_error h.val
  have hε0 := eps_nonneg A
  set w : ℂ := ⟨A.rnd (A.cos h.val), A.rnd (A.sin h.val)⟩ with hw
  have hdist : 2 * ‖w - unitVec h.val‖ ≤ 3 * A.ε := by
    apply le_of_sq_le_sq _ (by linarith)
    rw [mul_pow, ← Complex.normSq_eq_norm_sq, Complex.normSq_apply, unitVec_mk, hw]
    simp only [Complex.sub_re, Complex.sub_im]
    have h1 : (A.rnd (A.cos h.val) - Real.cos h.val) ^ 2 ≤ A.ε ^ 2 := by
      rw [← sq_abs]; exact pow_le_pow_left₀ (abs_nonneg _) hc 2
    have h2 : (A.rnd (A.sin h.val) - Real.sin h.val) ^ 2 ≤ A.ε ^ 2 := by
      rw [← sq_abs]; exact pow_le_pow_left₀ (abs_nonneg _) hs 2
    nlinarith [sq_nonneg A.ε]
  have hunit : ‖unitVec h.val‖ = 1 := by
    rw [unitVec]; exact Complex.norm_exp_ofReal_mul_I _
  have hnw : |‖w‖ - 1| ≤ ‖w - unitVec h.val‖ := by
    rw [← hunit]; exact abs_norm_sub_norm_le _ _
  have hpos : 0 < ‖w‖ := by
    have := (abs_le.mp hnw).1
    linarith
  have hone : ‖w / ‖w‖‖ = 1 := by
    rw [norm_div, Complex.norm_real, norm_norm, div_self hpos.ne']
  refine ⟨w / ‖w‖, ?_, ?_⟩
  · have e : w / ‖w‖ - unitVec h.val = (w / ‖w‖ - w) + (w - unitVec h.val) := by ring
    rw [e]
    refine (norm_add_le _ _).trans ?_
    have h1 : ‖w / ‖w‖ - w‖ = |‖w‖ - 1| := by
      have e2 : w / ‖w‖ - w = (w / ‖w‖) * ((1 - ‖w‖ : ℝ) : ℂ) := by
        have : (‖w‖ : ℂ) ≠ 0 := by exact_mod_cast hpos.ne'
        push_cast
        field_simp
      rw [e2, norm_mul, hone, one_mul, Complex.norm_real, Real.norm_eq_abs, abs_sub_comm]
    rw [h1]
    linarith
  · intro σ i hx hy hcos hsin
    apply C75_enough
    refine ⟨?_, (‖w‖)⁻¹, ?_, ?_⟩
    · simp only [VarIds.state, hx, hy]
    · rw [show (i.state σ).heading = w / ‖w‖ by
        apply Complex.ext
        · exact hcos
        · exact hsin, hone]
    · rw [show (i.state σ).heading = w / ‖w‖ by
        apply Complex.ext
        · exact hcos
        · exact hsin, div_eq_mul_inv, mul_comm]
      push_cast; rfl

/-! ### The direction of the velocity -/

/-- C75: when cosine and sine round towards zero, a velocity direction constraint only allows standing
still. -/
theorem C75_direction_stop (a : Doubles A)
    (h : (Num.cos a).val ^ 2 + (Num.sin a).val ^ 2 < 1) (σ : ℕ → ℝ) (i : VarIds) :
    SatisfiesD σ (.linearVelocityDirection a) i ↔ (i.state σ).vel = 0 := by
  refine ⟨fun hs => ?_, fun hs => C75_enough σ _ i hs⟩
  rw [satisfiesD_iff] at hs
  generalize (i.state σ) = s at hs
  simp only [Exact] at hs
  rw [val_cos, val_sin] at h
  generalize A.rnd (A.cos a.val) = c at *
  generalize A.rnd (A.sin a.val) = d at *
  have hn := Complex.normSq_eq_norm_sq s.vel
  rw [Complex.normSq_apply] at hn
  by_contra hv
  have hp : 0 < ‖s.vel‖ ^ 2 := by
    have := norm_pos_iff.mpr hv
    positivity
  have e : (s.vel.re * d - s.vel.im * c) ^ 2 + (s.vel.re * c + s.vel.im * d) ^ 2 =
        (c ^ 2 + d ^ 2) * (s.vel.re * s.vel.re + s.vel.im * s.vel.im) := by ring
  rw [hs, hn] at e
  nlinarith [sq_nonneg (s.vel.re * d - s.vel.im * c)]

/-- `std::numbers::pi / 4` in IEEE doubles. -/
noncomputable def quarterTurn : Doubles binary64 := Doubles.round binary64 (Real.pi / 4)

theorem quarterTurn_val : quarterTurn.val = (7074237752028440 : ℤ) * 2 ^ (-53 : ℤ) := by
  have h1 := Real.pi_gt_d20
  have h2 := Real.pi_lt_d20
  change rnd64 (Real.pi / 4) = _
  apply rnd64_eq
  · norm_num
  · norm_num; linarith
  · norm_num; linarith
  · rw [abs_lt]; constructor <;> norm_num <;> linarith

/-- C75 fails for directions: with IEEE doubles, the velocity direction constraint for 45 degrees
(`pi / 4`) is only satisfied by a robot that stands still. -/
theorem C75_refuted_direction (σ : ℕ → ℝ) (i : VarIds) :
    SatisfiesD σ (.linearVelocityDirection quarterTurn) i ↔ (i.state σ).vel = 0 := by
  apply C75_direction_stop
  have p1 := Real.pi_gt_d20
  have p2 := Real.pi_lt_d20
  set δ := Real.pi / 4 - quarterTurn.val with hδ
  have hx : quarterTurn.val = Real.pi / 4 - δ := by rw [hδ]; ring
  have d1 : (306 : ℝ) / 10 ^ 19 < δ := by rw [hδ, quarterTurn_val]; norm_num; linarith
  have d2 : δ < 307 / 10 ^ 19 := by rw [hδ, quarterTurn_val]; norm_num; linarith
  have c1 := Real.one_sub_sq_div_two_le_cos (x := δ)
  have c2 := Real.cos_le_one δ
  have hδ1 : δ ≤ 1 := by norm_num at d2; linarith
  have hδ0 : 0 < δ := by norm_num at d1; linarith
  have s1 := Real.sin_gt_sub_cube hδ0
  have s2 := Real.sin_lt hδ0
  have hsq : δ ^ 2 ≤ 1 / 10 ^ 20 := by norm_num at d2 ⊢; nlinarith
  have hcu : δ ^ 3 ≤ 1 / 10 ^ 20 := by
    have : δ ^ 3 ≤ δ ^ 2 := pow_le_pow_of_le_one hδ0.le hδ1 (by norm_num)
    linarith
  set r := Real.sqrt 2 / 2 with hr
  have q1 : (70710678118654752440 : ℝ) / 10 ^ 20 < r := by
    have : (2 * 70710678118654752440 / 10 ^ 20 : ℝ) < Real.sqrt 2 := by
      apply Real.lt_sqrt_of_sq_lt; norm_num
    rw [hr]; linarith
  have q2 : r < 70710678118654752441 / 10 ^ 20 := by
    have : Real.sqrt 2 < (2 * 70710678118654752441 / 10 ^ 20 : ℝ) := by
      rw [Real.sqrt_lt' (by norm_num)]; norm_num
    rw [hr]; linarith
  have hcos : Real.cos quarterTurn.val = r * (Real.cos δ + Real.sin δ) := by
    rw [hx, Real.cos_sub, Real.cos_pi_div_four, Real.sin_pi_div_four]; ring
  have hsin : Real.sin quarterTurn.val = r * (Real.cos δ - Real.sin δ) := by
    rw [hx, Real.sin_sub, Real.cos_pi_div_four, Real.sin_pi_div_four]; ring
  have a1 : (1 + 305 / 10 ^ 19 : ℝ) ≤ Real.cos δ + Real.sin δ := by norm_num at *; linarith
  have a2 : Real.cos δ + Real.sin δ ≤ 1 + 307 / 10 ^ 19 := by linarith
  have b1 : (1 - 308 / 10 ^ 19 : ℝ) ≤ Real.cos δ - Real.sin δ := by norm_num at *; linarith
  have b2 : Real.cos δ - Real.sin δ ≤ 1 - 305 / 10 ^ 19 := by norm_num at *; linarith
  have hr0 : 0 < r := by norm_num at q1; linarith
  have A1 : (70710678118654752440 : ℝ) / 10 ^ 20 * (1 + 305 / 10 ^ 19) ≤ Real.cos quarterTurn.val := by
    rw [hcos]; exact mul_le_mul q1.le a1 (by norm_num) hr0.le
  have A2 : Real.cos quarterTurn.val ≤ 70710678118654752441 / 10 ^ 20 * (1 + 307 / 10 ^ 19) := by
    rw [hcos]; exact mul_le_mul q2.le a2 (by norm_num at *; linarith) (by norm_num)
  have B1 : (70710678118654752440 : ℝ) / 10 ^ 20 * (1 - 308 / 10 ^ 19) ≤ Real.sin quarterTurn.val := by
    rw [hsin]; exact mul_le_mul q1.le b1 (by norm_num) hr0.le
  have B2 : Real.sin quarterTurn.val ≤ 70710678118654752441 / 10 ^ 20 * (1 - 305 / 10 ^ 19) := by
    rw [hsin]; exact mul_le_mul q2.le b2 (by norm_num at *; linarith) (by norm_num)
  have hc : (Num.cos quarterTurn).val = (6369051672525773 : ℤ) * 2 ^ (-53 : ℤ) := by
    change rnd64 (Real.cos quarterTurn.val) = _
    apply rnd64_eq
    · norm_num
    · norm_num at A1 ⊢; linarith
    · norm_num at A2 ⊢; linarith
    · rw [abs_lt]; constructor <;> norm_num at A1 A2 ⊢ <;> linarith
  have hs : (Num.sin quarterTurn).val = (6369051672525772 : ℤ) * 2 ^ (-53 : ℤ) := by
    change rnd64 (Real.sin quarterTurn.val) = _
    apply rnd64_eq
    · norm_num
    · norm_num at B1 ⊢; linarith
    · norm_num at B2 ⊢; linarith
    · rw [abs_lt]; constructor <;> norm_num at B1 B2 ⊢ <;> linarith
  rw [hc, hs]
  norm_num

/-- The bounds in IEEE doubles: a limit of 4 m/s admits at most `4 (1 + 2e-16)` m/s. -/
example (σ : ℕ → ℝ) (i : VarIds) (h : SatisfiesD σ (.linearVelocityMaxMagnitude (dbl 4)) i) :
    ‖(i.state σ).vel‖ ≤ 4 * (1 + 2e-16) := by
  have h1 := C75_guaranteed_partial (A := binary64) (by
    have : (2 : ℝ) ^ (-1075 : ℤ) ≤ 2 ^ (-53 : ℤ) := binary64.tiny
    change (2 : ℝ) ^ (-53 : ℤ) + 2 ^ (-1075 : ℤ) ≤ 1 / 8
    generalize (2 : ℝ) ^ (-1075 : ℤ) = t at *
    norm_num at this ⊢; linarith) σ _ i h
  have e : (dbl 4).val = 4 := by rw [dbl_val 4 (by norm_num)]; norm_num
  simp only [Guaranteed, e] at h1
  have hη : binary64.η ≤ 2 ^ (-80 : ℤ) := zpow_le_zpow_right₀ (by norm_num) (by norm_num)
  have hu : binary64.u = 2 ^ (-53 : ℤ) := rfl
  rw [hu] at h1
  apply le_of_sq_le_sq _ (by norm_num)
  refine h1.trans ?_
  norm_num at hη ⊢
  linarith

end Trajopt.Props
