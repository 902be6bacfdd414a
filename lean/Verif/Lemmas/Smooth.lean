import Verif.Spec.Smooth
import Verif.Lemmas.Refinement
import Mathlib.Analysis.SpecialFunctions.Sqrt
import Mathlib.Analysis.SpecialFunctions.Trigonometric.Deriv
import Mathlib.Analysis.Calculus.ContDiff.Operations

/-! # Smoothness of expressions -/

set_option autoImplicit false

namespace Trajopt

open Spec Props

/-- No operation is at a point where it is not smooth. -/
def Expr.Regular (σ : ℕ → ℝ) : Expr ℝ → Prop
  | .const _ => True
  | .var _ => True
  | .add a b => a.Regular σ ∧ b.Regular σ
  | .sub a b => a.Regular σ ∧ b.Regular σ
  | .mul a b => a.Regular σ ∧ b.Regular σ
  | .div a b => a.Regular σ ∧ b.Regular σ ∧ b.eval σ ≠ 0
  | .neg a => a.Regular σ
  | .sin a => a.Regular σ
  | .cos a => a.Regular σ
  | .atan2 _ _ => False
  | .hypot a b => a.Regular σ ∧ b.Regular σ ∧ (a.eval σ ≠ 0 ∨ b.eval σ ≠ 0)
  | .sign a => a.Regular σ ∧ a.eval σ ≠ 0

theorem contDiffAt_eval {n : ℕ} (k : WithTop ℕ∞) (x : Fin n → ℝ) (e : Expr ℝ)
    (h : e.Regular (ofVec x)) : ContDiffAt ℝ k (fun y : Fin n → ℝ => e.eval (ofVec y)) x := by
  induction e with
  | const c => exact contDiffAt_const
  | var i =>
    by_cases hi : i < n
    · simp only [Expr.eval, ofVec, hi, dif_pos]
      exact contDiffAt_pi.mp contDiffAt_id _
    · simp only [Expr.eval, ofVec, hi]
      exact contDiffAt_const
  | add a b ha hb => exact (ha h.1).add (hb h.2)
  | sub a b ha hb => exact (ha h.1).sub (hb h.2)
  | mul a b ha hb => exact (ha h.1).mul (hb h.2)
  | div a b ha hb => exact (ha h.1).div (hb h.2.1) h.2.2
  | neg a ha => exact (ha h).neg
  | sin a ha => exact Real.contDiff_sin.contDiffAt.comp x (ha h)
  | cos a ha => exact Real.contDiff_cos.contDiffAt.comp x (ha h)
  | atan2 => exact h.elim
  | hypot a b ha hb =>
    have := ((ha h.1).pow 2).add ((hb h.2.1).pow 2)
    refine this.sqrt ?_
    rcases h.2.2 with h | h
    · have : 0 < a.eval (ofVec x) ^ 2 := by positivity
      nlinarith [sq_nonneg (b.eval (ofVec x))]
    · have : 0 < b.eval (ofVec x) ^ 2 := by positivity
      nlinarith [sq_nonneg (a.eval (ofVec x))]
  | sign a ha =>
    have hc := (ha h.1).continuousAt
    have : (fun y : Fin n → ℝ => (Expr.sign a).eval (ofVec y)) =ᶠ[nhds x]
        fun _ => Num.sign (a.eval (ofVec x)) := by
      rcases lt_or_gt_of_ne h.2 with hlt | hlt
      · filter_upwards [hc.eventually (gt_mem_nhds hlt)] with y hy
        simp only [Expr.eval, real_sign, hy, hlt, if_true]
      · filter_upwards [hc.eventually (lt_mem_nhds hlt)] with y hy
        simp only [Expr.eval, real_sign, not_lt.mpr hy.le, not_lt.mpr hlt.le, hy.ne', hlt.ne', if_false]
    exact contDiffAt_const.congr_of_eventuallyEq this

/-- Both sides of a constraint are regular. -/
def RegularCon (σ : ℕ → ℝ) : Con ℝ → Prop
  | .eq a b => a.Regular σ ∧ b.Regular σ
  | .le a b => a.Regular σ ∧ b.Regular σ
  | .ge a b => a.Regular σ ∧ b.Regular σ
  | .leInf a => a.Regular σ

theorem contDiffAt_con {n : ℕ} (k : WithTop ℕ∞) (x : Fin n → ℝ) (c : Con ℝ)
    (h : RegularCon (ofVec x) c) : ContDiffAt ℝ k (fun y : Fin n → ℝ => conFun (ofVec y) c) x := by
  cases c with
  | eq a b => exact (contDiffAt_eval k x a h.1).sub (contDiffAt_eval k x b h.2)
  | le a b => exact (contDiffAt_eval k x a h.1).sub (contDiffAt_eval k x b h.2)
  | ge a b => exact (contDiffAt_eval k x a h.1).sub (contDiffAt_eval k x b h.2)
  | leInf a => exact contDiffAt_eval k x a h

section Rules
variable (σ : ℕ → ℝ) (a b : Expr ℝ) (q : ℚ) (c : ℝ) (i : ℕ)

@[simp] theorem regular_add : (a + b).Regular σ ↔ a.Regular σ ∧ b.Regular σ := Iff.rfl
@[simp] theorem regular_sub : (a - b).Regular σ ↔ a.Regular σ ∧ b.Regular σ := Iff.rfl
@[simp] theorem regular_mul : (a * b).Regular σ ↔ a.Regular σ ∧ b.Regular σ := Iff.rfl
@[simp] theorem regular_div : (a / b).Regular σ ↔ a.Regular σ ∧ b.Regular σ ∧ b.eval σ ≠ 0 := Iff.rfl
@[simp] theorem regular_neg : (-a).Regular σ ↔ a.Regular σ := Iff.rfl
@[simp] theorem regular_lit : (Num.lit q : Expr ℝ).Regular σ := trivial
@[simp] theorem regular_const : (Expr.const c : Expr ℝ).Regular σ := trivial
@[simp] theorem regular_var : (Expr.var i : Expr ℝ).Regular σ := trivial
@[simp] theorem regular_sin : (Num.sin a).Regular σ ↔ a.Regular σ := Iff.rfl
@[simp] theorem regular_cos : (Num.cos a).Regular σ ↔ a.Regular σ := Iff.rfl
@[simp] theorem regular_sign : (Num.sign a).Regular σ ↔ a.Regular σ ∧ a.eval σ ≠ 0 := Iff.rfl
@[simp] theorem regular_hypot : (Num.hypot a b).Regular σ ↔
    a.Regular σ ∧ b.Regular σ ∧ (a.eval σ ≠ 0 ∨ b.eval σ ≠ 0) := Iff.rfl

end Rules

theorem lpd_regular {σ : ℕ → ℝ} {a b p : Translation2 (Expr ℝ)} (ha : a.x.Regular σ ∧ a.y.Regular σ)
    (hb : b.x.Regular σ ∧ b.y.Regular σ) (hp : p.x.Regular σ ∧ p.y.Regular σ)
    (h : ¬ AtEnd (vec (evalT σ a)) (vec (evalT σ b)) (vec (evalT σ p))) :
    (linePointDistance a b p).Regular σ := by
  obtain ⟨ha1, ha2⟩ := ha
  obtain ⟨hb1, hb2⟩ := hb
  obtain ⟨hp1, hp2⟩ := hp
  simp only [AtEnd, not_or, vec, evalT, Complex.mul_re, Complex.sub_re, Complex.sub_im, Complex.conj_re,
    Complex.conj_im, map_sub] at h
  obtain ⟨h1, h2⟩ := h
  set t : Expr ℝ := (⟨p.x - a.x, p.y - a.y⟩ : Translation2 (Expr ℝ)).dot ⟨b.x - a.x, b.y - a.y⟩ /
    (⟨b.x - a.x, b.y - a.y⟩ : Translation2 (Expr ℝ)).squaredNorm with ht
  have hl : (b.x.eval σ - a.x.eval σ) * (b.x.eval σ - a.x.eval σ) +
      (b.y.eval σ - a.y.eval σ) * (b.y.eval σ - a.y.eval σ) ≠ 0 := by
    intro h
    have e1 : b.x.eval σ - a.x.eval σ = 0 := by nlinarith [sq_nonneg (b.x.eval σ - a.x.eval σ), sq_nonneg (b.y.eval σ - a.y.eval σ)]
    have e2 : b.y.eval σ - a.y.eval σ = 0 := by nlinarith [sq_nonneg (b.x.eval σ - a.x.eval σ), sq_nonneg (b.y.eval σ - a.y.eval σ)]
    exact h1 (by linear_combination (p.x.eval σ - a.x.eval σ) * e1 + (p.y.eval σ - a.y.eval σ) * e2)
  have hte : t.eval σ = ((p.x.eval σ - a.x.eval σ) * (b.x.eval σ - a.x.eval σ) +
      (p.y.eval σ - a.y.eval σ) * (b.y.eval σ - a.y.eval σ)) /
      ((b.x.eval σ - a.x.eval σ) * (b.x.eval σ - a.x.eval σ) +
      (b.y.eval σ - a.y.eval σ) * (b.y.eval σ - a.y.eval σ)) := rfl
  have htr : t.Regular σ := by
    simp only [ht, Translation2.dot, Translation2.squaredNorm, regular_div, regular_add, regular_mul,
      regular_sub, ha1, ha2, hb1, hb2, hp1, hp2, true_and, and_self, eval_add, eval_mul, eval_sub]
    exact hl
  have ht1 : t.eval σ ≠ 1 := by
    intro h
    rw [hte, div_eq_iff hl] at h
    exact h2 (by linarith)
  have ht0 : t.eval σ ≠ 0 := by
    intro h
    rw [hte, div_eq_iff hl] at h
    exact h1 (by linarith)
  have hmin : (lpdMin t (Num.lit 1)).eval σ = min (t.eval σ) 1 := by
    have := lpdMin_real (t.eval σ) ((1 : ℚ) : ℝ)
    rw [Rat.cast_one] at this
    rw [← this]
    simp only [lpdMin, eval_add, eval_mul, eval_sub, eval_lit, eval_sign, Rat.cast_one, real_add, real_mul, real_sub,
      real_lit]
  have hm0 : (lpdMin t (Num.lit 1)).eval σ ≠ 0 := by
    rw [hmin]
    intro h
    rcases min_choice (t.eval σ) 1 with e | e <;> rw [e] at h
    · exact ht0 h
    · norm_num at h
  have hmr : (lpdMin t (Num.lit 1)).Regular σ := by
    simp only [lpdMin, regular_add, regular_mul, regular_sub, regular_lit, regular_sign, htr, true_and,
      and_self, eval_sub, eval_lit, Rat.cast_one, and_true]
    exact sub_ne_zero.mpr (Ne.symm ht1)
  have hM : (lpdMax (lpdMin t (Num.lit 1)) (Num.lit 0)).Regular σ := by
    simp only [lpdMax, regular_add, regular_mul, regular_sub, regular_lit, regular_sign, hmr, true_and,
      and_self, eval_sub, eval_lit, Rat.cast_zero, and_true]
    exact sub_ne_zero.mpr (Ne.symm hm0)
  simp only [linePointDistance]
  rw [← ht]
  generalize lpdMax (lpdMin t (Num.lit 1)) (Num.lit 0) = u at hM
  simp only [lpdLerp, Translation2.squaredNorm, Translation2.sub, Translation2.add,
    Translation2.neg, regular_add, regular_mul, regular_sub, regular_neg, ha1, ha2, hb1, hb2, hp1, hp2, hM, and_self]

theorem apply_regular {σ : ℕ → ℝ} {m n : ℕ} (c : Constraint ℝ)
    (h : ¬ Corner c (decodeSample σ (sampleVars m n)))
    (h0 : ∀ p tol, c = .pointAt p tol → Real.cos tol ≠ 0) : ∀ k ∈ c.apply (sampleVars m n), RegularCon σ k := by
  have hv : ∀ r : Translation2 ℝ, vec (evalT σ ((sampleVars m n).pose.translation.add
      (r.toV.rotateBy (sampleVars m n).pose.rotation))) = (decodeSample σ (sampleVars m n)).onRobot r := by
    intro r
    rw [State.onRobot, Complex.ext_iff]
    simp [vec, evalT, decodeSample, evalVec, Translation2.add, Translation2.rotateBy, Translation2.toV]
  have hc : ∀ r : Translation2 ℝ, vec (evalT σ r.toV) = vec r := fun _ => rfl
  have hr : ∀ r : Translation2 ℝ, ((sampleVars m n).pose.translation.add
      (r.toV.rotateBy (sampleVars m n).pose.rotation)).x.Regular σ ∧ ((sampleVars m n).pose.translation.add
      (r.toV.rotateBy (sampleVars m n).pose.rotation)).y.Regular σ := by
    intro r
    simp [Translation2.add, Translation2.rotateBy, Translation2.toV, sampleVars]
  cases c with
  | angularVelocityMaxMagnitude v =>
    simp only [Constraint.apply]
    split <;> simp [RegularCon, sampleVars]
  | linearAccelerationMaxMagnitude v =>
    simp only [Constraint.apply]
    split <;> simp [RegularCon, sampleVars, Translation2.squaredNorm]
  | linearVelocityMaxMagnitude v =>
    simp only [Constraint.apply]
    split <;> simp [RegularCon, sampleVars, Translation2.squaredNorm]
  | linearVelocityDirection a =>
    simp [Constraint.apply, RegularCon, sampleVars, Translation2.squaredNorm, Translation2.dot]
  | poseEquality x y θ =>
    simp [Constraint.apply, RegularCon, sampleVars, Pose2.eqCons, Translation2.eqCons, Rotation2.eqCons,
      Rotation2.toV, Translation2.toV]
  | translationEquality t =>
    simp [Constraint.apply, RegularCon, sampleVars, Translation2.eqCons, Translation2.toV]
  | pointPoint r p d =>
    simp [Constraint.apply, RegularCon, sampleVars, Translation2.add, Translation2.rotateBy, Translation2.toV]
  | pointAt p tol =>
    have : p.x - σ (n * stride m) ≠ 0 ∨ p.y - σ (n * stride m + 1) ≠ 0 := by
      by_contra hc
      rw [not_or, not_not, not_not] at hc
      refine h ⟨?_, h0 p tol rfl⟩
      rw [Complex.ext_iff]
      simp only [decodeSample, evalVec, sampleVars, eval_var, vec]
      exact ⟨by linarith [hc.1], by linarith [hc.2]⟩
    simpa [Constraint.apply, RegularCon, sampleVars, Pose2.x, Pose2.y] using this
  | linePoint a b p d =>
    have := lpd_regular (hr a) (hr b) (p := p.toV) ⟨trivial, trivial⟩ (by rw [hv, hv, hc]; exact h)
    intro k hk
    simp only [Constraint.apply, List.mem_singleton] at hk
    subst hk
    exact ⟨⟨this, this⟩, trivial⟩
  | pointLine r a b d =>
    have := lpd_regular (a := a.toV) (b := b.toV) ⟨trivial, trivial⟩ ⟨trivial, trivial⟩ (hr r)
      (by rw [hv, hc, hc]; exact h)
    intro k hk
    simp only [Constraint.apply, List.mem_singleton] at hk
    subst hk
    exact ⟨⟨this, this⟩, trivial⟩

/-- Away from corners the functions of a constraint are smooth. -/
theorem apply_smooth {nv : ℕ} (k : WithTop ℕ∞) (x : Fin nv → ℝ) {m n : ℕ} (c : Constraint ℝ)
    (h : ¬ Corner c (decodeSample (ofVec x) (sampleVars m n))) : ∀ e ∈ c.apply (sampleVars m n),
    ContDiffAt ℝ k (fun y : Fin nv → ℝ => conFun (ofVec y) e) x := by
  by_cases h0 : ∀ p tol, c = .pointAt p tol → Real.cos tol ≠ 0
  · exact fun e he => contDiffAt_con k x e (apply_regular c h h0 e he)
  · push Not at h0
    obtain ⟨p, tol, rfl, ht⟩ := h0
    intro e he
    simp only [Constraint.apply, List.mem_singleton] at he
    subst he
    refine (contDiffAt_eval k x ((sampleVars m n).pose.rotation.cos * (.const p.x - (sampleVars m n).pose.x) +
      (sampleVars m n).pose.rotation.sin * (.const p.y - (sampleVars m n).pose.y)) ?_).congr_of_eventuallyEq
      (Filter.Eventually.of_forall fun y => ?_)
    · simp [sampleVars, Pose2.x, Pose2.y]
    · simp only [conFun, eval_mul, eval_const, real_cos, ht, zero_mul, sub_zero]

end Trajopt
