import Verif.Spec.Semantics
import Verif.Lemmas.Geometry
import Mathlib.Tactic.LinearCombination
import Mathlib.Tactic.Positivity

/-! Helper lemmas about evaluation of expressions. -/

set_option autoImplicit false

namespace Trajopt

section
variable (σ : ℕ → ℝ) (a b : Expr ℝ) (d : ℝ) (i : ℕ) (q : ℚ)

@[simp] theorem eval_add : (a + b).eval σ = a.eval σ + b.eval σ := rfl
@[simp] theorem eval_sub : (a - b).eval σ = a.eval σ - b.eval σ := rfl
@[simp] theorem eval_mul : (a * b).eval σ = a.eval σ * b.eval σ := rfl
@[simp] theorem eval_div : (a / b).eval σ = a.eval σ / b.eval σ := rfl
@[simp] theorem eval_neg : (-a).eval σ = -a.eval σ := rfl
@[simp] theorem eval_lit : (Num.lit q : Expr ℝ).eval σ = (q : ℝ) := rfl
@[simp] theorem eval_sin : (Num.sin a).eval σ = Real.sin (a.eval σ) := rfl
@[simp] theorem eval_cos : (Num.cos a).eval σ = Real.cos (a.eval σ) := rfl
@[simp] theorem eval_hypot : (Num.hypot a b).eval σ = Num.hypot (a.eval σ) (b.eval σ) := rfl
@[simp] theorem eval_sign : (Num.sign a).eval σ = Num.sign (a.eval σ) := rfl
@[simp] theorem eval_const : (Expr.const d).eval σ = d := rfl
@[simp] theorem eval_var : (Expr.var i : Expr ℝ).eval σ = σ i := rfl

@[simp] theorem defined_add : (a + b).Defined σ ↔ a.Defined σ ∧ b.Defined σ := Iff.rfl
@[simp] theorem defined_sub : (a - b).Defined σ ↔ a.Defined σ ∧ b.Defined σ := Iff.rfl
@[simp] theorem defined_mul : (a * b).Defined σ ↔ a.Defined σ ∧ b.Defined σ := Iff.rfl
@[simp] theorem defined_div :
    (a / b).Defined σ ↔ a.Defined σ ∧ b.Defined σ ∧ b.eval σ ≠ 0 := Iff.rfl
@[simp] theorem defined_neg : (-a).Defined σ ↔ a.Defined σ := Iff.rfl
@[simp] theorem defined_lit : (Num.lit q : Expr ℝ).Defined σ := trivial
@[simp] theorem defined_sin : (Num.sin a).Defined σ ↔ a.Defined σ := Iff.rfl
@[simp] theorem defined_cos : (Num.cos a).Defined σ ↔ a.Defined σ := Iff.rfl
@[simp] theorem defined_hypot :
    (Num.hypot a b).Defined σ ↔ a.Defined σ ∧ b.Defined σ := Iff.rfl
@[simp] theorem defined_sign : (Num.sign a).Defined σ ↔ a.Defined σ := Iff.rfl
@[simp] theorem defined_const : (Expr.const d).Defined σ := trivial
@[simp] theorem defined_var : (Expr.var i : Expr ℝ).Defined σ := trivial
end

theorem lpdMin_real (a b : ℝ) : lpdMin a b = min a b := by
  simp only [lpdMin, real_add, real_mul, real_sub, real_lit, real_sign]
  rcases lt_trichotomy (b - a) 0 with h | h | h
  · rw [if_pos h, min_eq_right (by linarith)]; push_cast; ring
  · rw [if_neg (by linarith), if_pos h, min_eq_left (by linarith)]; push_cast; linarith
  · rw [if_neg (by linarith), if_neg (by linarith), min_eq_left (by linarith)]; push_cast; ring

theorem lpdMax_real (a b : ℝ) : lpdMax a b = max a b := by
  simp only [lpdMax, real_add, real_mul, real_sub, real_lit, real_sign]
  rcases lt_trichotomy (b - a) 0 with h | h | h
  · rw [if_pos h, max_eq_left (by linarith)]; push_cast; ring
  · rw [if_neg (by linarith), if_pos h, max_eq_left (by linarith)]; push_cast; linarith
  · rw [if_neg (by linarith), if_neg (by linarith), max_eq_right (by linarith)]; push_cast; ring

/-- Clamping to `[0, 1]` is the nearest point. -/
theorem clamp_nearest (t s : ℝ) (h0 : 0 ≤ s) (h1 : s ≤ 1) :
    (max (min t 1) 0 - t) ^ 2 ≤ (s - t) ^ 2 := by
  rcases le_total t 0 with h | h
  · rw [min_eq_left (by linarith), max_eq_right h]; nlinarith
  · rcases le_total t 1 with h' | h'
    · rw [min_eq_left h', max_eq_left h]; nlinarith [sq_nonneg (s - t)]
    · rw [min_eq_right h', max_eq_left (by norm_num)]; nlinarith

theorem clamp_mem (t : ℝ) : 0 ≤ max (min t 1) 0 ∧ max (min t 1) 0 ≤ 1 :=
  ⟨le_max_right _ _, max_le (min_le_right _ _) (by norm_num)⟩

open Spec

/-- Points of a segment. -/
theorem mem_segment_mk {a b q : ℂ} :
    q ∈ segment ℝ a b ↔ ∃ s : ℝ, 0 ≤ s ∧ s ≤ 1 ∧
      q = ⟨a.re + s * (b.re - a.re), a.im + s * (b.im - a.im)⟩ := by
  rw [segment_eq_image']
  simp only [Set.mem_image, Set.mem_Icc]
  constructor
  · rintro ⟨s, ⟨h0, h1⟩, rfl⟩
    exact ⟨s, h0, h1, by apply Complex.ext <;> simp⟩
  · rintro ⟨s, h0, h1, rfl⟩
    exact ⟨s, ⟨h0, h1⟩, by apply Complex.ext <;> simp⟩

theorem dist_sq_mk (p q : ℂ) : dist p q ^ 2 = (p.re - q.re) ^ 2 + (p.im - q.im) ^ 2 := by
  rw [dist_eq_norm, ← Complex.normSq_eq_norm_sq, Complex.normSq_apply]
  simp; ring

/-- `LinePointDistance` over the reals, for distinct end points: attained minimum of the squared
distance. -/
theorem linePointDistance_real (a b p : Translation2 ℝ) (hab : vec a ≠ vec b) :
    (∀ q ∈ segment ℝ (vec a) (vec b), linePointDistance a b p ≤ dist q (vec p) ^ 2) ∧
    ∃ q ∈ segment ℝ (vec a) (vec b), linePointDistance a b p = dist q (vec p) ^ 2 := by
  set lx := b.x - a.x with hlx
  set ly := b.y - a.y with hly
  have hl : lx * lx + ly * ly ≠ 0 := by
    intro h
    apply hab
    have h1 : lx = 0 := by nlinarith
    have h2 : ly = 0 := by nlinarith
    apply Complex.ext <;> simp [vec] <;> linarith
  set t := ((p.x - a.x) * lx + (p.y - a.y) * ly) / (lx * lx + ly * ly) with ht
  set tb := max (min t 1) 0 with htb
  have hval : linePointDistance a b p =
      (a.x + tb * lx - p.x) ^ 2 + (a.y + tb * ly - p.y) ^ 2 := by
    simp only [linePointDistance, lpdLerp, lpdMin_real, lpdMax_real, Translation2.dot,
      Translation2.squaredNorm, Translation2.sub, Translation2.add, Translation2.neg, real_add,
      real_mul, real_sub, real_div, real_neg, real_lit, Rat.cast_one, Rat.cast_zero]
    rw [← hlx, ← hly, ← ht, ← htb]
    ring
  constructor
  · intro q hq
    obtain ⟨s, h0, h1, rfl⟩ := mem_segment_mk.mp hq
    rw [hval, dist_sq_mk]
    simp only [vec, ← hlx, ← hly]
    have key := clamp_nearest t s h0 h1
    rw [← htb] at key
    have htl : t * (lx * lx + ly * ly) = (p.x - a.x) * lx + (p.y - a.y) * ly := by
      rw [ht]; exact div_mul_cancel₀ _ hl
    have hpos : 0 ≤ lx * lx + ly * ly :=
      add_nonneg (mul_self_nonneg _) (mul_self_nonneg _)
    have hm := mul_le_mul_of_nonneg_left key hpos
    have e1 : (a.x + tb * lx - p.x) ^ 2 + (a.y + tb * ly - p.y) ^ 2 -
        (lx * lx + ly * ly) * (tb - t) ^ 2 =
        (a.x + s * lx - p.x) ^ 2 + (a.y + s * ly - p.y) ^ 2 -
        (lx * lx + ly * ly) * (s - t) ^ 2 := by
      have : t * (lx * lx + ly * ly) * (2 * tb) - t * (lx * lx + ly * ly) * (2 * s) =
        ((p.x - a.x) * lx + (p.y - a.y) * ly) * (2 * tb) -
        ((p.x - a.x) * lx + (p.y - a.y) * ly) * (2 * s) := by rw [htl]
      linear_combination this
    linarith
  · refine ⟨⟨a.x + tb * lx, a.y + tb * ly⟩, ?_, ?_⟩
    · exact mem_segment_mk.mpr ⟨tb, (clamp_mem t).1, (clamp_mem t).2, rfl⟩
    · rw [hval, dist_sq_mk]; simp [vec]

/-- A vector of expressions evaluated. -/
noncomputable def evalT (σ : ℕ → ℝ) (t : Translation2 (Expr ℝ)) : Translation2 ℝ :=
  ⟨t.x.eval σ, t.y.eval σ⟩

theorem vec_evalT (σ : ℕ → ℝ) (t : Translation2 (Expr ℝ)) : vec (evalT σ t) = evalVec σ t.x t.y :=
  rfl

theorem linePointDistance_eval (σ : ℕ → ℝ) (a b p : Translation2 (Expr ℝ)) :
    (linePointDistance a b p).eval σ = linePointDistance (evalT σ a) (evalT σ b) (evalT σ p) := rfl

/-- The line-point distance has a value exactly for distinct end points. -/
theorem linePointDistance_defined (σ : ℕ → ℝ) (a b p : Translation2 (Expr ℝ))
    (ha : a.x.Defined σ ∧ a.y.Defined σ) (hb : b.x.Defined σ ∧ b.y.Defined σ)
    (hp : p.x.Defined σ ∧ p.y.Defined σ) :
    (linePointDistance a b p).Defined σ ↔ vec (evalT σ a) ≠ vec (evalT σ b) := by
  simp only [linePointDistance, lpdLerp, lpdMin, lpdMax, Translation2.dot,
    Translation2.squaredNorm, Translation2.sub, Translation2.add, Translation2.neg, defined_add,
    defined_mul, defined_sub, defined_div, defined_neg, defined_lit, defined_sign, ha, hb, hp,
    true_and, and_true, and_self, eval_add, eval_mul, eval_sub, vec, evalT, ne_eq, Complex.mk.injEq,
    not_iff_not]
  constructor
  · intro h
    constructor <;> nlinarith [mul_self_nonneg (b.x.eval σ - a.x.eval σ),
      mul_self_nonneg (b.y.eval σ - a.y.eval σ)]
  · rintro ⟨h1, h2⟩
    rw [h1, h2]; ring

/-- A constraint `dist² ≥ d²` on the line-point distance, for distinct end points. -/
theorem linePoint_con (σ : ℕ → ℝ) (a b p : Translation2 (Expr ℝ)) (d : ℝ)
    (ha : a.x.Defined σ ∧ a.y.Defined σ) (hb : b.x.Defined σ ∧ b.y.Defined σ)
    (hp : p.x.Defined σ ∧ p.y.Defined σ) :
    (Con.ge (linePointDistance a b p * linePointDistance a b p) (.const (d * d))).Holds σ ↔
      vec (evalT σ a) ≠ vec (evalT σ b) ∧
      ∀ q ∈ segment ℝ (vec (evalT σ a)) (vec (evalT σ b)), |d| ≤ dist q (vec (evalT σ p)) ^ 2 := by
  simp only [Con.Holds, defined_mul, defined_const, linePointDistance_defined σ a b p ha hb hp,
    true_and, eval_mul, eval_const, linePointDistance_eval, and_self]
  refine and_congr_right fun hab => ?_
  obtain ⟨hmin, q, hq, hat⟩ := linePointDistance_real _ _ (evalT σ p) hab
  have h0 : 0 ≤ linePointDistance (evalT σ a) (evalT σ b) (evalT σ p) := by rw [hat]; positivity
  constructor
  · intro h q hq
    refine le_trans ?_ (hmin q hq)
    exact abs_le_of_sq_le_sq (by nlinarith) h0
  · intro h
    have := h q hq
    rw [← hat] at this
    have h2 := mul_le_mul this this (abs_nonneg d) h0
    rw [abs_mul_abs_self] at h2
    exact h2

/-- Squared norm of a vector of expressions. -/
theorem norm_le_iff (x y m : ℝ) : x * x + y * y ≤ m * m ↔ ‖(⟨x, y⟩ : ℂ)‖ ≤ |m| := by
  have h := norm_mk_sq x y
  rw [← abs_norm, ← sq_le_sq, h]
  constructor <;> intro h <;> nlinarith

theorem le_norm_iff (x y m : ℝ) : m * m ≤ x * x + y * y ↔ |m| ≤ ‖(⟨x, y⟩ : ℂ)‖ := by
  have h := norm_mk_sq x y
  rw [← abs_norm (⟨x, y⟩ : ℂ), ← sq_le_sq, h]
  constructor <;> intro h <;> nlinarith

theorem unitVec_mk (a : ℝ) : unitVec a = ⟨Real.cos a, Real.sin a⟩ := by
  rw [unitVec, Complex.exp_mul_I]
  apply Complex.ext <;> simp [Complex.cos_ofReal_re, Complex.sin_ofReal_re,
      Complex.cos_ofReal_im, Complex.sin_ofReal_im]

/-- Parallel to a unit vector: equality case of Cauchy–Schwarz. -/
theorem parallel_iff (c s x y : ℝ) (hu : c ^ 2 + s ^ 2 = 1) :
    (x * c + y * s) * (x * c + y * s) = x * x + y * y ↔ ∃ t : ℝ, x = t * c ∧ y = t * s := by
  constructor
  · intro h
    have h0 : (x * s - y * c) ^ 2 = 0 := by
      linear_combination (x ^ 2 + y ^ 2) * hu - h
    have h1 : x * s - y * c = 0 := by simpa using h0
    exact ⟨x * c + y * s, by linear_combination -x * hu + s * h1, by
      linear_combination -y * hu - c * h1⟩
  · rintro ⟨t, rfl, rfl⟩
    linear_combination (t ^ 2 * (c ^ 2 + s ^ 2)) * hu

/-- A vector of norm 1 parallel to a unit vector is that vector or its opposite. -/
theorem unit_parallel_iff (c s x y : ℝ) (hu : c ^ 2 + s ^ 2 = 1) :
    (x * s - y * c = 0 ∧ x * x + y * y = 1) ↔ (x = c ∧ y = s) ∨ (x = -c ∧ y = -s) := by
  constructor
  · rintro ⟨h, h1⟩
    have ht : (x * c + y * s) * (x * c + y * s) = 1 := by
      linear_combination h1 + (x ^ 2 + y ^ 2) * hu - (x * s - y * c) * h
    rcases mul_self_eq_one_iff.mp ht with e | e
    · left
      exact ⟨by linear_combination -x * hu + s * h + c * e,
        by linear_combination -y * hu - c * h + s * e⟩
    · right
      exact ⟨by linear_combination -x * hu + s * h + c * e,
        by linear_combination -y * hu - c * h + s * e⟩
  · rintro (⟨rfl, rfl⟩ | ⟨rfl, rfl⟩)
    · exact ⟨by ring, by linear_combination hu⟩
    · exact ⟨by ring, by linear_combination hu⟩

end Trajopt
