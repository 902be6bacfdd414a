import Verif.Spec.Exact
import Mathlib.Analysis.Calculus.MeanValue
import Mathlib.Analysis.SpecialFunctions.Exp
import Mathlib.Analysis.SpecialFunctions.ExpDeriv
import Mathlib.Analysis.Calculus.Deriv.Pow

/-!
# Uniformly accelerated motion
-/

set_option autoImplicit false

namespace Trajopt

variable {F : Type} [NormedAddCommGroup F] [NormedSpace ℝ F]

/-- No derivative, no change. -/
theorem const_of_deriv {f : ℝ → F} {a b : ℝ}
    (h : ∀ t ∈ Set.Icc a b, HasDerivWithinAt f 0 (Set.Icc a b) t) : ∀ t ∈ Set.Icc a b, f t = f a := by
  refine constant_of_has_deriv_right_zero (fun t ht => (h t ht).continuousWithinAt) fun t ht => ?_
  exact (h t ⟨ht.1, ht.2.le⟩).mono_of_mem_nhdsWithin (Icc_mem_nhdsGE_of_mem ht)

theorem linear_of_deriv {f : ℝ → F} {a b : ℝ} {c : F}
    (h : ∀ t ∈ Set.Icc a b, HasDerivWithinAt f c (Set.Icc a b) t) :
    ∀ t ∈ Set.Icc a b, f t = f a + (t - a) • c := by
  intro t ht
  have := const_of_deriv (f := fun t => f t - (t - a) • c) (a := a) (b := b) (fun t ht => by
    have h1 : HasDerivWithinAt (fun t : ℝ => (t - a) • c) ((1 : ℝ) • c) (Set.Icc a b) t :=
      ((hasDerivAt_id t).sub_const a).smul_const c |>.hasDerivWithinAt
    exact ((h t ht).sub h1).congr_deriv (by rw [one_smul, sub_self])) t ht
  simp only [sub_self, zero_smul, sub_zero] at this
  rw [← this]
  abel

theorem quadratic_of_deriv {x v : ℝ → F} {a b : ℝ} {c : F}
    (hx : ∀ t ∈ Set.Icc a b, HasDerivWithinAt x (v t) (Set.Icc a b) t)
    (hv : ∀ t ∈ Set.Icc a b, HasDerivWithinAt v c (Set.Icc a b) t) :
    ∀ t ∈ Set.Icc a b, x t = x a + (t - a) • v a + ((t - a) ^ 2 / 2) • c := by
  intro t ht
  have hlin := linear_of_deriv hv
  have := const_of_deriv (f := fun t => x t - ((t - a) • v a + ((t - a) ^ 2 / 2) • c)) (a := a) (b := b)
    (fun t ht => by
      have h1 : HasDerivWithinAt (fun t : ℝ => (t - a) • v a) ((1 : ℝ) • v a) (Set.Icc a b) t :=
        ((hasDerivAt_id t).sub_const a).smul_const (v a) |>.hasDerivWithinAt
      have h2 : HasDerivAt (fun t : ℝ => (t - a) ^ 2 / 2) (t - a) t := by
        have := (((hasDerivAt_id t).sub_const a).pow 2).div_const 2
        refine this.congr_deriv ?_
        simp
      have h3 := (h2.smul_const c).hasDerivWithinAt (s := Set.Icc a b)
      have h4 := (hx t ht).sub (h1.add h3)
      refine h4.congr_deriv ?_
      rw [hlin t ht, one_smul]
      abel) t ht
  simp only [sub_self, zero_smul, zero_pow two_ne_zero, zero_div, add_zero, sub_zero] at this
  rw [← this]
  abel

/-- A heading that turns with angular velocity `ω`. -/
theorem turning_of_deriv {h : ℝ → ℂ} {ω : ℝ → ℝ} {a b α : ℝ}
    (hh : ∀ t ∈ Set.Icc a b, HasDerivWithinAt h (Complex.I * ω t * h t) (Set.Icc a b) t)
    (hω : ∀ t ∈ Set.Icc a b, HasDerivWithinAt ω α (Set.Icc a b) t) :
    ∀ t ∈ Set.Icc a b, h t = h a * Spec.unitVec ((t - a) * ω a + (t - a) ^ 2 / 2 * α) := by
  intro t ht
  have hlin := linear_of_deriv hω
  set φ : ℝ → ℝ := fun t => (t - a) * ω a + (t - a) ^ 2 / 2 * α with hφ
  have hφ' : ∀ t, HasDerivAt φ (ω a + (t - a) * α) t := by
    intro t
    have h1 : HasDerivAt (fun t : ℝ => (t - a) * ω a) (1 * ω a) t :=
      ((hasDerivAt_id t).sub_const a).mul_const (ω a)
    have h2 : HasDerivAt (fun t : ℝ => (t - a) ^ 2 / 2) (t - a) t := by
      have := (((hasDerivAt_id t).sub_const a).pow 2).div_const 2
      refine this.congr_deriv ?_
      simp
    refine (h1.add (h2.mul_const α)).congr_deriv ?_
    ring
  have := const_of_deriv (f := fun t => h t * Complex.exp (-(φ t : ℂ) * Complex.I)) (a := a) (b := b)
    (fun t ht => by
      have h1 : HasDerivAt (fun t : ℝ => -(φ t : ℂ) * Complex.I)
          (-((ω a + (t - a) * α : ℝ) : ℂ) * Complex.I) t :=
        ((hφ' t).ofReal_comp.neg).mul_const Complex.I
      have h2 := (h1.cexp).hasDerivWithinAt (s := Set.Icc a b)
      refine ((hh t ht).mul h2).congr_deriv ?_
      rw [hlin t ht]
      simp only [smul_eq_mul]
      push_cast
      ring) t ht
  have h0 : φ a = 0 := by simp [hφ]
  simp only [h0, Complex.ofReal_zero, neg_zero, zero_mul, Complex.exp_zero, mul_one] at this
  rw [← this, mul_assoc, Spec.unitVec, ← Complex.exp_add]
  rw [show -(φ t : ℂ) * Complex.I + ((φ t : ℝ) : ℂ) * Complex.I = 0 by ring, Complex.exp_zero, mul_one]

end Trajopt
