import Verif.Model.Real
import Verif.Model.Geometry
import Mathlib.Tactic.Ring
import Mathlib.Tactic.Linarith

/-! Helper lemmas about the geometry classes over the reals. -/

set_option autoImplicit false

namespace Trajopt

theorem norm_mk_sq (x y : ℝ) : ‖(⟨x, y⟩ : ℂ)‖ ^ 2 = x ^ 2 + y ^ 2 := by
  rw [← Complex.normSq_eq_norm_sq, Complex.normSq_mk]; ring

theorem norm_mk (x y : ℝ) : ‖(⟨x, y⟩ : ℂ)‖ = Real.sqrt (x ^ 2 + y ^ 2) := by
  rw [← norm_mk_sq, Real.sqrt_sq (norm_nonneg _)]

theorem norm_mk_eq_one {x y : ℝ} : ‖(⟨x, y⟩ : ℂ)‖ = 1 ↔ x ^ 2 + y ^ 2 = 1 := by
  rw [← norm_mk_sq]
  constructor
  · intro h; rw [h]; norm_num
  · intro h
    have := norm_nonneg (⟨x, y⟩ : ℂ)
    nlinarith

/-- cosine of `atan2(s, c)` for a unit vector -/
theorem cos_arg_of_unit {c s : ℝ} (h : c ^ 2 + s ^ 2 = 1) : Real.cos (Complex.arg ⟨c, s⟩) = c := by
  have hn : ‖(⟨c, s⟩ : ℂ)‖ = 1 := norm_mk_eq_one.mpr h
  have h0 : (⟨c, s⟩ : ℂ) ≠ 0 := by intro h0; rw [h0] at hn; simp at hn
  rw [Complex.cos_arg h0, hn, div_one]

/-- sine of `atan2(s, c)` for a unit vector -/
theorem sin_arg_of_unit {c s : ℝ} (h : c ^ 2 + s ^ 2 = 1) : Real.sin (Complex.arg ⟨c, s⟩) = s := by
  have hn : ‖(⟨c, s⟩ : ℂ)‖ = 1 := norm_mk_eq_one.mpr h
  rw [Complex.sin_arg, hn, div_one]

end Trajopt
