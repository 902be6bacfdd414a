import Verif.Model.Util
import Verif.Model.Real
import Mathlib.Tactic.Linarith
import Mathlib.Tactic.Positivity
import Mathlib.Tactic.FieldSimp
import Mathlib.Tactic.Ring

/-! Helper lemmas about `Linspace` and `AngleLinspace`. -/

set_option autoImplicit false

namespace Trajopt

@[simp] theorem linspace_length {D : Type} [Dbl D] (a b : D) (n : ℕ) :
    (linspace a b n).length = n := by simp [linspace]

@[simp] theorem angleLinspace_length {D : Type} [Dbl D] (a b : D) (n : ℕ) :
    (angleLinspace a b n).length = n := by simp [angleLinspace]

theorem linspace_getElem (a b : ℝ) (n k : ℕ) (hk : k < (linspace a b n).length) :
    (linspace a b n)[k] = a + (k + 1) * ((b - a) / n) := by
  simp [linspace, add_comm]

/-- The turn `AngleLinspace` computes. -/
noncomputable def wrapTurn (diff : ℝ) : ℝ :=
  let d := diff - Dbl.trunc ((diff - -Real.pi) / (2 * Real.pi)) * (2 * Real.pi)
  d - Dbl.trunc ((d - Real.pi) / (2 * Real.pi)) * (2 * Real.pi)

theorem angleLinspace_eq (a b : ℝ) (n : ℕ) :
    angleLinspace a b n = linspace a (a + wrapTurn (b - a)) n := by
  simp [angleLinspace, wrapTurn]

theorem trunc_nonneg {x : ℝ} (h : 0 ≤ x) : (Dbl.trunc x : ℝ) = (⌊x⌋ : ℝ) := by
  rw [real_trunc, if_neg (not_lt.mpr h)]

theorem trunc_neg {x : ℝ} (h : x < 0) : (Dbl.trunc x : ℝ) = (⌈x⌉ : ℝ) := by
  rw [real_trunc, if_pos h]

/-- Second wrapping step, for a difference already in `(-3π, π)`. -/
theorem wrap_second (d : ℝ) (h1 : -3 * Real.pi < d) (h2 : d < Real.pi) :
    ∃ k : ℤ, (Dbl.trunc ((d - Real.pi) / (2 * Real.pi)) : ℝ) = k ∧
      -Real.pi < d - k * (2 * Real.pi) ∧ d - k * (2 * Real.pi) ≤ Real.pi := by
  have hpi := Real.pi_pos
  have hneg : (d - Real.pi) / (2 * Real.pi) < 0 := div_neg_of_neg_of_pos (by linarith) (by linarith)
  rw [trunc_neg hneg]
  by_cases hc : d ≤ -Real.pi
  · refine ⟨-1, ?_, by push_cast; linarith, by push_cast; linarith⟩
    rw [show ⌈(d - Real.pi) / (2 * Real.pi)⌉ = -1 from ?_]
    rw [Int.ceil_eq_iff]
    constructor
    · rw [lt_div_iff₀ (by linarith)]; push_cast; linarith
    · rw [div_le_iff₀ (by linarith)]; push_cast; linarith
  · push Not at hc
    refine ⟨0, ?_, by push_cast; linarith, by push_cast; linarith⟩
    rw [show ⌈(d - Real.pi) / (2 * Real.pi)⌉ = 0 from ?_]
    rw [Int.ceil_eq_iff]
    constructor
    · rw [lt_div_iff₀ (by linarith)]; push_cast; linarith
    · exact_mod_cast hneg.le

theorem wrapTurn_spec (diff : ℝ) :
    -Real.pi < wrapTurn diff ∧ wrapTurn diff ≤ Real.pi ∧
      ∃ k : ℤ, wrapTurn diff = diff + k * (2 * Real.pi) := by
  have hpi := Real.pi_pos
  have h2pi : 0 < 2 * Real.pi := by linarith
  obtain ⟨m, hm, h1, h2⟩ : ∃ m : ℤ, (Dbl.trunc ((diff - -Real.pi) / (2 * Real.pi)) : ℝ) = m ∧
      -3 * Real.pi < diff - m * (2 * Real.pi) ∧ diff - m * (2 * Real.pi) < Real.pi := by
    rcases lt_or_ge ((diff - -Real.pi) / (2 * Real.pi)) 0 with h | h
    · refine ⟨_, trunc_neg h, ?_, ?_⟩
      · have := Int.ceil_lt_add_one ((diff - -Real.pi) / (2 * Real.pi))
        have h' := mul_lt_mul_of_pos_right this h2pi
        rw [add_mul, div_mul_cancel₀ _ h2pi.ne'] at h'
        linarith
      · have := Int.le_ceil ((diff - -Real.pi) / (2 * Real.pi))
        have h' := mul_le_mul_of_nonneg_right this h2pi.le
        rw [div_mul_cancel₀ _ h2pi.ne'] at h'
        linarith
    · refine ⟨_, trunc_nonneg h, ?_, ?_⟩
      · have := Int.floor_le ((diff - -Real.pi) / (2 * Real.pi))
        have h' := mul_le_mul_of_nonneg_right this h2pi.le
        rw [div_mul_cancel₀ _ h2pi.ne'] at h'
        linarith
      · have := Int.lt_floor_add_one ((diff - -Real.pi) / (2 * Real.pi))
        have h' := mul_lt_mul_of_pos_right this h2pi
        rw [add_mul, div_mul_cancel₀ _ h2pi.ne'] at h'
        linarith
  obtain ⟨k, hk, h3, h4⟩ := wrap_second _ h1 h2
  have heq : wrapTurn diff = diff - m * (2 * Real.pi) - k * (2 * Real.pi) := by
    unfold wrapTurn
    simp only [hm, hk]
  rw [heq]
  exact ⟨h3, h4, -m - k, by push_cast; ring⟩

/-- Within `(-π, π]` a turn is the shortest among all congruent ones. -/
theorem turn_shortest {d : ℝ} (h1 : -Real.pi < d) (h2 : d ≤ Real.pi) (k : ℤ) :
    |d| ≤ |d + k * (2 * Real.pi)| := by
  have hpi := Real.pi_pos
  rcases lt_trichotomy k 0 with h | h | h
  · have hk : (k : ℝ) ≤ -1 := by exact_mod_cast Int.le_sub_one_of_lt h
    have : d + k * (2 * Real.pi) ≤ d - 2 * Real.pi := by nlinarith
    rw [abs_le]
    have h5 : |d + k * (2 * Real.pi)| = -(d + k * (2 * Real.pi)) := abs_of_nonpos (by linarith)
    constructor <;> linarith
  · subst h; simp
  · have hk : (1 : ℝ) ≤ k := by exact_mod_cast h
    have : d + 2 * Real.pi ≤ d + k * (2 * Real.pi) := by nlinarith
    rw [abs_le]
    have h5 : |d + k * (2 * Real.pi)| = d + k * (2 * Real.pi) := abs_of_nonneg (by linarith)
    constructor <;> linarith

end Trajopt
