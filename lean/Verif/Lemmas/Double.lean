import Verif.Model.Double
import Mathlib.Tactic.Linarith
import Mathlib.Tactic.FieldSimp

/-! Helper lemmas about rounding. -/

set_option autoImplicit false

namespace Trajopt

theorem rne_int (z : ℤ) : rne z = z := by
  simp [rne]

theorem rne_le (x : ℝ) : (rne x : ℝ) ≤ ⌊x⌋ + 1 := by
  unfold rne
  split_ifs <;> push_cast <;> linarith

theorem le_rne (x : ℝ) : (⌊x⌋ : ℤ) ≤ rne x := by
  unfold rne
  split_ifs <;> omega

theorem rne_le' (x : ℝ) : rne x ≤ ⌊x⌋ + 1 := by
  unfold rne
  split_ifs <;> omega

theorem rne_mono : Monotone rne := by
  intro x y h
  rcases (Int.floor_le_floor h).lt_or_eq with hlt | heq
  · exact (rne_le' x).trans ((Int.add_one_le_of_lt hlt).trans (le_rne y))
  · have hf : Int.fract x ≤ Int.fract y := by
      rw [Int.fract, Int.fract, heq]; linarith
    unfold rne
    rw [heq]
    split_ifs <;> first | omega | (exfalso; linarith)

theorem rne_error (x : ℝ) : |(rne x : ℝ) - x| ≤ 1 / 2 := by
  have h0 := Int.fract_nonneg x
  have h1 := Int.fract_lt_one x
  have h := Int.floor_add_fract x
  unfold rne
  rw [abs_le]
  split_ifs <;> push_cast <;> constructor <;> linarith

theorem rne_neg (x : ℝ) : rne (-x) = -rne x := by
  by_cases h0 : Int.fract x = 0
  · obtain ⟨z, hz⟩ : ∃ z : ℤ, x = z := ⟨⌊x⌋, by have := Int.floor_add_fract x; rw [h0] at this; linarith⟩
    rw [hz, rne_int, ← Int.cast_neg, rne_int]
  · have hf : Int.fract (-x) = 1 - Int.fract x := Int.fract_neg h0
    have hfl : ⌊-x⌋ = -⌊x⌋ - 1 := by
      have h1 := Int.floor_add_fract x
      have h2 := Int.floor_add_fract (-x)
      have : ((⌊-x⌋ : ℤ) : ℝ) = ((-⌊x⌋ - 1 : ℤ) : ℝ) := by push_cast; linarith
      exact_mod_cast this
    have hev : Even (-⌊x⌋ - 1) ↔ ¬ Even ⌊x⌋ := by
      rw [Int.even_sub, even_neg]; simp
    unfold rne
    rw [hf, hfl]
    split_ifs with h1 h2 h3 h4 h5 h6 h7 h8 <;> first | omega | (exfalso; linarith) |
      exact absurd (hev.mp ‹_›) (by simpa using ‹Even ⌊x⌋›) | exact absurd (hev.mpr ‹_›) ‹_›

theorem zpow_pos2 (e : ℤ) : (0 : ℝ) < 2 ^ e := by positivity

theorem ulpExp_neg (x : ℝ) : ulpExp (-x) = ulpExp x := by rw [ulpExp, ulpExp, abs_neg]

theorem rnd64_neg (x : ℝ) : rnd64 (-x) = -rnd64 x := by
  rw [rnd64, rnd64, ulpExp_neg, neg_div, rne_neg]
  push_cast; ring

theorem rnd64_zero : rnd64 0 = 0 := by
  have := rne_int 0
  simp only [Int.cast_zero] at this
  rw [rnd64, zero_div, this]; simp

theorem rnd64_nonneg {x : ℝ} (h : 0 ≤ x) : 0 ≤ rnd64 x := by
  have h1 : (0 : ℤ) ≤ rne (x / 2 ^ ulpExp x) := by
    have := rne_mono (div_nonneg h (zpow_pos2 (ulpExp x)).le)
    have h0 := rne_int 0
    simp only [Int.cast_zero] at h0
    rwa [h0] at this
  exact mul_nonneg (by exact_mod_cast h1) (zpow_pos2 _).le

theorem lt_zpow_log {x : ℝ} : |x| < 2 ^ (Int.log 2 |x| + 1) := by
  have := Int.lt_zpow_succ_log_self (b := 2) (by norm_num) |x|
  exact_mod_cast this

theorem zpow_log_le {x : ℝ} (h : x ≠ 0) : 2 ^ Int.log 2 |x| ≤ |x| := by
  have := Int.zpow_log_le_self (b := 2) (by norm_num) (abs_pos.mpr h)
  exact_mod_cast this

/-- Comparison with a power of two that is a multiple of the last bit. -/
theorem rne_le_zpow {x : ℝ} {e k : ℤ} (hk : e ≤ k) (h : x ≤ 2 ^ k) :
    (rne (x / 2 ^ e) : ℝ) * 2 ^ e ≤ 2 ^ k := by
  have hn : (2 : ℝ) ^ k = ((2 ^ (k - e).toNat : ℤ) : ℝ) * 2 ^ e := by
    push_cast
    rw [← zpow_natCast, Int.toNat_of_nonneg (by omega), ← zpow_add₀ (by norm_num)]
    congr 1; omega
  have h1 : x / 2 ^ e ≤ ((2 ^ (k - e).toNat : ℤ) : ℝ) := by
    rw [div_le_iff₀ (zpow_pos2 e), ← hn]; exact h
  have h2 := rne_mono h1
  rw [rne_int] at h2
  rw [hn]
  exact mul_le_mul_of_nonneg_right (by exact_mod_cast h2) (zpow_pos2 e).le

theorem zpow_le_rne {x : ℝ} {e k : ℤ} (hk : e ≤ k) (h : 2 ^ k ≤ x) :
    2 ^ k ≤ (rne (x / 2 ^ e) : ℝ) * 2 ^ e := by
  have hn : (2 : ℝ) ^ k = ((2 ^ (k - e).toNat : ℤ) : ℝ) * 2 ^ e := by
    push_cast
    rw [← zpow_natCast, Int.toNat_of_nonneg (by omega), ← zpow_add₀ (by norm_num)]
    congr 1; omega
  have h1 : ((2 ^ (k - e).toNat : ℤ) : ℝ) ≤ x / 2 ^ e := by
    rw [le_div_iff₀ (zpow_pos2 e), ← hn]; exact h
  have h2 := rne_mono h1
  rw [rne_int] at h2
  rw [hn]
  exact mul_le_mul_of_nonneg_right (by exact_mod_cast h2) (zpow_pos2 e).le

theorem rnd64_mono_pos {x y : ℝ} (hx : 0 < x) (h : x ≤ y) : rnd64 x ≤ rnd64 y := by
  have hy : 0 < y := hx.trans_le h
  have hlog : Int.log 2 |x| ≤ Int.log 2 |y| := by
    apply Int.log_mono_right (abs_pos.mpr hx.ne')
    rwa [abs_of_pos hx, abs_of_pos hy]
  by_cases he : ulpExp x = ulpExp y
  · rw [rnd64, rnd64, he]
    refine mul_le_mul_of_nonneg_right ?_ (zpow_pos2 _).le
    exact_mod_cast rne_mono (div_le_div_of_nonneg_right h (zpow_pos2 _).le)
  · have hey : ulpExp y = Int.log 2 |y| - 52 ∧ Int.log 2 |x| + 1 ≤ Int.log 2 |y| ∧
        ulpExp x ≤ Int.log 2 |y| ∧ ulpExp y ≤ Int.log 2 |y| := by
      simp only [ulpExp] at he ⊢
      omega
    obtain ⟨-, hlt, h1, h2⟩ := hey
    have hxl : x ≤ 2 ^ Int.log 2 |y| := by
      refine (le_abs_self x).trans (lt_zpow_log.le.trans ?_)
      exact zpow_le_zpow_right₀ (by norm_num) hlt
    have hyl : 2 ^ Int.log 2 |y| ≤ y := by
      have := zpow_log_le hy.ne'
      rwa [abs_of_pos hy] at this ⊢
    exact (rne_le_zpow h1 hxl).trans (zpow_le_rne h2 hyl)

theorem rnd64_mono : Monotone rnd64 := by
  intro x y h
  rcases lt_or_ge 0 x with hx | hx
  · exact rnd64_mono_pos hx h
  · rcases lt_or_ge y 0 with hy | hy
    · have := rnd64_mono_pos (neg_pos.mpr hy) (neg_le_neg h)
      rw [rnd64_neg, rnd64_neg] at this
      linarith
    · have h1 := rnd64_nonneg (neg_nonneg.mpr hx)
      rw [rnd64_neg] at h1
      linarith [rnd64_nonneg hy]

/-- Numbers with 53 significant bits are not changed. -/
theorem rnd64_fix {m e : ℤ} (hm : |m| < 2 ^ 53) (he : -1074 ≤ e) : rnd64 (m * 2 ^ e) = m * 2 ^ e := by
  by_cases h0 : m = 0
  · rw [h0]; simp [rnd64_zero]
  have hlt : |(m : ℝ) * 2 ^ e| < 2 ^ (53 + e) := by
    rw [abs_mul, abs_of_pos (zpow_pos2 e), zpow_add₀ (by norm_num)]
    refine mul_lt_mul_of_pos_right ?_ (zpow_pos2 e)
    exact_mod_cast hm
  have hne : (m : ℝ) * 2 ^ e ≠ 0 := mul_ne_zero (by exact_mod_cast h0) (zpow_pos2 e).ne'
  have hlog : Int.log 2 |(m : ℝ) * 2 ^ e| < 53 + e := by
    have h1 := (zpow_log_le hne).trans_lt hlt
    exact (zpow_lt_zpow_iff_right₀ (by norm_num)).mp h1
  have hu : ulpExp ((m : ℝ) * 2 ^ e) ≤ e := by
    rw [ulpExp]; omega
  rw [rnd64]
  generalize ulpExp ((m : ℝ) * 2 ^ e) = k at *
  have hdiv : (m : ℝ) * 2 ^ e / 2 ^ k = ((m * 2 ^ (e - k).toNat : ℤ) : ℝ) := by
    push_cast
    rw [mul_div_assoc, ← zpow_sub₀ (by norm_num), ← zpow_natCast, Int.toNat_of_nonneg (by omega)]
  rw [hdiv, rne_int, ← hdiv, div_mul_cancel₀ _ (zpow_pos2 k).ne']

theorem rnd64_fix' {m e : ℤ} (hm : |m| ≤ 2 ^ 53) (he : -1074 ≤ e) :
    rnd64 (m * 2 ^ e) = m * 2 ^ e := by
  rcases hm.lt_or_eq with h | h
  · exact rnd64_fix h he
  · obtain ⟨k, hk, rfl⟩ : ∃ k : ℤ, |k| < 2 ^ 53 ∧ m = k * 2 := by
      rcases abs_eq (by norm_num) |>.mp h with h | h
      · exact ⟨2 ^ 52, by norm_num, by rw [h]; norm_num⟩
      · exact ⟨-2 ^ 52, by norm_num, by rw [h]; norm_num⟩
    have e1 : ((k * 2 : ℤ) : ℝ) * 2 ^ e = k * 2 ^ (e + 1) := by
      push_cast
      rw [zpow_add₀ (by norm_num), zpow_one]; ring
    rw [e1]
    exact rnd64_fix hk (by omega)

theorem rnd64_idem (x : ℝ) : rnd64 (rnd64 x) = rnd64 x := by
  rw [show rnd64 x = rne (x / 2 ^ ulpExp x) * 2 ^ ulpExp x from rfl]
  refine rnd64_fix' ?_ (le_max_right _ _)
  have hlt : |x / 2 ^ ulpExp x| ≤ ((2 ^ 53 : ℤ) : ℝ) := by
    rw [abs_div, abs_of_pos (zpow_pos2 _), div_le_iff₀ (zpow_pos2 _)]
    refine lt_zpow_log.le.trans ?_
    have : ((2 ^ 53 : ℤ) : ℝ) * 2 ^ ulpExp x = 2 ^ (53 + ulpExp x) := by
      rw [zpow_add₀ (by norm_num)]; norm_num
    rw [this]
    refine zpow_le_zpow_right₀ (by norm_num) ?_
    rw [ulpExp]; omega
  rw [abs_le] at hlt ⊢
  have h1 := rne_mono hlt.1
  have h2 := rne_mono hlt.2
  rw [← Int.cast_neg, rne_int] at h1
  rw [rne_int] at h2
  exact ⟨h1, h2⟩

theorem rnd64_error (x : ℝ) : |rnd64 x - x| ≤ 2 ^ (-53 : ℤ) * |x| + 2 ^ (-1075 : ℤ) := by
  by_cases h0 : x = 0
  · rw [h0, rnd64_zero]; simp
  have h1 : |rnd64 x - x| ≤ 1 / 2 * 2 ^ ulpExp x := by
    have h := rne_error (x / 2 ^ ulpExp x)
    have e : rnd64 x - x = (rne (x / 2 ^ ulpExp x) - x / 2 ^ ulpExp x) * 2 ^ ulpExp x := by
      rw [rnd64, sub_mul, div_mul_cancel₀ _ (zpow_pos2 _).ne']
    rw [e, abs_mul, abs_of_pos (zpow_pos2 _)]
    exact mul_le_mul_of_nonneg_right h (zpow_pos2 _).le
  refine h1.trans ?_
  have hl := zpow_log_le h0
  have hx := abs_nonneg x
  have p := zpow_pos2 (-1075)
  have p' := zpow_pos2 (-53)
  rcases le_total (Int.log 2 |x| - 52) (-1074) with h | h
  · rw [ulpExp, max_eq_right h]
    have : (1 / 2 : ℝ) * 2 ^ (-1074 : ℤ) = 2 ^ (-1075 : ℤ) := by
      rw [show (-1074 : ℤ) = -1075 + 1 by norm_num, zpow_add₀ (by norm_num), zpow_one]; ring
    rw [this]
    have := mul_nonneg p'.le hx
    linarith
  · rw [ulpExp, max_eq_left h]
    have : (1 / 2 : ℝ) * 2 ^ (Int.log 2 |x| - 52) = 2 ^ (-53 : ℤ) * 2 ^ Int.log 2 |x| := by
      rw [show (1 / 2 : ℝ) = 2 ^ (-1 : ℤ) by norm_num, ← zpow_add₀ (by norm_num),
        ← zpow_add₀ (by norm_num)]
      congr 1; omega
    rw [this]
    have := mul_le_mul_of_nonneg_left hl p'.le
    linarith

theorem rnd64_int (z : ℤ) (h : |z| ≤ 2 ^ 53) : rnd64 z = z := by
  have := rnd64_fix' h (e := 0) (by norm_num)
  simpa using this

/-- IEEE binary64, round to nearest even, without overflow; sine, cosine, `atan2` and `hypot` are
correctly rounded. -/
noncomputable def binary64 : Arith where
  rnd := rnd64
  u := 2 ^ (-53 : ℤ)
  η := 2 ^ (-1075 : ℤ)
  mono := rnd64_mono
  idem := rnd64_idem
  symm := rnd64_neg
  error := rnd64_error
  int := rnd64_int
  half := by
    have := rnd64_fix (m := 1) (e := -1) (by norm_num) (by norm_num)
    norm_num at this ⊢; exact this
  u_nonneg := by positivity
  small := by norm_num
  tiny := zpow_le_zpow_right₀ (by norm_num) (by norm_num)
  sin := Real.sin
  cos := Real.cos
  atan2 y x := Complex.arg ⟨x, y⟩
  hypot x y := Real.sqrt (x ^ 2 + y ^ 2)
  ε := 2 ^ (-53 : ℤ) + 2 ^ (-1075 : ℤ)
  sin_error x := by
    refine (rnd64_error _).trans ?_
    have h := Real.abs_sin_le_one x
    have := mul_le_mul_of_nonneg_left h (zpow_pos2 (-53)).le
    linarith
  cos_error x := by
    refine (rnd64_error _).trans ?_
    have h := Real.abs_cos_le_one x
    have := mul_le_mul_of_nonneg_left h (zpow_pos2 (-53)).le
    linarith

theorem rne_eq {x : ℝ} {m : ℤ} (h : |x - m| < 1 / 2) : rne x = m := by
  have h1 := rne_error x
  have h2 : |((rne x - m : ℤ) : ℝ)| < 1 := by
    push_cast
    have : (rne x : ℝ) - m = (rne x - x) + (x - m) := by ring
    rw [this]
    exact (abs_add_le _ _).trans_lt (by linarith)
  have h3 : |rne x - m| < 1 := by exact_mod_cast h2
  have := Int.abs_lt_one_iff.mp h3
  omega

/-- Rounding to a given double. -/
theorem rnd64_eq {x : ℝ} {m e : ℤ} (he : -1074 ≤ e) (h1 : 2 ^ (e + 52) ≤ x) (h2 : x < 2 ^ (e + 53))
    (h : |x - m * 2 ^ e| < 2 ^ e / 2) : rnd64 x = m * 2 ^ e := by
  have hx : 0 < x := (zpow_pos2 _).trans_le h1
  have hl : Int.log 2 |x| = e + 52 := by
    rw [abs_of_pos hx]
    apply le_antisymm
    · have : Int.log 2 x < e + 53 := (Int.lt_zpow_iff_log_lt (b := 2) (by norm_num) hx).mp (by exact_mod_cast h2)
      omega
    · exact (Int.zpow_le_iff_le_log (b := 2) (by norm_num) hx).mp (by exact_mod_cast h1)
  have hu : ulpExp x = e := by rw [ulpExp, hl]; omega
  rw [rnd64, hu]
  congr 2
  apply rne_eq
  have h3 : x / 2 ^ e - m = (x - m * 2 ^ e) / 2 ^ e := by
    rw [sub_div, mul_div_cancel_right₀ _ (zpow_pos2 e).ne']
  rw [h3, abs_div, abs_of_pos (zpow_pos2 e), div_lt_iff₀ (zpow_pos2 e)]
  linarith

/-! ### Values of operations -/

namespace Doubles

variable {A : Arith}

@[simp] theorem val_round (x : ℝ) : (round A x).val = A.rnd x := rfl
@[simp] theorem val_add (a b : Doubles A) : (a + b).val = A.rnd (a.val + b.val) := rfl
@[simp] theorem val_sub (a b : Doubles A) : (a - b).val = A.rnd (a.val - b.val) := rfl
@[simp] theorem val_mul (a b : Doubles A) : (a * b).val = A.rnd (a.val * b.val) := rfl
@[simp] theorem val_div (a b : Doubles A) : (a / b).val = A.rnd (a.val / b.val) := rfl
@[simp] theorem val_cos (a : Doubles A) : (Num.cos a).val = A.rnd (A.cos a.val) := rfl
@[simp] theorem val_sin (a : Doubles A) : (Num.sin a).val = A.rnd (A.sin a.val) := rfl
@[simp] theorem val_pi : (Dbl.pi : Doubles A).val = A.rnd Real.pi := rfl
@[simp] theorem val_trunc (a : Doubles A) :
    (Dbl.trunc a).val = A.rnd (Dbl.trunc a.val) := rfl
theorem rnd_val (a : Doubles A) : A.rnd a.val = a.val := a.2
@[simp] theorem val_neg (a : Doubles A) : (-a).val = -a.val :=
  (A.symm a.val).trans (by rw [rnd_val])
@[simp] theorem val_lit (q : ℚ) : (Num.lit q : Doubles A).val = A.rnd q := rfl

theorem ext {a b : Doubles A} (h : a.val = b.val) : a = b := Subtype.ext h

theorem val_ofNat {n : ℕ} (h : n ≤ 2 ^ 53) : (Dbl.ofNat n : Doubles A).val = n := by
  have := A.int n (by rw [abs_of_nonneg (by omega)]; exact_mod_cast h)
  have e : (Dbl.ofNat n : Doubles A).val = A.rnd ((n : ℤ) : ℝ) := rfl
  rw [e, this]; simp

theorem rnd_zero : A.rnd 0 = 0 := by
  have := A.int 0 (by norm_num)
  simpa using this

theorem rnd_one : A.rnd 1 = 1 := by
  have := A.int 1 (by norm_num)
  simpa using this

theorem eta_nonneg (A : Arith) : 0 ≤ A.η := by
  have := A.error 0
  rw [rnd_zero] at this
  simpa using this

theorem rnd_nonneg {x : ℝ} (h : 0 ≤ x) : 0 ≤ A.rnd x := by
  have := A.mono h
  rwa [rnd_zero] at this

theorem rnd_abs_le (x : ℝ) : |A.rnd x| ≤ (1 + A.u) * |x| + A.η := by
  have h := A.error x
  have h2 : A.rnd x = (A.rnd x - x) + x := by ring
  rw [h2]
  refine (abs_add_le _ _).trans ?_
  linarith

end Doubles

end Trajopt
