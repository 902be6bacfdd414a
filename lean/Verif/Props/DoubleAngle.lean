import Verif.Props.Double
import Mathlib.Analysis.Real.Pi.Bounds

/-!
# C73 for angles: `AngleLinspace` in double arithmetic
-/

set_option autoImplicit false

namespace Trajopt.Props

open Doubles

variable {A : Arith}

theorem trunc_cases (t : ℝ) : ∃ z : ℤ, (Dbl.trunc t : ℝ) = z ∧ |(z : ℝ)| ≤ |t| ∧
    (0 ≤ t → 0 ≤ t - z ∧ t - z < 1) ∧ (t < 0 → -1 < t - z ∧ t - z ≤ 0) := by
  rcases lt_or_ge t 0 with h | h
  · refine ⟨⌈t⌉, trunc_neg h, ?_, fun h' => absurd h (not_lt.mpr h'), fun _ => ⟨?_, ?_⟩⟩
    · have h1 : (⌈t⌉ : ℝ) ≤ 0 := by exact_mod_cast Int.ceil_le.mpr (by simpa using h.le)
      rw [abs_of_nonpos h1, abs_of_neg h]
      linarith [Int.le_ceil t]
    · linarith [Int.ceil_lt_add_one t]
    · linarith [Int.le_ceil t]
  · refine ⟨⌊t⌋, trunc_nonneg h, ?_, fun _ => ⟨?_, ?_⟩, fun h' => absurd h' (not_lt.mpr h)⟩
    · have h1 : (0 : ℝ) ≤ ⌊t⌋ := by exact_mod_cast Int.floor_nonneg.mpr h
      rw [abs_of_nonneg h1, abs_of_nonneg h]
      exact Int.floor_le t
    · linarith [Int.floor_le t]
    · linarith [Int.lt_floor_add_one t]

/-- One reduction step: subtract the truncated number of full turns. -/
theorem reduce_step (x w M Y : ℝ) (hu : A.u ≤ 1 / 2 ^ 20) (hY : 4 ≤ Y) (hY' : Y ≤ 2 ^ 52)
    (hw : |w| ≤ 16 / 5) (hx : |x| + 4 ≤ Y) (hM1 : 6 ≤ M) (hM2 : M ≤ 13 / 2)
    (hMp : |M - 2 * Real.pi| ≤ 18 * A.u) :
    ∃ (t : ℝ) (z : ℤ), A.rnd (Dbl.trunc (A.rnd (A.rnd (x - w) / M))) = z ∧
      |t * M - (x - w)| ≤ 5 * A.u * Y ∧
      |A.rnd (x - A.rnd (z * M)) - (x - z * (2 * Real.pi))| ≤ 8 * A.u * Y ∧
      |A.rnd (x - A.rnd (z * M)) - w - (t - z) * M| ≤ 9 * A.u * Y ∧
      (0 ≤ t → 0 ≤ t - z ∧ t - z < 1) ∧ (t < 0 → -1 < t - z ∧ t - z ≤ 0) := by
  have hu0 := A.u_nonneg
  have hη := A.tiny
  have huY : A.u ≤ A.u * Y / 4 := by nlinarith
  have huY0 : 0 ≤ A.u * Y := mul_nonneg hu0 (by linarith)
  have hs : A.u * Y ≤ Y / 2 ^ 20 := by
    have := mul_le_mul_of_nonneg_right hu (by linarith : (0 : ℝ) ≤ Y)
    linarith
  have hxw : |x - w| ≤ Y - 4 / 5 := (abs_sub _ _).trans (by linarith)
  have r1 := A.error (x - w)
  have r1' : |A.rnd (x - w) - (x - w)| ≤ 5 / 4 * (A.u * Y) := by
    have := mul_le_mul_of_nonneg_left hxw hu0
    linarith
  set p := A.rnd (x - w)
  have hp : |p| ≤ 101 / 100 * Y := by
    have : p = (p - (x - w)) + (x - w) := by ring
    rw [this]
    refine (abs_add_le _ _).trans ?_
    linarith
  have hM0 : 0 < M := by linarith
  have r2 := A.error (p / M)
  set t := A.rnd (p / M)
  have htM : |t * M - p| ≤ 3 * (A.u * Y) := by
    have e : t * M - p = (t - p / M) * M := by field_simp
    rw [e, abs_mul, abs_of_pos hM0]
    have h1 := mul_le_mul_of_nonneg_right r2 hM0.le
    have h2 : (A.u * |p / M| + A.η) * M = A.u * |p| + A.η * M := by
      rw [abs_div, abs_of_pos hM0]; field_simp
    rw [h2] at h1
    have h3 := mul_le_mul_of_nonneg_left hp hu0
    have h4 : A.η * M ≤ A.u * (13 / 2) := by
      have := eta_nonneg A
      nlinarith
    linarith
  have htM' : |t * M - (x - w)| ≤ 5 * A.u * Y := by
    have e : t * M - (x - w) = (t * M - p) + (p - (x - w)) := by ring
    rw [e]
    refine (abs_add_le _ _).trans ?_
    linarith
  have htMa : |t| * M ≤ 102 / 100 * Y := by
    have e : |t| * M = |(t * M - p) + p| := by rw [sub_add_cancel, abs_mul, abs_of_pos hM0]
    rw [e]
    refine (abs_add_le _ _).trans ?_
    linarith
  have hta : |t| ≤ Y / 5 := by
    have := mul_le_mul_of_nonneg_left hM1 (abs_nonneg t)
    linarith
  obtain ⟨z, hz, hzt, hc1, hc2⟩ := trunc_cases t
  have hz53 : A.rnd (z : ℝ) = z := by
    apply A.int
    have : |(z : ℝ)| ≤ 2 ^ 53 := by linarith
    exact_mod_cast this
  have hzM : |(z : ℝ) * M| ≤ 102 / 100 * Y := by
    rw [abs_mul, abs_of_pos hM0]
    exact (mul_le_mul_of_nonneg_right hzt hM0.le).trans htMa
  have r3 := A.error (z * M)
  have r3' : |A.rnd (z * M) - z * M| ≤ 13 / 10 * (A.u * Y) := by
    have := mul_le_mul_of_nonneg_left hzM hu0
    linarith
  set q := A.rnd (z * M)
  have hxq : |x - q| ≤ 21 / 10 * Y := by
    have e : x - q = x - (z * M) - (q - z * M) := by ring
    rw [e]
    refine (abs_sub _ _).trans ?_
    have := abs_sub x (z * M)
    linarith
  have r4 := A.error (x - q)
  have r4' : |A.rnd (x - q) - (x - q)| ≤ 5 / 2 * (A.u * Y) := by
    have := mul_le_mul_of_nonneg_left hxq hu0
    linarith
  have hx' : |A.rnd (x - q) - (x - z * M)| ≤ 4 * (A.u * Y) := by
    have e : A.rnd (x - q) - (x - z * M) = (A.rnd (x - q) - (x - q)) - (q - z * M) := by ring
    rw [e]
    refine (abs_sub _ _).trans ?_
    linarith
  refine ⟨t, z, by rw [hz, hz53], htM', ?_, ?_, hc1, hc2⟩
  · have e : A.rnd (x - q) - (x - z * (2 * Real.pi)) =
        (A.rnd (x - q) - (x - z * M)) - z * (M - 2 * Real.pi) := by ring
    rw [e]
    refine (abs_sub _ _).trans ?_
    rw [abs_mul]
    have h1 : |(z : ℝ)| * |M - 2 * Real.pi| ≤ Y / 5 * (18 * A.u) :=
      mul_le_mul (hzt.trans hta) hMp (abs_nonneg _) (by linarith)
    linarith
  · have e : A.rnd (x - q) - w - (t - z) * M =
        (A.rnd (x - q) - (x - z * M)) - (t * M - (x - w)) := by ring
    rw [e]
    refine (abs_sub _ _).trans ?_
    linarith

/-- The numbers `π` and `2π` in doubles. -/
theorem rounded_pi : |A.rnd Real.pi - Real.pi| ≤ 5 * A.u ∧
    |A.rnd (A.rnd 2 * A.rnd Real.pi) - 2 * A.rnd Real.pi| ≤ 8 * A.u ∧
    |A.rnd (A.rnd 2 * A.rnd Real.pi) - 2 * Real.pi| ≤ 18 * A.u ∧
    3 ≤ A.rnd Real.pi ∧ A.rnd Real.pi ≤ 16 / 5 ∧
    6 ≤ A.rnd (A.rnd 2 * A.rnd Real.pi) ∧ A.rnd (A.rnd 2 * A.rnd Real.pi) ≤ 13 / 2 := by
  have hu0 := A.u_nonneg
  have hη := A.tiny
  have hs := A.small
  have p1 := Real.pi_gt_d2
  have p2 := Real.pi_lt_d2
  have h2 : A.rnd 2 = 2 := by
    have := A.int 2 (by norm_num)
    simpa using this
  rw [h2]
  have e1 := A.error Real.pi
  rw [abs_of_pos Real.pi_pos] at e1
  have e1' : |A.rnd Real.pi - Real.pi| ≤ 5 * A.u := by nlinarith
  obtain ⟨a1, a2⟩ := abs_le.mp e1'
  have hp3 : 3 ≤ A.rnd Real.pi := by norm_num at hs; linarith
  have hp4 : A.rnd Real.pi ≤ 16 / 5 := by norm_num at hs; linarith
  have e2 := A.error (2 * A.rnd Real.pi)
  rw [abs_of_pos (by linarith : 0 < 2 * A.rnd Real.pi)] at e2
  have e2' : |A.rnd (2 * A.rnd Real.pi) - 2 * A.rnd Real.pi| ≤ 8 * A.u := by nlinarith
  obtain ⟨b1, b2⟩ := abs_le.mp e2'
  refine ⟨e1', e2', ?_, hp3, hp4, ?_, ?_⟩
  · rw [abs_le]; constructor <;> linarith
  · norm_num at hs; linarith
  · norm_num at hs; linarith

/-- C73: `AngleLinspace` in doubles interpolates linearly to `a + d`, where `d` is, up to rounding, a
turn of at most half a revolution that leads from `a` to `b`. -/
theorem C73_angle_turn (a b : Doubles A) (n : ℕ)
    (hsmall : |b.val - a.val| ≤ 2 ^ 50)
    (hu : 64 * A.u * (|b.val - a.val| + 4) ≤ 1) :
    ∃ (d : Doubles A) (z : ℤ), angleLinspace a b n = linspace a (a + d) n ∧
      |d.val| ≤ Real.pi + 64 * A.u * (|b.val - a.val| + 4) ∧
      |(a.val + d.val) - (b.val + z * (2 * Real.pi))| ≤ 64 * A.u * (|b.val - a.val| + 4) := by
  obtain ⟨hpi, hM, hM', hp3, hp4, hM1, hM2⟩ := rounded_pi (A := A)
  have hu0 := A.u_nonneg
  have hη := A.tiny
  set Δ := b.val - a.val with hΔ
  set B := |Δ| + 4 with hB
  have hB4 : 4 ≤ B := by have := abs_nonneg Δ; linarith
  have huB : 4 * A.u ≤ A.u * B := by nlinarith
  have huB1 : A.u * B ≤ 1 / 64 := by linarith
  set P := A.rnd Real.pi with hP
  set M := A.rnd (A.rnd 2 * P) with hMd
  have e0 := A.error Δ
  set x0 := A.rnd Δ with hx0
  have e0' : |x0 - Δ| ≤ A.u * B := by rw [hB]; linarith
  have hx0a : |x0| ≤ B := by
    have : x0 = (x0 - Δ) + Δ := by ring
    rw [this]
    refine (abs_add_le _ _).trans ?_
    linarith
  have hPa : |(-P)| ≤ 16 / 5 := by rw [abs_neg, abs_of_nonneg (by linarith)]; exact hp4
  have hPb : |P| ≤ 16 / 5 := by rw [abs_of_nonneg (by linarith)]; exact hp4
  obtain ⟨t1, z1, hz1, -, hc1, hr1, hf1, hg1⟩ :=
    reduce_step x0 (-P) M (2 * B) A.small (by linarith) (by norm_num at hsmall ⊢; linarith) hPa
      (by linarith) hM1 hM2 hM'
  set x1 := A.rnd (x0 - A.rnd (z1 * M)) with hx1
  obtain ⟨r1, r1'⟩ := abs_le.mp hr1
  obtain ⟨m1, m2⟩ := abs_le.mp hM
  have hup : x1 ≤ P + 8 * A.u + 18 * (A.u * B) := by
    rcases lt_or_ge t1 0 with h | h
    · have := mul_le_mul_of_nonneg_right (hg1 h).2 (by linarith : 0 ≤ M)
      linarith
    · have := mul_le_mul_of_nonneg_right (hf1 h).2.le (by linarith : 0 ≤ M)
      linarith
  have hlo : -P - M - 18 * (A.u * B) ≤ x1 := by
    rcases lt_or_ge t1 0 with h | h
    · have := mul_le_mul_of_nonneg_right (hg1 h).1.le (by linarith : 0 ≤ M)
      linarith
    · have := mul_le_mul_of_nonneg_right (hf1 h).1 (by linarith : 0 ≤ M)
      linarith
  have hx1a : |x1| ≤ 11 := by rw [abs_le]; constructor <;> linarith
  obtain ⟨t2, z2, hz2, ht2, hc2, hr2, hf2, hg2⟩ :=
    reduce_step x1 P M 15 A.small (by norm_num) (by norm_num) hPb (by linarith) hM1 hM2 hM'
  set x2 := A.rnd (x1 - A.rnd (z2 * M)) with hx2
  obtain ⟨r2, r2'⟩ := abs_le.mp hr2
  obtain ⟨s2, s2'⟩ := abs_le.mp ht2
  obtain ⟨q1, q2⟩ := abs_le.mp hpi
  have hrange : |x2| ≤ Real.pi + 64 * A.u * B := by
    rcases lt_or_ge t2 0 with h | h
    · have h1 := mul_le_mul_of_nonneg_right (hg2 h).1.le (by linarith : 0 ≤ M)
      have h2 := mul_le_mul_of_nonneg_right (hg2 h).2 (by linarith : 0 ≤ M)
      rw [abs_le]; constructor <;> linarith
    · have hzero : z2 = 0 := by
        have hlt : t2 < 1 := by
          by_contra hc
          have h1 := mul_le_mul_of_nonneg_right (not_lt.mp hc) (by linarith : 0 ≤ M)
          linarith
        obtain ⟨h1, h2⟩ := hf2 h
        have h3 : (z2 : ℝ) < 1 := by linarith
        have h4 : (-1 : ℝ) < z2 := by linarith
        have h3' : z2 < 1 := by exact_mod_cast h3
        have h4' : -1 < z2 := by exact_mod_cast h4
        omega
      have hx21 : x2 = x1 := by
        rw [hx2, hzero, Int.cast_zero, zero_mul, rnd_zero, sub_zero, hx1, A.idem]
      rw [hx21]
      have h1 : 0 ≤ t2 * M := mul_nonneg h (by linarith)
      rw [abs_le]; constructor <;> linarith
  refine ⟨⟨x2, A.idem _⟩, -(z1 + z2), ?_, hrange, ?_⟩
  · rw [angleLinspace]
    congr 2
    apply Doubles.ext
    simp only [val_sub, val_mul, val_trunc, val_div, val_pi, val_neg, val_lit]
    change A.rnd (A.rnd (x0 - A.rnd (A.rnd (Dbl.trunc (A.rnd (A.rnd (x0 - -P) / A.rnd (A.rnd ((2 : ℚ) : ℝ) * P)))) *
      A.rnd (A.rnd ((2 : ℚ) : ℝ) * P))) - A.rnd (A.rnd (Dbl.trunc (A.rnd (A.rnd (A.rnd (x0 - A.rnd (A.rnd
      (Dbl.trunc (A.rnd (A.rnd (x0 - -P) / A.rnd (A.rnd ((2 : ℚ) : ℝ) * P)))) *
      A.rnd (A.rnd ((2 : ℚ) : ℝ) * P))) - P) / A.rnd (A.rnd ((2 : ℚ) : ℝ) * P)))) *
      A.rnd (A.rnd ((2 : ℚ) : ℝ) * P))) = x2
    have hc : ((2 : ℚ) : ℝ) = 2 := by norm_num
    rw [hc, ← hMd, hz1, ← hx1, hz2]
  · change |a.val + x2 - (b.val + ((-(z1 + z2) : ℤ) : ℝ) * (2 * Real.pi))| ≤ _
    push_cast
    have e : a.val + x2 - (b.val + -((z1 : ℝ) + z2) * (2 * Real.pi)) =
        (x2 - (x1 - z2 * (2 * Real.pi))) + (x1 - (x0 - z1 * (2 * Real.pi))) + (x0 - Δ) := by
      rw [hΔ]; ring
    rw [e]
    refine (abs_add_le _ _).trans ?_
    have := abs_add_le (x2 - (x1 - z2 * (2 * Real.pi))) (x1 - (x0 - z1 * (2 * Real.pi)))
    linarith

/-- C73: the last entry of `AngleLinspace` in doubles is, up to rounding, congruent to `b` modulo
a full turn, and so is every entry to `a + k d / n` for a turn `d` of at most half a revolution. -/
theorem C73_angle_partial (a b : Doubles A) (n : ℕ) (hn : n ≤ 2 ^ 53)
    (hsmall : |b.val - a.val| ≤ 2 ^ 50)
    (hu : 64 * A.u * (|b.val - a.val| + 4) ≤ 1) :
    ∃ (d : ℝ) (z : ℤ), |d| ≤ Real.pi + 64 * A.u * (|b.val - a.val| + 4) ∧
      |(a.val + d) - (b.val + z * (2 * Real.pi))| ≤ 64 * A.u * (|b.val - a.val| + 4) ∧
      (angleLinspace a b n).length = n ∧
      ∀ k, 1 ≤ k → k ≤ n → ∃ v, (angleLinspace a b n)[k - 1]? = some v ∧
        |v.val - (a.val + k * d / n)| ≤ A.u * (3 * |a.val| + 40) + (2 * k + 4) * A.η := by
  obtain ⟨d, z, heq, hd, hz⟩ := C73_angle_turn a b n hsmall hu
  refine ⟨d.val, z, hd, hz, by simp, fun k hk hkn => ?_⟩
  obtain ⟨v, hv, hb⟩ := C73_entry_partial a (a + d) n k hn hk hkn
  refine ⟨v, by rw [heq, hv], ?_⟩
  have hu0 := A.u_nonneg
  have hs : A.u ≤ 1 / 2 ^ 20 := A.small
  have hη := A.tiny
  have hη0 := eta_nonneg A
  have hpi := Real.pi_lt_d2
  have hd5 : |d.val| ≤ 5 := by linarith
  have ha0 := abs_nonneg a.val
  have e := A.error (a.val + d.val)
  rw [val_add] at hb
  set w := A.rnd (a.val + d.val)
  have had : |a.val + d.val| ≤ |a.val| + 5 := (abs_add_le _ _).trans (by linarith)
  have hu1 : A.u ≤ 1 / 100 := by norm_num at hs; linarith
  have e' : |w - (a.val + d.val)| ≤ A.u * (|a.val| + 6) := by
    have := mul_le_mul_of_nonneg_left had hu0
    linarith
  have hq : A.u * (|a.val| + 6) ≤ 1 / 100 * (|a.val| + 6) :=
    mul_le_mul_of_nonneg_right hu1 (by linarith)
  have hw : |w| ≤ 101 / 100 * |a.val| + 506 / 100 := by
    have : w = (w - (a.val + d.val)) + (a.val + d.val) := by ring
    rw [this]
    refine (abs_add_le _ _).trans ?_
    linarith
  have hmax : max |a.val| |w| ≤ 101 / 100 * |a.val| + 506 / 100 := max_le (by linarith) hw
  have hwa : |w - a.val| ≤ 1 / 100 * |a.val| + 506 / 100 := by
    have : w - a.val = (w - (a.val + d.val)) + d.val := by ring
    rw [this]
    refine (abs_add_le _ _).trans ?_
    linarith
  have hn0 : (0 : ℝ) < n := by exact_mod_cast (by omega : 0 < n)
  have hk0 : (0 : ℝ) < k := by exact_mod_cast hk
  have hkn' : (k : ℝ) / n ≤ 1 := (div_le_one hn0).mpr (by exact_mod_cast hkn)
  have e2 : v.val - (a.val + k * d.val / n) =
      (v.val - (a.val + k * (w - a.val) / n)) + (k / n) * (w - (a.val + d.val)) := by ring
  rw [e2]
  refine (abs_add_le _ _).trans ?_
  rw [abs_mul, abs_of_pos (div_pos hk0 hn0)]
  have h1 := mul_le_of_le_one_left (abs_nonneg (w - (a.val + d.val))) hkn'
  have h2 := mul_le_mul_of_nonneg_left hmax hu0
  have h3 := mul_le_mul_of_nonneg_left hwa hu0
  nlinarith

/-- C73: the last entry of `AngleLinspace` in doubles is the heading `b`, up to rounding. -/
theorem C73_angle_last_partial (a b : Doubles A) (n : ℕ) (hn : n ≤ 2 ^ 53) (h0 : 0 < n)
    (hsmall : |b.val - a.val| ≤ 2 ^ 50)
    (hu : 64 * A.u * (|b.val - a.val| + 4) ≤ 1) :
    ∃ v, (angleLinspace a b n).getLast? = some v ∧
      |Real.cos v.val - Real.cos b.val| ≤ A.u * (64 * |b.val - a.val| + 3 * |a.val| + 296) +
        (2 * n + 4) * A.η ∧
      |Real.sin v.val - Real.sin b.val| ≤ A.u * (64 * |b.val - a.val| + 3 * |a.val| + 296) +
        (2 * n + 4) * A.η := by
  obtain ⟨d, z, -, hz, hl, h⟩ := C73_angle_partial a b n hn hsmall hu
  obtain ⟨v, hv, hb⟩ := h n h0 le_rfl
  have hn0 : (n : ℝ) ≠ 0 := by exact_mod_cast h0.ne'
  have e : a.val + n * d / n = a.val + d := by field_simp
  rw [e] at hb
  have hfin : |v.val - (b.val + z * (2 * Real.pi))| ≤
      A.u * (64 * |b.val - a.val| + 3 * |a.val| + 296) + (2 * n + 4) * A.η := by
    have e2 : v.val - (b.val + z * (2 * Real.pi)) =
        (v.val - (a.val + d)) + ((a.val + d) - (b.val + z * (2 * Real.pi))) := by ring
    rw [e2]
    refine (abs_add_le _ _).trans ?_
    linarith
  refine ⟨v, by rw [List.getLast?_eq_getElem?, hl, hv], ?_, ?_⟩
  · rw [← Real.cos_add_int_mul_two_pi b.val z]
    exact (Real.abs_cos_sub_cos_le _ _).trans hfin
  · rw [← Real.sin_add_int_mul_two_pi b.val z]
    exact (Real.abs_sin_sub_sin_le _ _).trans hfin

/-- From heading 3 to heading -3 in ten steps: the hypotheses hold for IEEE doubles, and the
last of the ten headings is right to `1e-12`. -/
example : ∃ v, (angleLinspace (dbl 3) (dbl (-3)) 10).getLast? = some v ∧
    |Real.cos v.val - Real.cos (-3)| ≤ 1e-12 ∧ |Real.sin v.val - Real.sin (-3)| ≤ 1e-12 := by
  have e3 : (dbl 3).val = 3 := by rw [dbl_val 3 (by norm_num)]; norm_num
  have e3' : (dbl (-3)).val = -3 := by rw [dbl_val (-3) (by norm_num)]; norm_num
  have hd : |(dbl (-3)).val - (dbl 3).val| = 6 := by rw [e3, e3']; norm_num
  have hu : binary64.u = 2 ^ (-53 : ℤ) := rfl
  have hη : binary64.η ≤ 2 ^ (-80 : ℤ) := zpow_le_zpow_right₀ (by norm_num) (by norm_num)
  obtain ⟨v, hv, h1, h2⟩ := C73_angle_last_partial (dbl 3) (dbl (-3)) 10 (by norm_num) (by norm_num)
    (by rw [hd]; norm_num) (by rw [hd, hu]; norm_num)
  rw [hd, hu, e3, e3', abs_of_pos (by norm_num : (0 : ℝ) < 3)] at h1 h2
  refine ⟨v, hv, h1.trans ?_, h2.trans ?_⟩ <;> norm_num at hη ⊢ <;> linarith

end Trajopt.Props
