import Verif.Lemmas.Ieee
import Verif.Spec.IeeeSpecial

/-!
# C105: doubles behave as IEEE 754 and C prescribe

Every operation of the scalars that C96 is about, on all doubles: rounding, overflow, infinities, signed zeros, NaN.
-/

set_option autoImplicit false

namespace Trajopt.Props

open Trajopt Spec Ieee

theorem rne_nearest (y : ℝ) (n : ℤ) : |(rne y : ℝ) - y| ≤ |n - y| ∧
    (|(rne y : ℝ) - y| = |n - y| → n ≠ rne y → Even (rne y) ∧ |(n : ℝ) - rne y| = 1) := by
  have h0 := Int.fract_nonneg y
  have h1 := Int.fract_lt_one y
  have hf := Int.floor_add_fract y
  have he := rne_error y
  by_cases hn : n = rne y
  · rw [hn]; exact ⟨le_rfl, fun _ h => absurd rfl h⟩
  have hd : (1 : ℝ) ≤ |(n : ℝ) - rne y| := by
    have : (1 : ℤ) ≤ |n - rne y| := Int.one_le_abs (sub_ne_zero.mpr hn)
    exact_mod_cast this
  have ht : |(n : ℝ) - rne y| ≤ |(n : ℝ) - y| + |(rne y : ℝ) - y| := by
    have := abs_sub_abs_le_abs_sub ((n : ℝ) - y) (rne y - y)
    calc |(n : ℝ) - rne y| = |((n : ℝ) - y) - (rne y - y)| := by ring_nf
      _ ≤ _ := abs_sub _ _
  refine ⟨by linarith, fun heq _ => ?_⟩
  have h2 : |(rne y : ℝ) - y| = 1 / 2 := by linarith
  refine ⟨?_, by linarith⟩
  unfold rne at h2 ⊢
  split_ifs at h2 ⊢ with h3 h4 h5
  · rw [abs_of_nonpos (by linarith)] at h2; linarith
  · push_cast at h2
    rw [abs_of_nonneg (by linarith)] at h2; linarith
  · exact h5
  · exact (Int.not_even_iff_odd.mp h5).add_one

/-- A double that is not smaller is a multiple of the last bit. -/
theorem multiple {x d : ℝ} (hd : rnd64 d = d) (h : ulpExp x = -1074 ∨ 2 ^ Int.log 2 |x| ≤ |d|) :
    ∃ n : ℤ, d = n * 2 ^ ulpExp x := by
  have hle : ulpExp x ≤ ulpExp d := by
    rcases h with h | h
    · rw [h]; exact le_max_right _ _
    · unfold ulpExp
      have : Int.log 2 |x| ≤ Int.log 2 |d| := by
        rw [← Int.zpow_le_iff_le_log (by norm_num) ((zpow_pos2 _).trans_le h)]
        exact_mod_cast h
      omega
  refine ⟨rne (d / 2 ^ ulpExp d) * 2 ^ (ulpExp d - ulpExp x).toNat, ?_⟩
  conv_lhs => rw [← hd, rnd64]
  push_cast
  rw [mul_assoc, ← zpow_natCast, Int.toNat_of_nonneg (by omega), ← zpow_add₀ (by norm_num)]
  congr 2; omega

theorem binary64_iff {x : ℝ} : Binary64 x ↔ rnd64 x = x := by
  constructor
  · rintro ⟨m, e, hm, he, rfl⟩
    exact rnd64_fix hm he
  · intro h
    by_cases h0 : x = 0
    · exact ⟨0, 0, by norm_num, by norm_num, by simp [h0]⟩
    refine ⟨rne (x / 2 ^ ulpExp x), ulpExp x, ?_, le_max_right _ _, h.symm⟩
    have h1 : |(rne (x / 2 ^ ulpExp x) : ℝ)| * 2 ^ ulpExp x = |x| := by
      conv_rhs => rw [← h, rnd64, abs_mul, abs_of_pos (zpow_pos2 (ulpExp x))]
    have h2 : |(rne (x / 2 ^ ulpExp x) : ℝ)| * 2 ^ ulpExp x < 2 ^ (53 : ℤ) * 2 ^ ulpExp x := by
      rw [h1, ← zpow_add₀ (by norm_num)]
      refine lt_zpow_log.trans_le (zpow_le_zpow_right₀ (by norm_num) ?_)
      rw [ulpExp]; omega
    have h3 := lt_of_mul_lt_mul_right h2 (zpow_pos2 _).le
    have h4 : ((|rne (x / 2 ^ ulpExp x)| : ℤ) : ℝ) < ((2 ^ 53 : ℤ) : ℝ) := by
      rw [Int.cast_abs]; exact h3.trans_le (by norm_num)
    exact_mod_cast h4

theorem nearest_pos {x d : ℝ} (hx : 0 < x) (hd : rnd64 d = d) : |rnd64 x - x| ≤ |d - x| ∧
    (|rnd64 x - x| = |d - x| → d ≠ rnd64 x → ∃ n : ℤ, rnd64 x = 2 * n * |d - rnd64 x|) := by
  have hu := zpow_pos2 (ulpExp x)
  have hlog := zpow_log_le hx.ne'
  rw [abs_of_pos hx] at hlog
  have scale : ∀ n : ℤ, |(n : ℝ) * 2 ^ ulpExp x - x| = |n - x / 2 ^ ulpExp x| * 2 ^ ulpExp x := by
    intro n
    rw [← abs_of_pos hu, ← abs_mul, abs_of_pos hu, sub_mul, div_mul_cancel₀ _ hu.ne']
  have mult : ∀ n : ℤ, |rnd64 x - x| ≤ |(n : ℝ) * 2 ^ ulpExp x - x| := by
    intro n
    rw [rnd64, scale, scale]
    exact mul_le_mul_of_nonneg_right (rne_nearest _ n).1 hu.le
  by_cases hc : ulpExp x = -1074 ∨ 2 ^ Int.log 2 |x| ≤ |d| ∧ 0 ≤ d
  · obtain ⟨n, rfl⟩ := multiple hd (hc.imp_right And.left)
    refine ⟨mult n, fun heq hne => ?_⟩
    rw [rnd64, scale, scale] at heq
    have hk := (rne_nearest (x / 2 ^ ulpExp x) n).2 (mul_right_cancel₀ hu.ne' heq) (by
      rintro rfl; exact hne rfl)
    obtain ⟨m, hm⟩ := hk.1
    refine ⟨m, ?_⟩
    have : |(n : ℝ) * 2 ^ ulpExp x - rnd64 x| = 2 ^ ulpExp x := by
      rw [rnd64, ← sub_mul, abs_mul, hk.2, one_mul, abs_of_pos hu]
    rw [this, rnd64, hm]
    push_cast; ring
  · push Not at hc
    have hlt : d < 2 ^ Int.log 2 x := by
      rw [abs_of_pos hx] at hc
      rcases lt_or_ge d 0 with h | h
      · exact h.trans (zpow_pos2 _)
      · by_contra hge
        have := hc.2 ((not_lt.mp hge).trans (le_abs_self d))
        linarith
    obtain ⟨n, hn⟩ := multiple (x := x) (d := 2 ^ Int.log 2 x) (by
      have := rnd64_fix (m := 1) (e := Int.log 2 x) (by norm_num) (by
        have := hc.1
        unfold ulpExp at this
        rw [abs_of_pos hx] at this
        omega)
      simpa using this) (.inr (by rw [abs_of_pos hx, abs_of_pos (zpow_pos2 _)]))
    have h1 := mult n
    rw [← hn, abs_of_nonpos (a := (2 : ℝ) ^ Int.log 2 x - x) (by linarith)] at h1
    have h2 : |d - x| = x - d := by rw [abs_of_nonpos (by linarith)]; ring
    rw [h2]
    exact ⟨by linarith, fun h => by linarith⟩

/-- C105: rounding is to the nearest number of the format, ties to even; there is only one such number. -/
theorem C105_rounding (x : ℝ) : RoundsTo x (rnd64 x) ∧ ∀ r, RoundsTo x r → r = rnd64 x := by
  have key : RoundsTo x (rnd64 x) := by
    refine ⟨binary64_iff.mpr (rnd64_idem x), fun d hd => ?_⟩
    rw [binary64_iff] at hd
    rcases lt_trichotomy x 0 with h | rfl | h
    · have := nearest_pos (x := -x) (d := -d) (by linarith) (by rw [rnd64_neg, hd])
      rw [rnd64_neg, ← neg_sub', abs_neg, ← neg_sub', abs_neg, ← neg_sub', abs_neg] at this
      refine ⟨this.1, fun h1 h2 => ?_⟩
      obtain ⟨n, hn⟩ := this.2 h1 (by simpa using h2)
      exact ⟨-n, by push_cast; linarith⟩
    · rw [rnd64_zero]
      refine ⟨by simp, fun _ _ => ⟨0, by simp⟩⟩
    · exact nearest_pos h hd
  refine ⟨key, fun r hr => ?_⟩
  by_contra hne
  have h1 := key.2 r hr.1
  have h2 := hr.2 _ key.1
  have heq := le_antisymm h1.1 h2.1
  obtain ⟨m, hm⟩ := h1.2 heq hne
  obtain ⟨n, hn⟩ := h2.2 heq.symm (Ne.symm hne)
  rw [abs_sub_comm] at hn
  have hg : 0 < |r - rnd64 x| := abs_pos.mpr (sub_ne_zero.mpr hne)
  have h3 : r - rnd64 x = 2 * (n - m) * |r - rnd64 x| := by linear_combination hn - hm
  have h4 : |r - rnd64 x| = |2 * ((n : ℝ) - m)| * |r - rnd64 x| := by
    conv_lhs => rw [h3, abs_mul, abs_abs]
  have h5 : (1 : ℝ) = |2 * ((n : ℝ) - m)| := by
    have := mul_right_cancel₀ hg.ne' ((one_mul _).trans h4)
    exact this
  have h6 : (1 : ℤ) = |2 * (n - m)| := by exact_mod_cast h5
  rcases abs_choice (2 * (n - m)) with h | h <;> omega

theorem over {x : ℝ} (h : ¬ |rnd64 x| < 2 ^ 1024) : x ≠ 0 ∧ (2 ^ 1024 ≤ rnd64 x → ¬ x < 0) ∧
    (rnd64 x ≤ -2 ^ 1024 → x < 0) := by
  refine ⟨?_, fun h1 h2 => ?_, fun h1 => ?_⟩
  · rintro rfl
    rw [rnd64_zero, abs_zero] at h
    exact h (by positivity)
  · have := rnd64_mono h2.le
    rw [rnd64_zero] at this
    exact absurd (h1.trans this) (not_le.mpr (by positivity))
  · by_contra h2
    have := (rnd64_nonneg (not_lt.mp h2)).trans h1
    exact absurd (neg_nonneg.mp this) (not_le.mpr (by positivity))

theorem rounded_top (r : EReal) : Rounded ⊤ r ↔ r = ⊤ := Iff.rfl

theorem rounded_bot (r : EReal) : Rounded ⊥ r ↔ r = ⊥ := Iff.rfl

theorem number_fin {s : Bool} {m : ℝ} {h} : number (fin s m h) = some ((signed s m : ℝ) : EReal) := rfl

theorem returns_round (z : Bool) (x : ℝ) : Returns (some (x : EReal)) (round z x) := by
  by_cases h : |rnd64 x| < 2 ^ 1024
  · have hv := value_round (z := z) h
    obtain ⟨s, m, hm, he⟩ := (finite_round (z := z) h).exists
    rw [he] at hv ⊢
    refine ⟨rnd64 x, (C105_rounding x).1, fun _ => ?_, fun h1 => ?_, fun h1 => ?_⟩
    · change ((signed s m : ℝ) : EReal) = _
      rw [show signed s m = rnd64 x from hv]
    · exact absurd (h1.trans (le_abs_self _)) (not_le.mpr h)
    · exact absurd ((le_neg.mp h1).trans (neg_le_abs _)) (not_le.mpr h)
  · have ho := over h
    rw [Ieee.round, dif_neg h]
    refine ⟨rnd64 x, (C105_rounding x).1, fun h1 => absurd h1 h, fun h1 => ?_, fun h1 => ?_⟩
    · rw [decide_eq_false (ho.2.1 h1)]; rfl
    · rw [decide_eq_true (ho.2.2 h1)]; rfl

open Classical in
theorem minus_round (z : Bool) (x : ℝ) : minus (round z x) = if x = 0 then z else decide (x < 0) := by
  rw [Ieee.round]
  split_ifs with h h0 h0
  · rfl
  · rfl
  · exact absurd h0 (over h).1
  · rfl

/-- C105: the data of a finite double is a number of the format, and every such number below `2 ^ 1024` is one. -/
theorem C105_format (x : ℝ) : (∃ a, number a = some (x : EReal)) ↔ Binary64 x ∧ |x| < 2 ^ 1024 := by
  constructor
  · rintro ⟨a, ha⟩
    rcases a with _ | s | ⟨s, m, h⟩
    · simp [number] at ha
    · cases s <;> simp [number] at ha
    · have hx : signed s m = x := by simpa [number_fin] using ha
      rw [binary64_iff, ← hx]
      cases s
      · exact ⟨h.2.1, by simpa [signed, abs_of_nonneg h.1] using h.2.2⟩
      · exact ⟨by simpa [signed, rnd64_neg] using h.2.1, by simpa [signed, abs_of_nonneg h.1] using h.2.2⟩
  · rintro ⟨h1, h2⟩
    rw [binary64_iff] at h1
    have h3 : |rnd64 x| < 2 ^ 1024 := by rwa [h1]
    obtain ⟨s, m, hm, he⟩ := (finite_round (z := false) h3).exists
    refine ⟨round false x, ?_⟩
    have hv := value_round (z := false) h3
    rw [he] at hv ⊢
    rw [number_fin, show signed s m = rnd64 x from hv, h1]

theorem signed_ne {s : Bool} {m : ℝ} (h : m ≠ 0) : signed s m ≠ 0 := fun h' => h (signed_zero_iff.mp h')

theorem signed_lt {s : Bool} {m : ℝ} (h0 : 0 ≤ m) (h : m ≠ 0) : signed s m < 0 ↔ s = true := by
  have : 0 < m := lt_of_le_of_ne h0 h.symm
  cases s <;> simp [signed] <;> linarith

theorem signed_pos {s : Bool} {m : ℝ} (h0 : 0 ≤ m) (h : m ≠ 0) : 0 < signed s m ↔ s = false := by
  have : 0 < m := lt_of_le_of_ne h0 h.symm
  cases s <;> simp [signed] <;> linarith

/-- C105: sums.  Opposite infinities have none; a sum that is exactly zero is negative if both terms are. -/
theorem C105_add (a b : Ieee) :
    Returns (op (fun x y => x = ⊤ ∧ y = ⊥ ∨ x = ⊥ ∧ y = ⊤) (· + ·) (number a) (number b)) (a + b) ∧
    ∀ x y, number a = some x → number b = some y → number (a + b) ≠ none →
      (minus (a + b) = true ↔ x + y < 0 ∨ x + y = 0 ∧ minus a = true ∧ minus b = true) := by
  change Returns _ (Ieee.add a b) ∧ ∀ x y, _ → _ → number (Ieee.add a b) ≠ none → (minus (Ieee.add a b) = true ↔ _)
  rcases a with _ | s | ⟨s, m, hm⟩ <;> rcases b with _ | t | ⟨t, n, hn⟩
  case inf.inf => cases s <;> cases t <;> simp [Ieee.add, number, op, Returns, rounded_top, rounded_bot, minus]
  case inf.fin => cases s <;> simp [Ieee.add, number, op, Returns, rounded_top, rounded_bot, minus]
  case fin.inf => cases t <;> simp [Ieee.add, number, op, Returns, rounded_top, rounded_bot, minus]
  case fin.fin =>
    rw [number_fin, number_fin]
    constructor
    · have := returns_round (s && t) (signed s m + signed t n)
      simpa [op, Ieee.add] using this
    · intro x y hx hy _
      obtain rfl := Option.some.inj hx
      obtain rfl := Option.some.inj hy
      change minus (round (s && t) (signed s m + signed t n)) = true ↔ _
      rw [minus_round, ← EReal.coe_add]
      by_cases h0 : signed s m + signed t n = 0
      · simp [h0, minus]
      · simp [h0, minus, -EReal.coe_add]
  all_goals simp [Ieee.add, number, op, Returns]

/-- C105: products.  Zero times infinity has none; the sign is that of the factors, also of zero. -/
theorem C105_mul (a b : Ieee) :
    Returns (op (fun x y => x = 0 ∧ Endless y ∨ Endless x ∧ y = 0) (· * ·) (number a) (number b)) (a * b) ∧
    (number (a * b) ≠ none → minus (a * b) = (minus a != minus b)) := by
  change Returns _ (Ieee.mul a b) ∧ (number (Ieee.mul a b) ≠ none → minus (Ieee.mul a b) = _)
  rcases a with _ | s | ⟨s, m, hm⟩ <;> rcases b with _ | t | ⟨t, n, hn⟩
  case inf.inf => cases s <;> cases t <;> simp [Ieee.mul, number, op, Returns, rounded_top, rounded_bot, minus, Endless]
  case inf.fin =>
    rw [number_fin]
    by_cases h0 : n = 0
    · simp [Ieee.mul, number, op, Returns, h0, Endless, signed]
    · have h1 := signed_ne (s := t) h0
      constructor
      · cases t
        · have h2 := (signed_pos (s := false) hn.1 h0).mpr rfl
          cases s <;> simp [Ieee.mul, number, op, Returns, h0, Endless, h1, EReal.top_mul_coe_of_pos h2,
            EReal.bot_mul_coe_of_pos h2, rounded_top, rounded_bot]
        · have h2 := (signed_lt (s := true) hn.1 h0).mpr rfl
          cases s <;> simp [Ieee.mul, number, op, Returns, h0, Endless, h1, EReal.top_mul_coe_of_neg h2,
            EReal.bot_mul_coe_of_neg h2, rounded_top, rounded_bot]
      · simp [Ieee.mul, h0, minus]
  case fin.inf =>
    rw [number_fin]
    by_cases h0 : m = 0
    · simp [Ieee.mul, number, op, Returns, h0, Endless, signed]
    · have h1 := signed_ne (s := s) h0
      constructor
      · cases s
        · have h2 := (signed_pos (s := false) hm.1 h0).mpr rfl
          cases t <;> simp [Ieee.mul, number, op, Returns, h0, Endless, h1, EReal.coe_mul_top_of_pos h2,
            EReal.coe_mul_bot_of_pos h2, rounded_top, rounded_bot]
        · have h2 := (signed_lt (s := true) hm.1 h0).mpr rfl
          cases t <;> simp [Ieee.mul, number, op, Returns, h0, Endless, h1, EReal.coe_mul_top_of_neg h2,
            EReal.coe_mul_bot_of_neg h2, rounded_top, rounded_bot]
      · simp [Ieee.mul, h0, minus]
  case fin.fin =>
    rw [number_fin, number_fin]
    constructor
    · have := returns_round (s != t) (signed s m * signed t n)
      rw [EReal.coe_mul] at this
      simpa [op, Ieee.mul, Endless] using this
    · intro _
      change minus (round (s != t) (signed s m * signed t n)) = _
      rw [minus_round]
      split_ifs with h0
      · rfl
      · have h1 : m ≠ 0 := by rintro rfl; simp [signed] at h0
        have h2 : n ≠ 0 := by rintro rfl; simp [signed] at h0
        have h3 : 0 < m := lt_of_le_of_ne hm.1 h1.symm
        have h4 : 0 < n := lt_of_le_of_ne hn.1 h2.symm
        have h5 := mul_pos h3 h4
        cases s <;> cases t <;> simp [signed, minus] <;> linarith
  all_goals simp [Ieee.mul, number, op, Returns]

/-- C105: quotients.  Zero by zero and infinity by infinity have none; another number by zero is infinite; the sign is
that of the operands, also of zero. -/
theorem C105_div (a b : Ieee) :
    Returns (op (fun x y => x = 0 ∧ y = 0 ∨ Endless x ∧ Endless y) (ratio a b) (number a) (number b)) (a / b) ∧
    (number (a / b) ≠ none → minus (a / b) = (minus a != minus b)) := by
  change Returns _ (Ieee.div a b) ∧ (number (Ieee.div a b) ≠ none → minus (Ieee.div a b) = _)
  rcases a with _ | s | ⟨s, m, hm⟩ <;> rcases b with _ | t | ⟨t, n, hn⟩
  case inf.inf => cases s <;> cases t <;> simp [Ieee.div, number, op, Returns, Endless]
  case inf.fin =>
    rw [number_fin]
    refine ⟨?_, fun _ => rfl⟩
    by_cases h0 : n = 0
    · cases s <;> cases t <;>
        simp [Ieee.div, number, op, Returns, h0, Endless, signed, ratio, minus, rounded_top, rounded_bot]
    · have h1 := signed_ne (s := t) h0
      cases t
      · have h2 := (signed_pos (s := false) hn.1 h0).mpr rfl
        cases s <;> simp [Ieee.div, number, op, Returns, Endless, h1, ratio, rounded_top, rounded_bot,
          EReal.top_div_of_pos_ne_top, EReal.bot_div_of_pos_ne_top, h2]
      · have h2 := (signed_lt (s := true) hn.1 h0).mpr rfl
        cases s <;> simp [Ieee.div, number, op, Returns, Endless, h1, ratio, rounded_top, rounded_bot,
          EReal.top_div_of_neg_ne_bot, EReal.bot_div_of_neg_ne_bot, h2]
  case fin.inf =>
    rw [number_fin]
    constructor
    · have := returns_round (s != t) 0
      rw [EReal.coe_zero] at this
      cases t <;> simpa [Ieee.div, number, op, Endless, ratio] using this
    · intro _
      change minus (round (s != t) 0) = _
      rw [minus_round, if_pos rfl]; rfl
  case fin.fin =>
    rw [number_fin, number_fin]
    by_cases h0 : n = 0
    · by_cases h1 : m = 0
      · simp [Ieee.div, number, op, Returns, h0, h1, signed]
      · have h2 := signed_ne (s := s) h1
        subst h0
        refine ⟨?_, fun _ => by simp [Ieee.div, h1, minus]⟩
        cases s <;> cases t <;>
          simp [Ieee.div, number, op, Returns, h1, ratio, rounded_top, rounded_bot, minus, signed, Endless]
    · have h2 := signed_ne (s := t) h0
      constructor
      · have := returns_round (s != t) (signed s m / signed t n)
        rw [EReal.coe_div] at this
        simpa [op, Ieee.div, Endless, h0, h2, ratio] using this
      · intro _
        simp only [Ieee.div, h0, if_false]
        rw [minus_round]
        split_ifs with h1
        · rfl
        · have h1 : m ≠ 0 := by rintro rfl; simp [signed] at h1
          have h3 : 0 < m := lt_of_le_of_ne hm.1 h1.symm
          have h4 : 0 < n := lt_of_le_of_ne hn.1 (Ne.symm h0)
          have h5 := div_pos h3 h4
          cases s <;> cases t <;> simp [signed, minus, neg_div, div_neg] <;> linarith
  all_goals simp [Ieee.div, number, op, Returns]

/-- C105: comparisons are those of the extended reals, so zeros are equal; with NaN they are false. -/
theorem C105_compare (a b : Ieee) :
    (Dbl.lt a b = true ↔ ∃ x y, number a = some x ∧ number b = some y ∧ x < y) ∧
    (Dbl.le a b = true ↔ ∃ x y, number a = some x ∧ number b = some y ∧ x ≤ y) ∧
    (Dbl.eq a b = true ↔ ∃ x y, number a = some x ∧ number b = some y ∧ x = y) := by
  change (Ieee.lt a b = true ↔ _) ∧ (Ieee.le a b = true ↔ _) ∧ (Ieee.eq a b = true ↔ _)
  rcases a with _ | s | ⟨s, m, hm⟩ <;> rcases b with _ | t | ⟨t, n, hn⟩
  case inf.inf => cases s <;> cases t <;> simp [number, Ieee.lt, Ieee.le, Ieee.eq]
  case inf.fin => cases s <;> simp [number, Ieee.lt, Ieee.le, Ieee.eq]
  case fin.inf => cases t <;> simp [number, Ieee.lt, Ieee.le, Ieee.eq]
  case fin.fin =>
    simp [number_fin, Ieee.lt, Ieee.le, Ieee.eq, le_iff_lt_or_eq]
    exact eq_comm
  all_goals simp [number, Ieee.lt, Ieee.le, Ieee.eq]

/-- C105: negation changes the sign, also of zero; a difference is the sum with the negative. -/
theorem C105_neg (a b : Ieee) : a - b = a + -b ∧ number (-a) = (number a).map (- ·) ∧
    (number a ≠ none → minus (-a) = !minus a) := by
  refine ⟨rfl, ?_⟩
  change number (Ieee.neg a) = _ ∧ (_ → minus (Ieee.neg a) = _)
  rcases a with _ | s | ⟨s, m, hm⟩
  · simp [Ieee.neg, number]
  · cases s <;> simp [Ieee.neg, number, minus]
  · simp [Ieee.neg, number_fin, signed_not, minus]

/-- C105: absolute values are not negative, also that of zero. -/
theorem C105_abs (a : Ieee) : number (Dbl.abs a) = (number a).map (fun x => max x (-x)) ∧
    minus (Dbl.abs a) = false := by
  change number (Ieee.abs a) = _ ∧ minus (Ieee.abs a) = _
  rcases a with _ | s | ⟨s, m, hm⟩
  · simp [Ieee.abs, number, minus]
  · cases s <;> simp [Ieee.abs, number, minus]
  · refine ⟨?_, rfl⟩
    simp only [Ieee.abs, number_fin, Option.map_some, Option.some.injEq]
    rw [← EReal.coe_neg, ← EReal.coe_strictMono.monotone.map_max, EReal.coe_eq_coe_iff]
    have := hm.1
    cases s <;> simp [signed] <;> linarith

/-- C105: `hypot` is infinite if an argument is, even if the other is NaN. -/
theorem C105_hypot (a b : Ieee) :
    ((∃ x, (number a = some x ∨ number b = some x) ∧ Endless x) → number (Num.hypot a b) = some ⊤) ∧
    (∀ x y : ℝ, number a = some (x : EReal) → number b = some (y : EReal) →
      Returns (some (√(x ^ 2 + y ^ 2) : ℝ)) (Num.hypot a b)) ∧
    ((¬ ∃ x, (number a = some x ∨ number b = some x) ∧ Endless x) → (number a = none ∨ number b = none) →
      number (Num.hypot a b) = none) ∧
    minus (Num.hypot a b) = false := by
  change (_ → number (Ieee.hypot a b) = _) ∧ (∀ x y, _ → _ → Returns _ (Ieee.hypot a b)) ∧
    (_ → _ → number (Ieee.hypot a b) = _) ∧ minus (Ieee.hypot a b) = _
  rcases a with _ | s | ⟨s, m, hm⟩ <;> rcases b with _ | t | ⟨t, n, hn⟩
  case inf.inf => cases s <;> simp [number, Ieee.hypot, Endless, minus]
  case inf.fin => cases s <;> simp [number, Ieee.hypot, Endless, minus]
  case fin.inf => cases t <;> simp [number, Ieee.hypot, Endless, minus]
  case fin.fin =>
    rw [number_fin, number_fin]
    have h0 : (0 : ℝ) ≤ Num.hypot (signed s m) (signed t n) := Real.sqrt_nonneg _
    refine ⟨by simp [Endless], ?_, by simp [Endless], ?_⟩
    · intro x y hx hy
      simp only [Option.some.injEq, EReal.coe_eq_coe_iff] at hx hy
      have := returns_round false (Num.hypot (signed s m) (signed t n))
      rw [hx, hy] at this
      simpa [Ieee.hypot, hx, hy] using this
    · change minus (round false (Num.hypot (signed s m) (signed t n))) = _
      rw [minus_round]
      split_ifs
      · rfl
      · simp
  all_goals simp [number, Ieee.hypot, Endless, minus]

theorem number_exact (z : Bool) {x : ℝ} (hx : rnd64 x = x) (h : |x| < 2 ^ 1024) :
    number (round z x) = some (x : EReal) := by
  have h3 : |rnd64 x| < 2 ^ 1024 := by rwa [hx]
  obtain ⟨s, m, hm, he⟩ := (finite_round (z := z) h3).exists
  have hv := value_round (z := z) h3
  rw [he] at hv ⊢
  rw [number_fin, show signed s m = rnd64 x from hv, hx]

theorem number_int (z : Bool) (k : ℤ) (h : |k| ≤ 1) : number (round z k) = some ((k : ℝ) : EReal) := by
  refine number_exact z (rnd64_int k (h.trans (by norm_num))) ?_
  have : |(k : ℝ)| ≤ 1 := by exact_mod_cast h
  exact this.trans_lt (one_lt_pow₀ (by norm_num) (by norm_num))

/-- C105: literals and conversions from integers are rounded. -/
theorem C105_literals (q : ℚ) (z : ℤ) : Returns (some ((q : ℝ) : EReal)) (Num.lit q) ∧
    Returns (some ((z : ℝ) : EReal)) (Dbl.ofInt z) ∧ Returns (some (Real.pi : EReal)) Dbl.pi :=
  ⟨returns_round _ _, returns_round _ _, returns_round _ _⟩

open Classical in
/-- C105: Sleipnir's `sign` is -1, 0 or 1, and 1 for NaN. -/
theorem C105_sign (a : Ieee) : number (Num.sign a) =
    some (if ∃ x, number a = some x ∧ x < 0 then -1 else if number a = some 0 then 0 else 1) := by
  have h0 := number_int false 0 (by norm_num)
  have h1 := number_int false 1 (by norm_num)
  have h2 := number_int false (-1) (by norm_num)
  simp only [Int.cast_zero, Int.cast_one, Int.cast_neg, EReal.coe_zero, EReal.coe_one, EReal.coe_neg] at h0 h1 h2
  have hl := (C105_compare a (round false 0)).1
  have he := (C105_compare a (round false 0)).2.2
  change Ieee.lt a _ = true ↔ _ at hl
  change Ieee.eq a _ = true ↔ _ at he
  simp only [h0, Option.some.injEq, exists_and_left, ↓existsAndEq, true_and, and_true] at hl he
  change number (Ieee.sign a) = _
  unfold Ieee.sign
  simp only [hl, he]
  split_ifs
  · exact h2
  · exact h0
  · exact h1

theorem floor_exact {m : ℝ} (h : rnd64 m = m) (h0 : 0 ≤ m) : rnd64 ⌊m⌋ = ⌊m⌋ := by
  obtain ⟨k, e, hk, he, rfl⟩ := binary64_iff.mpr h
  rcases le_or_gt 0 e with h1 | h1
  · obtain ⟨n, rfl⟩ := Int.eq_ofNat_of_zero_le h1
    have : (k : ℝ) * 2 ^ (n : ℤ) = ((k * 2 ^ n : ℤ) : ℝ) := by push_cast; rw [zpow_natCast]
    rw [this, Int.floor_intCast, ← this]
    exact h
  · apply rnd64_int
    rw [abs_of_nonneg (Int.floor_nonneg.mpr h0)]
    have h2 : (k : ℝ) * 2 ^ e ≤ ((2 ^ 53 : ℤ) : ℝ) := by
      calc (k : ℝ) * 2 ^ e ≤ |(k : ℝ)| * 1 := by
            gcongr
            · exact le_abs_self _
            · exact zpow_le_one_of_nonpos₀ (by norm_num) h1.le
        _ ≤ _ := by
            rw [mul_one]
            exact_mod_cast hk.le
    exact Int.cast_le (R := ℝ).mp ((Int.floor_le _).trans h2)

/-- C105: `trunc` drops the fraction, exactly, and keeps the sign, also of zero. -/
theorem C105_trunc (a : Ieee) : (∀ x : ℝ, number a = some (x : EReal) → ∃ z : ℤ,
      number (Dbl.trunc a) = some ((z : ℝ) : EReal) ∧ |(z : ℝ)| ≤ |x| ∧ |x| < |(z : ℝ)| + 1 ∧ 0 ≤ z * x) ∧
    ((∀ x : ℝ, number a ≠ some (x : EReal)) → Dbl.trunc a = a) ∧ minus (Dbl.trunc a) = minus a := by
  change (∀ x, _ → ∃ z : ℤ, number (Ieee.trunc a) = _ ∧ _) ∧ (_ → Ieee.trunc a = a) ∧ minus (Ieee.trunc a) = _
  rcases a with _ | s | ⟨s, m, hm⟩
  · simp [number, Ieee.trunc]
  · cases s <;> simp [number, Ieee.trunc]
  · have hf := floor_exact hm.2.1 hm.1
    have h1 := Int.floor_le m
    have h2 := Int.lt_floor_add_one m
    have h0 : (0 : ℝ) ≤ ⌊m⌋ := by exact_mod_cast Int.floor_nonneg.mpr hm.1
    refine ⟨fun x hx => ⟨if s then -⌊m⌋ else ⌊m⌋, ?_, ?_⟩, fun h => absurd rfl (h (signed s m)), ?_⟩
    · have := number_exact s (x := signed s ⌊m⌋) (by cases s <;> simp [signed, rnd64_neg, hf]) (by
        have : |signed s ⌊m⌋| = ⌊m⌋ := by cases s <;> simp only [signed, Bool.false_eq_true, if_false, if_true, abs_neg, abs_of_nonneg h0]
        rw [this]
        exact h1.trans_lt hm.2.2)
      simp only [Ieee.trunc]
      rw [this]
      cases s <;> simp [signed]
    · obtain rfl : signed s m = x := by simpa [number_fin] using hx
      have h3 := mul_nonneg h0 hm.1
      cases s
      · simp only [signed, Bool.false_eq_true, if_false, abs_of_nonneg h0, abs_of_nonneg hm.1]
        exact ⟨h1, h2, h3⟩
      · simp only [signed, if_true, Int.cast_neg, abs_neg, abs_of_nonneg h0, abs_of_nonneg hm.1, neg_mul_neg]
        exact ⟨h1, h2, h3⟩
    · change minus (round s (signed s ⌊m⌋)) = s
      rw [minus_round]
      split_ifs with h
      · rfl
      · rcases h0.lt_or_eq with h4 | h4
        · have h5 : (0 : ℤ) < ⌊m⌋ := by exact_mod_cast h4
          cases s <;> simp [signed] <;> omega
        · exact absurd (by simp [signed, ← h4]) h

/-- C105: `sin` and `cos` of finite numbers are rounded, the sine of zero keeps the sign; of infinities they are NaN. -/
theorem C105_sin_cos (a : Ieee) : (∀ x : ℝ, number a = some (x : EReal) →
      Returns (some (Real.sin x : EReal)) (Num.sin a) ∧ Returns (some (Real.cos x : EReal)) (Num.cos a)) ∧
    ((∀ x : ℝ, number a ≠ some (x : EReal)) → number (Num.sin a) = none ∧ number (Num.cos a) = none) ∧
    (number a = some 0 → minus (Num.sin a) = minus a) := by
  change (∀ x, _ → Returns _ (Ieee.sin a) ∧ Returns _ (Ieee.cos a)) ∧
    (_ → number (Ieee.sin a) = _ ∧ number (Ieee.cos a) = _) ∧ (_ → minus (Ieee.sin a) = _)
  rcases a with _ | s | ⟨s, m, hm⟩
  · simp [number, Ieee.sin, Ieee.cos]
  · cases s <;> simp [number, Ieee.sin, Ieee.cos]
  · refine ⟨fun x hx => ?_, fun h => absurd rfl (h (signed s m)), fun h => ?_⟩
    · obtain rfl : signed s m = x := by simpa [number_fin] using hx
      exact ⟨returns_round _ _, returns_round _ _⟩
    · have : signed s m = 0 := by simpa [number_fin] using h
      change minus (round s (Real.sin (signed s m))) = s
      rw [minus_round, this, Real.sin_zero, if_pos rfl]

/-- C105: `atan2` follows C's table; its sign is that of `y`. -/
theorem C105_atan2 (a b : Ieee) :
    (number a = none ∨ number b = none → number (Num.atan2 a b) = none) ∧
    (number a ≠ none → number b ≠ none → minus (Num.atan2 a b) = minus a) ∧
    (∀ θ : ℝ, number b ≠ none → SpecialAngle (Dbl.abs a) b θ →
      Returns (some ((if minus a then -θ else θ : ℝ) : EReal)) (Num.atan2 a b)) ∧
    (∀ x y : ℝ, y ≠ 0 → number a = some (y : EReal) → number b = some (x : EReal) →
      Returns (some (Complex.arg ⟨x, y⟩ : EReal)) (Num.atan2 a b)) := by
  change (_ → number (Ieee.atan2 a b) = _) ∧ (_ → _ → minus (Ieee.atan2 a b) = _) ∧
    (∀ θ, _ → SpecialAngle (Ieee.abs a) b θ → Returns _ (Ieee.atan2 a b)) ∧
    (∀ x y, _ → _ → _ → Returns _ (Ieee.atan2 a b))
  have hpi := Real.pi_pos
  have sg : ∀ (s : Bool) (θ : ℝ), 0 ≤ θ → minus (round s (signed s θ)) = s := by
    intro s θ h
    rw [minus_round]
    split_ifs with h0
    · rfl
    · rcases h.lt_or_eq with h4 | h4
      · cases s <;> simp [signed] <;> linarith
      · exact absurd (by simp [signed, ← h4]) h0
  have rt : ∀ (s : Bool) (θ : ℝ), Returns (some ((if s then -θ else θ : ℝ) : EReal)) (round s (signed s θ)) :=
    fun s θ => returns_round _ _
  have z : ∀ s : Bool, signed s 0 = 0 := by intro s; cases s <;> simp [signed]
  rcases a with _ | s | ⟨s, y, hy⟩
  · refine ⟨by simp [Ieee.atan2, number], by simp [number], ?_, by simp [number]⟩
    intro θ _ h
    cases h <;> simp_all [Ieee.abs, number]
  · rcases b with _ | t | ⟨t, x, hx⟩
    · simp [Ieee.atan2, number]
    · refine ⟨by simp [number], fun _ _ => ?_, fun θ _ h => ?_, fun x y _ h => by cases s <;> simp [number] at h⟩
      · exact sg s _ (by split_ifs <;> positivity)
      · cases h with
        | zeroBehind h | zeroAhead h | ahead h | behind h => simp [Ieee.abs, number] at h
        | up _ h => cases t <;> simp [number] at h
        | upAhead _ h =>
          cases t
          · exact rt s _
          · simp [number] at h
        | upBehind _ h =>
          cases t
          · simp [number] at h
          · exact rt s _
    · refine ⟨by simp [number], fun _ _ => ?_, fun θ _ h => ?_, fun x y _ h => by cases s <;> simp [number] at h⟩
      · exact sg s _ (by positivity)
      · cases h with
        | zeroBehind h | zeroAhead h | ahead h | behind h => simp [Ieee.abs, number] at h
        | up _ _ => exact rt s _
        | upAhead _ h | upBehind _ h => simp [number_fin] at h
  · rcases b with _ | t | ⟨t, x, hx⟩
    · simp [Ieee.atan2, number]
    · have e : Ieee.atan2 (fin s y hy) (inf t) = round s (signed s (if t then Real.pi else 0)) := by
        cases t <;> simp [Ieee.atan2, z]
      rw [e]
      refine ⟨by simp [number], fun _ _ => ?_, fun θ _ h => ?_, fun x y _ _ h => by cases t <;> simp [number] at h⟩
      · exact sg s _ (by split_ifs <;> positivity)
      · cases h with
        | zeroBehind _ h =>
          cases t
          · simp [minus] at h
          · exact rt s _
        | zeroAhead _ h =>
          cases t
          · exact rt s _
          · simp [minus] at h
        | ahead _ h =>
          cases t
          · exact rt s _
          · simp [number] at h
        | behind _ h =>
          cases t
          · simp [number] at h
          · exact rt s _
        | up h | upAhead h | upBehind h => simp [Ieee.abs, number_fin] at h
    · by_cases h0 : y = 0
      · have e : Ieee.atan2 (fin s y hy) (fin t x hx) = round s (signed s (if t then Real.pi else 0)) := by
          cases t <;> simp [Ieee.atan2, z, h0]
        rw [e]
        refine ⟨by simp [number], fun _ _ => ?_, fun θ _ h => ?_, fun x' y' h _ => ?_⟩
        · exact sg s _ (by split_ifs <;> positivity)
        · cases h with
          | zeroBehind _ h =>
            obtain rfl : t = true := h
            exact rt s _
          | zeroAhead _ h =>
            obtain rfl : t = false := h
            exact rt s _
          | up h | upAhead h | upBehind h => simp [Ieee.abs, number_fin] at h
          | ahead _ h | behind _ h => simp [number_fin] at h
        · rename_i hn
          rw [number_fin, h0, z] at hn
          simp only [Option.some.injEq, EReal.coe_eq_coe_iff] at hn
          exact absurd hn.symm h
      · have e : Ieee.atan2 (fin s y hy) (fin t x hx) = round s (Complex.arg ⟨signed t x, signed s y⟩) := by
          simp only [Ieee.atan2, h0, if_false]
          rfl
        rw [e]
        refine ⟨by simp [number], fun _ _ => ?_, fun θ _ h => ?_, fun x' y' h h1 h2 => ?_⟩
        · have h1 := signed_lt (s := s) hy.1 h0
          have h2 := Complex.arg_neg_iff (z := ⟨signed t x, signed s y⟩)
          rw [minus_round]
          split_ifs with h3
          · rfl
          · change _ = s
            cases s
            · simp only [decide_eq_false_iff_not, h2]
              simpa using h1.not
            · simp only [decide_eq_true_iff, h2]
              simpa using h1
        · cases h with
          | zeroBehind h | zeroAhead h =>
            simp only [Ieee.abs, number_fin, signed, Option.some.injEq] at h
            exact absurd (by exact_mod_cast h) h0
          | up h | upAhead h | upBehind h => simp [Ieee.abs, number_fin] at h
          | ahead _ h | behind _ h => simp [number_fin] at h
        · rw [number_fin] at h1 h2
          simp only [Option.some.injEq, EReal.coe_eq_coe_iff] at h1 h2
          rw [← h1, ← h2]
          exact returns_round _ _

theorem zero_eq : (Num.lit 0 : Ieee) = round false ((0 : ℤ) : ℝ) := by
  change round false ((0 : ℚ) : ℝ) = _
  simp

theorem limit_iff {a : Ieee} {c : Constraint Ieee} :
    Constraint.assertNonneg true a c = .ok c ↔ ∃ x, number a = some x ∧ 0 ≤ x := by
  have h0 := number_int false 0 (by norm_num)
  have := (C105_compare (Num.lit 0) a).2.1
  rw [zero_eq, h0] at this
  rw [Constraint.assertNonneg, zero_eq]
  simp only [Option.some.injEq, exists_and_left, ↓existsAndEq, true_and, Int.cast_zero, EReal.coe_zero] at this
  rw [← this, Int.cast_zero]
  cases Dbl.le (round false (0 : ℝ)) a <;> simp

/-- C105: with asserts, a limit, distance or tolerance is accepted if it is not NaN and not below zero; `-0.0` and
infinity are accepted. -/
theorem C105_limits (a : Ieee) (p q r : Translation2 Ieee) :
    ((∃ c, Constraint.mkAngularVelocityMaxMagnitude true a = .ok c) ↔ ∃ x, number a = some x ∧ 0 ≤ x) ∧
    ((∃ c, Constraint.mkLinearVelocityMaxMagnitude true a = .ok c) ↔ ∃ x, number a = some x ∧ 0 ≤ x) ∧
    ((∃ c, Constraint.mkLinearAccelerationMaxMagnitude true a = .ok c) ↔ ∃ x, number a = some x ∧ 0 ≤ x) ∧
    ((∃ c, Constraint.mkPointAt true p a = .ok c) ↔ ∃ x, number a = some x ∧ 0 ≤ x) ∧
    ((∃ c, Constraint.mkPointPoint true p q a = .ok c) ↔ ∃ x, number a = some x ∧ 0 ≤ x) ∧
    ((∃ c, Constraint.mkPointLine true p q r a = .ok c) ↔ ∃ x, number a = some x ∧ 0 ≤ x) ∧
    ((∃ c, Constraint.mkLinePoint true p q r a = .ok c) ↔ ∃ x, number a = some x ∧ 0 ≤ x) := by
  have key : ∀ c, (∃ c', Constraint.assertNonneg true a c = .ok c') ↔ ∃ x, number a = some x ∧ 0 ≤ x := by
    intro c
    rw [← limit_iff (c := c)]
    refine ⟨fun ⟨c', h⟩ => ?_, fun h => ⟨c, h⟩⟩
    unfold Constraint.assertNonneg at h ⊢
    split_ifs at h ⊢
    rfl
  exact ⟨key _, key _, key _, key _, key _, key _, key _⟩

/-! ### Cases -/

theorem zero_number : number (Num.lit 0 : Ieee) = some 0 ∧ minus (Num.lit 0 : Ieee) = false := by
  rw [zero_eq]
  exact ⟨by simpa using number_int false 0 (by norm_num), by rw [minus_round]; simp⟩

theorem minus_zero : number (-Num.lit 0 : Ieee) = some 0 ∧ minus (-Num.lit 0 : Ieee) = true := by
  have h := (C105_neg (Num.lit 0) (Num.lit 0)).2
  have h0 := zero_number
  exact ⟨by rw [h.1, h0.1]; simp, by rw [h.2 (by rw [h0.1]; simp), h0.2]; rfl⟩

theorem one_number : number (Num.lit 1 : Ieee) = some 1 ∧ minus (Num.lit 1 : Ieee) = false := by
  have e : (Num.lit 1 : Ieee) = round false ((1 : ℤ) : ℝ) := by
    change round false ((1 : ℚ) : ℝ) = _
    simp
  rw [e]
  exact ⟨by simpa using number_int false 1 (by norm_num), by rw [minus_round]; simp⟩

/-- Two numbers equally near: the even multiple is taken. -/
example : RoundsTo (2 ^ 53 + 1) (2 ^ 53) ∧ Binary64 (2 ^ 53 + 2) := by
  have h : rnd64 (2 ^ 53 + 1) = 2 ^ 53 := by
    have hl : Int.log 2 |(2 ^ 53 + 1 : ℝ)| = 53 := by
      rw [abs_of_pos (by positivity), show (2 ^ 53 + 1 : ℝ) = ((2 ^ 53 + 1 : ℕ) : ℝ) by norm_num, Int.log_natCast,
        (Nat.log_eq_iff (m := 53) (by norm_num)).mpr (by norm_num)]
      rfl
    have hf : ⌊(2 ^ 52 + 1 / 2 : ℝ)⌋ = 2 ^ 52 := by
      rw [Int.floor_eq_iff]; norm_num
    rw [rnd64, ulpExp, hl, show (max (53 - 52) (-1074) : ℤ) = 1 by norm_num, zpow_one,
      show (2 ^ 53 + 1 : ℝ) / 2 = 2 ^ 52 + 1 / 2 by norm_num, rne, Int.fract, hf]
    norm_num [Int.even_iff]
  refine ⟨?_, 2 ^ 52 + 1, 1, by norm_num, by norm_num, by norm_num⟩
  have := (C105_rounding (2 ^ 53 + 1)).1
  rwa [h] at this

/-- `1 / -0.0` is minus infinity. -/
example : number ((Num.lit 1 : Ieee) / -Num.lit 0) = some ⊥ := by
  have h := (C105_div (Num.lit 1) (-Num.lit 0)).1
  rw [minus_zero.1, one_number.1] at h
  simp only [op, one_ne_zero, false_and, Endless, ratio, one_number.2, minus_zero.2] at h
  simp only [EReal.zero_ne_top, EReal.zero_ne_bot, or_self, and_false, if_false, if_true, Bool.false_eq_true] at h
  unfold Returns at h
  cases hn : number ((Num.lit 1 : Ieee) / -Num.lit 0) with
  | none => simp [hn] at h
  | some r => simpa [hn, rounded_bot] using h

/-- `-0.0` and infinity are limits, NaN is not. -/
example : (∃ c, Constraint.mkLinearVelocityMaxMagnitude true (-Num.lit 0 : Ieee) = .ok c) ∧
    (∃ c, Constraint.mkLinearVelocityMaxMagnitude true (inf false) = .ok c) ∧
    ¬ ∃ c, Constraint.mkLinearVelocityMaxMagnitude true nan = .ok c :=
  have p : Translation2 Ieee := ⟨nan, nan⟩
  ⟨(C105_limits _ p p p).2.1.mpr ⟨0, minus_zero.1, le_rfl⟩, (C105_limits _ p p p).2.1.mpr ⟨⊤, rfl, le_top⟩,
    fun h => by simpa [number] using (C105_limits _ p p p).2.1.mp h⟩

/-- Straight back is half a turn to the right for `y = -0.0`. -/
example : Returns (some (-Real.pi : EReal)) (Num.atan2 (-Num.lit 0) (-Num.lit 1) : Ieee) := by
  have h1 := (C105_neg (Num.lit 1) (Num.lit 0)).2
  rw [one_number.1] at h1
  have h := (C105_atan2 (-Num.lit 0) (-Num.lit 1)).2.2.1 Real.pi (by rw [h1.1]; simp)
    (.zeroBehind (by rw [(C105_abs _).1, minus_zero.1]; simp) (by rw [h1.2 (by simp), one_number.2]; rfl))
  simpa [minus_zero.2] using h

end Trajopt.Props
