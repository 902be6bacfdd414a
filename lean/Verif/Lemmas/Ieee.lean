import Verif.Spec.Ieee

/-!
# Arithmetic on IEEE doubles that does not overflow
-/

set_option autoImplicit false

namespace Trajopt

namespace Ieee

theorem rnd64_le_zpow {x : ℝ} {k : ℤ} (hk : -1074 ≤ k) (h : x ≤ 2 ^ k) : rnd64 x ≤ 2 ^ k := by
  have := rnd64_mono h
  rwa [show (2 : ℝ) ^ k = ((1 : ℤ) : ℝ) * 2 ^ k by push_cast; ring, rnd64_fix (by norm_num) hk, Int.cast_one,
    one_mul] at this

theorem rnd64_abs_le {x : ℝ} {k : ℤ} (hk : -1074 ≤ k) (h : |x| ≤ 2 ^ k) : |rnd64 x| ≤ 2 ^ k := by
  rw [abs_le] at h ⊢
  refine ⟨?_, rnd64_le_zpow hk h.2⟩
  have := rnd64_le_zpow hk (x := -x) (by linarith [h.1])
  rw [rnd64_neg] at this
  linarith

theorem rnd64_zpow_le {x : ℝ} {k : ℤ} (hk : -1074 ≤ k) (h : 2 ^ k ≤ x) : 2 ^ k ≤ rnd64 x := by
  have := rnd64_mono h
  rwa [show (2 : ℝ) ^ k = ((1 : ℤ) : ℝ) * 2 ^ k by push_cast; ring, rnd64_fix (by norm_num) hk, Int.cast_one,
    one_mul] at this

theorem lt_top {x : ℝ} {k : ℤ} (hk : k ≤ 1023) (h : |x| ≤ 2 ^ k) : |x| < 2 ^ 1024 := by
  refine h.trans_lt ?_
  rw [← zpow_natCast]
  exact zpow_lt_zpow_right₀ (by norm_num) (by push_cast; omega)

theorem finite_round {z : Bool} {x : ℝ} (h : |rnd64 x| < 2 ^ 1024) : (round z x).Finite := by
  rw [round, dif_pos h]
  trivial

theorem value_round {z : Bool} {x : ℝ} (h : |rnd64 x| < 2 ^ 1024) : (round z x).value = rnd64 x := by
  rw [round, dif_pos h]
  change signed _ _ = _
  unfold signed
  by_cases h0 : x = 0
  · subst h0
    simp [rnd64_zero]
  · rw [if_neg h0]
    by_cases hx : x < 0
    · have : rnd64 x ≤ 0 := rnd64_zero ▸ rnd64_mono hx.le
      rw [if_pos (by simpa using hx), abs_of_nonpos this, neg_neg]
    · have : 0 ≤ rnd64 x := rnd64_zero ▸ rnd64_mono (not_lt.mp hx)
      rw [if_neg (by simpa using hx), abs_of_nonneg this]

theorem fits_round {z : Bool} {x : ℝ} {k : ℤ} (hk : -1074 ≤ k) (hk' : k ≤ 1023) (h : |x| ≤ 2 ^ k) :
    Fits k (round z x) ∧ (round z x).value = rnd64 x := by
  have h1 := rnd64_abs_le hk h
  have h2 := lt_top hk' h1
  exact ⟨⟨finite_round h2, by rwa [value_round h2]⟩, value_round h2⟩

theorem Finite.exists {a : Ieee} (h : a.Finite) : ∃ s m hm, a = .fin s m hm := by
  rcases a with _ | _ | ⟨s, m, hm⟩
  · exact h.elim
  · exact h.elim
  · exact ⟨s, m, hm, rfl⟩

theorem signed_not (s : Bool) (m : ℝ) : signed (!s) m = -signed s m := by
  cases s <;> simp [signed]

theorem signed_zero_iff {s : Bool} {m : ℝ} : signed s m = 0 ↔ m = 0 := by
  cases s <;> simp [signed]

theorem Fits.mono {a : Ieee} {i j : ℤ} (h : Fits i a) (hij : i ≤ j) : Fits j a :=
  ⟨h.1, h.2.trans (zpow_le_zpow_right₀ (by norm_num) hij)⟩

theorem finite_neg {a : Ieee} (h : a.Finite) : (-a).Finite ∧ (-a).value = -a.value := by
  obtain ⟨s, m, hm, rfl⟩ := h.exists
  exact ⟨trivial, signed_not s m⟩

theorem fits_neg {a : Ieee} {i : ℤ} (h : Fits i a) : Fits i (-a) := by
  obtain ⟨h1, h2⟩ := finite_neg h.1
  exact ⟨h1, by rw [h2, abs_neg]; exact h.2⟩

theorem add_def {a b : Ieee} (ha : a.Finite) (hb : b.Finite) :
    ∃ z, a + b = round z (a.value + b.value) := by
  obtain ⟨s, m, hm, rfl⟩ := ha.exists
  obtain ⟨t, n, hn, rfl⟩ := hb.exists
  exact ⟨_, rfl⟩

theorem sub_eq (a b : Ieee) : a - b = a + -b := rfl

theorem sub_def {a b : Ieee} (ha : a.Finite) (hb : b.Finite) :
    ∃ z, a - b = round z (a.value - b.value) := by
  obtain ⟨h1, h2⟩ := finite_neg hb
  obtain ⟨z, hz⟩ := add_def ha h1
  exact ⟨z, by rw [sub_eq, hz, h2, sub_eq_add_neg]⟩

theorem mul_def {a b : Ieee} (ha : a.Finite) (hb : b.Finite) :
    ∃ z, a * b = round z (a.value * b.value) := by
  obtain ⟨s, m, hm, rfl⟩ := ha.exists
  obtain ⟨t, n, hn, rfl⟩ := hb.exists
  exact ⟨_, rfl⟩

theorem div_def {a b : Ieee} (ha : a.Finite) (hb : b.Finite) (h0 : b.value ≠ 0) :
    ∃ z, a / b = round z (a.value / b.value) := by
  obtain ⟨s, m, hm, rfl⟩ := ha.exists
  obtain ⟨t, n, hn, rfl⟩ := hb.exists
  have : n ≠ 0 := fun h => h0 (signed_zero_iff.mpr h)
  exact ⟨s != t, by
    change Ieee.div _ _ = _
    rw [Ieee.div, if_neg this]
    rfl⟩

theorem fits_add {a b : Ieee} {i : ℤ} (ha : Fits i a) (hb : Fits i b) (h0 : -1074 ≤ i) (h1 : i < 1023) :
    Fits (i + 1) (a + b) ∧ (a + b).value = rnd64 (a.value + b.value) := by
  obtain ⟨z, hz⟩ := add_def ha.1 hb.1
  rw [hz]
  refine fits_round (by omega) (by omega) ((abs_add_le _ _).trans ?_)
  rw [zpow_add₀ (by norm_num)]
  linarith [ha.2, hb.2]

theorem fits_sub {a b : Ieee} {i : ℤ} (ha : Fits i a) (hb : Fits i b) (h0 : -1074 ≤ i) (h1 : i < 1023) :
    Fits (i + 1) (a - b) ∧ (a - b).value = rnd64 (a.value - b.value) := by
  have := fits_add ha (fits_neg hb) h0 h1
  rwa [(finite_neg hb.1).2, ← sub_eq_add_neg, ← sub_eq] at this

theorem fits_mul {a b : Ieee} {i j : ℤ} (ha : Fits i a) (hb : Fits j b) (h0 : -1074 ≤ i + j)
    (h1 : i + j ≤ 1023) :
    Fits (i + j) (a * b) ∧ (a * b).value = rnd64 (a.value * b.value) := by
  obtain ⟨z, hz⟩ := mul_def ha.1 hb.1
  rw [hz]
  refine fits_round h0 h1 ?_
  rw [abs_mul, zpow_add₀ (by norm_num)]
  exact mul_le_mul ha.2 hb.2 (abs_nonneg _) (by positivity)

theorem fits_div {a b : Ieee} {i j : ℤ} (ha : Fits i a) (hb : b.Finite) (hj : 2 ^ (-j) ≤ |b.value|)
    (h0 : -1074 ≤ i + j) (h1 : i + j ≤ 1023) :
    Fits (i + j) (a / b) ∧ (a / b).value = rnd64 (a.value / b.value) := by
  have hp : (0 : ℝ) < 2 ^ (-j) := by positivity
  have h0' : b.value ≠ 0 := fun h => by rw [h, abs_zero] at hj; linarith
  obtain ⟨z, hz⟩ := div_def ha.1 hb h0'
  rw [hz]
  refine fits_round h0 h1 ?_
  rw [abs_div, zpow_add₀ (by norm_num), div_le_iff₀ (hp.trans_le hj)]
  have e : (2 : ℝ) ^ i = 2 ^ i * 2 ^ j * 2 ^ (-j) := by
    rw [mul_assoc, ← zpow_add₀ (by norm_num), add_neg_cancel, zpow_zero, mul_one]
  refine ha.2.trans ?_
  calc (2 : ℝ) ^ i = 2 ^ i * 2 ^ j * 2 ^ (-j) := e
    _ ≤ 2 ^ i * 2 ^ j * |b.value| := mul_le_mul_of_nonneg_left hj (by positivity)

theorem fits_sin {a : Ieee} (ha : a.Finite) : Fits 0 (Num.sin a) ∧ (Num.sin a).value = rnd64 (Real.sin a.value) := by
  obtain ⟨s, m, hm, rfl⟩ := ha.exists
  exact fits_round (by norm_num) (by norm_num) (by simpa using Real.abs_sin_le_one _)

theorem fits_cos {a : Ieee} (ha : a.Finite) : Fits 0 (Num.cos a) ∧ (Num.cos a).value = rnd64 (Real.cos a.value) := by
  obtain ⟨s, m, hm, rfl⟩ := ha.exists
  exact fits_round (by norm_num) (by norm_num) (by simpa using Real.abs_cos_le_one _)

theorem pi_le : Real.pi ≤ 2 ^ (2 : ℤ) := by
  have := Real.pi_le_four
  norm_num
  linarith

/-- Finite or not, `atan2` is finite and small unless an argument is NaN. -/
theorem fits_atan2 {a b : Ieee} (ha : a.Finite) (hb : b.Finite) : Fits 2 (Num.atan2 a b) := by
  obtain ⟨s, y, hy, rfl⟩ := ha.exists
  obtain ⟨t, x, hx, rfl⟩ := hb.exists
  change Fits 2 (Ieee.atan2 _ _)
  have hpi := Real.pi_pos
  rw [Ieee.atan2]
  split
  · refine (fits_round (by norm_num) (by norm_num) ?_).1
    split
    · have : |signed s Real.pi| = Real.pi := by
        unfold signed; split
        · rw [abs_neg, abs_of_pos hpi]
        · rw [abs_of_pos hpi]
      rw [this]
      exact pi_le
    · simp
  · refine (fits_round (by norm_num) (by norm_num) ?_).1
    exact (Complex.abs_arg_le_pi _).trans pi_le

theorem fits_lit {q : ℚ} {k : ℤ} (h : |(q : ℝ)| ≤ 2 ^ k) (h0 : -1074 ≤ k) (h1 : k ≤ 1023) :
    Fits k (Num.lit q : Ieee) ∧ (Num.lit q : Ieee).value = rnd64 q :=
  fits_round h0 h1 h

theorem fits_pi : Fits 2 (Dbl.pi : Ieee) ∧ (Dbl.pi : Ieee).value = rnd64 Real.pi :=
  fits_round (by norm_num) (by norm_num) (by rw [abs_of_pos Real.pi_pos]; exact pi_le)

theorem fits_ofInt {z : ℤ} {k : ℤ} (h : |(z : ℝ)| ≤ 2 ^ k) (h0 : -1074 ≤ k) (h1 : k ≤ 1023) :
    Fits k (Dbl.ofInt z : Ieee) ∧ (Dbl.ofInt z : Ieee).value = rnd64 z :=
  fits_round h0 h1 h

theorem fits_abs {a : Ieee} {i : ℤ} (h : Fits i a) : Fits i (Dbl.abs a) ∧ (Dbl.abs a).value = |a.value| := by
  obtain ⟨s, m, hm, rfl⟩ := h.1.exists
  have e : |signed s m| = m := by
    unfold signed; split
    · rw [abs_neg, abs_of_nonneg hm.1]
    · rw [abs_of_nonneg hm.1]
  refine ⟨⟨trivial, ?_⟩, e.symm⟩
  change |m| ≤ _
  rw [abs_of_nonneg hm.1, ← e]
  exact h.2

theorem trunc_signed (s : Bool) (m : ℝ) (hm : 0 ≤ m) : (Dbl.trunc (signed s m) : ℝ) = signed s ⌊m⌋ := by
  rw [real_trunc]
  cases s
  · simp only [signed, Bool.false_eq_true, if_false]
    rw [if_neg (not_lt.mpr hm)]
  · simp only [signed, if_true]
    rcases hm.eq_or_lt with h | h
    · simp [← h]
    · rw [if_pos (by linarith), Int.ceil_neg]
      push_cast
      rfl

theorem fits_trunc {a : Ieee} {i : ℤ} (h : Fits i a) (h0 : -1074 ≤ i) (h1 : i ≤ 1023) :
    Fits i (Dbl.trunc a) ∧ (Dbl.trunc a).value = rnd64 (Dbl.trunc a.value) := by
  obtain ⟨s, m, hm, rfl⟩ := h.1.exists
  have key := fits_round (z := s) (x := signed s ⌊m⌋) h0 h1 (by
    refine le_trans ?_ h.2
    change _ ≤ |signed s m|
    have h2 : (0 : ℝ) ≤ ⌊m⌋ := by exact_mod_cast Int.floor_nonneg.mpr hm.1
    have e : ∀ x : ℝ, 0 ≤ x → |signed s x| = x := by
      intro x hx
      unfold signed; split
      · rw [abs_neg, abs_of_nonneg hx]
      · rw [abs_of_nonneg hx]
    rw [e _ h2, e _ hm.1]
    exact Int.floor_le m)
  rw [show (Ieee.fin s m hm).value = signed s m from rfl, trunc_signed s m hm.1]
  exact key

theorem trunc_small (s : Bool) {m : ℝ} (hm : 0 ≤ m ∧ rnd64 m = m ∧ m < 2 ^ 1024) :
    |rnd64 (signed s ⌊m⌋)| < 2 ^ 1024 := by
  have h2 : (0 : ℝ) ≤ ⌊m⌋ := by exact_mod_cast Int.floor_nonneg.mpr hm.1
  have h3 : rnd64 ⌊m⌋ ≤ m := (rnd64_mono (Int.floor_le m)).trans hm.2.1.le
  have h4 : 0 ≤ rnd64 ⌊m⌋ := rnd64_nonneg h2
  have : |rnd64 (signed s ⌊m⌋)| = rnd64 ⌊m⌋ := by
    unfold signed; split
    · rw [rnd64_neg, abs_neg, abs_of_nonneg h4]
    · rw [abs_of_nonneg h4]
  rw [this]
  exact h3.trans_lt hm.2.2

theorem lt_finite {a b : Ieee} (ha : a.Finite) (hb : b.Finite) : Dbl.lt a b = decide (a.value < b.value) := by
  obtain ⟨s, m, hm, rfl⟩ := ha.exists
  obtain ⟨t, n, hn, rfl⟩ := hb.exists
  rfl

theorem eq_finite {a b : Ieee} (ha : a.Finite) (hb : b.Finite) : Dbl.eq a b = decide (a.value = b.value) := by
  obtain ⟨s, m, hm, rfl⟩ := ha.exists
  obtain ⟨t, n, hn, rfl⟩ := hb.exists
  rfl

theorem le_finite {a b : Ieee} (ha : a.Finite) (hb : b.Finite) : Dbl.le a b = decide (a.value ≤ b.value) := by
  change (Ieee.lt a b || Ieee.eq a b) = _
  have h1 := lt_finite ha hb
  have h2 := eq_finite ha hb
  change Ieee.lt a b = _ at h1
  change Ieee.eq a b = _ at h2
  rw [h1, h2, ← Bool.decide_or, decide_eq_decide]
  exact le_iff_lt_or_eq.symm

/-! ### reading doubles in another way -/

/-- A reading of doubles that agrees with the operations of the code as long as everything is finite. -/
structure Faithful {E : Type} [Dbl E] (f : Ieee → E) : Prop where
  add : ∀ {a b : Ieee}, a.Finite → b.Finite → (a + b).Finite → f (a + b) = f a + f b
  sub : ∀ {a b : Ieee}, a.Finite → b.Finite → (a - b).Finite → f (a - b) = f a - f b
  mul : ∀ {a b : Ieee}, a.Finite → b.Finite → (a * b).Finite → f (a * b) = f a * f b
  div : ∀ {a b : Ieee}, a.Finite → b.Finite → b.value ≠ 0 → (a / b).Finite → f (a / b) = f a / f b
  neg : ∀ {a : Ieee}, a.Finite → f (-a) = -f a
  sin : ∀ {a : Ieee}, a.Finite → f (Num.sin a) = Num.sin (f a)
  cos : ∀ {a : Ieee}, a.Finite → f (Num.cos a) = Num.cos (f a)
  lit : ∀ q : ℚ, (Num.lit q : Ieee).Finite → f (Num.lit q) = Num.lit q
  ofInt : ∀ z : ℤ, (Dbl.ofInt z : Ieee).Finite → f (Dbl.ofInt z) = Dbl.ofInt z
  pi : f Dbl.pi = Dbl.pi
  abs : ∀ {a : Ieee}, a.Finite → f (Dbl.abs a) = Dbl.abs (f a)
  trunc : ∀ {a : Ieee}, a.Finite → f (Dbl.trunc a) = Dbl.trunc (f a)
  lt : ∀ {a b : Ieee}, a.Finite → b.Finite → Dbl.lt (f a) (f b) = Dbl.lt a b
  le : ∀ {a b : Ieee}, a.Finite → b.Finite → Dbl.le (f a) (f b) = Dbl.le a b
  eq : ∀ {a b : Ieee}, a.Finite → b.Finite → Dbl.eq (f a) (f b) = Dbl.eq a b

theorem not_finite_round {z : Bool} {x : ℝ} (h : ¬ |rnd64 x| < 2 ^ 1024) : ¬ (round z x).Finite := by
  rw [round, dif_neg h]
  exact id

theorem value_round' {z : Bool} {x : ℝ} (h : (round z x).Finite) : (round z x).value = rnd64 x := by
  by_cases h' : |rnd64 x| < 2 ^ 1024
  · exact value_round h'
  · exact (not_finite_round h' h).elim

theorem plain_ext {a : Ieee} {d : Doubles binary64} (h : a.value = d.val) : a.plain = d := Doubles.ext h

theorem faithful_plain : Faithful plain where
  add ha hb h := by
    obtain ⟨z, hz⟩ := add_def ha hb
    rw [hz] at h ⊢
    exact plain_ext (value_round' h)
  sub ha hb h := by
    obtain ⟨z, hz⟩ := sub_def ha hb
    rw [hz] at h ⊢
    exact plain_ext (value_round' h)
  mul ha hb h := by
    obtain ⟨z, hz⟩ := mul_def ha hb
    rw [hz] at h ⊢
    exact plain_ext (value_round' h)
  div ha hb h0 h := by
    obtain ⟨z, hz⟩ := div_def ha hb h0
    rw [hz] at h ⊢
    exact plain_ext (value_round' h)
  neg {a} ha := plain_ext (by
    rw [(finite_neg ha).2]
    exact (Doubles.val_neg a.plain).symm)
  sin ha := plain_ext (fits_sin ha).2
  cos ha := plain_ext (fits_cos ha).2
  lit q h := plain_ext (value_round' h)
  ofInt z h := plain_ext (value_round' h)
  pi := plain_ext fits_pi.2
  abs {a} ha := plain_ext (by
    have h : (Dbl.abs a).value = |a.value| := by
      obtain ⟨s, m, hm, rfl⟩ := ha.exists
      change m = |signed s m|
      unfold signed; split
      · rw [abs_neg, abs_of_nonneg hm.1]
      · rw [abs_of_nonneg hm.1]
    rw [h]
    change |a.value| = rnd64 |a.value|
    have h2 := (a.plain).2
    change rnd64 a.value = a.value at h2
    rw [← h2, rnd64_abs])
  trunc {a} ha := plain_ext (by
    obtain ⟨s, m, hm, rfl⟩ := ha.exists
    change (round s (signed s ⌊m⌋)).value = rnd64 (Dbl.trunc (signed s m))
    rw [trunc_signed s m hm.1]
    exact value_round (trunc_small s hm))
  lt ha hb := (lt_finite ha hb).symm
  le ha hb := (le_finite ha hb).symm
  eq ha hb := (eq_finite ha hb).symm

open Classical in
/-- Special values replaced by zero. -/
noncomputable def clip (a : Ieee) : Ieee := if a.Finite then a else round false 0

theorem clip_of {a : Ieee} (h : a.Finite) : clip a = a := if_pos h

theorem finite_clip (a : Ieee) : (clip a).Finite := by
  unfold clip
  split
  · assumption
  · exact finite_round (by rw [rnd64_zero]; norm_num)

theorem faithful_clip : Faithful clip where
  add ha hb h := by rw [clip_of ha, clip_of hb, clip_of h]
  sub ha hb h := by rw [clip_of ha, clip_of hb, clip_of h]
  mul ha hb h := by rw [clip_of ha, clip_of hb, clip_of h]
  div ha hb _ h := by rw [clip_of ha, clip_of hb, clip_of h]
  neg ha := by rw [clip_of ha, clip_of (finite_neg ha).1]
  sin ha := by rw [clip_of ha, clip_of (fits_sin ha).1.1]
  cos ha := by rw [clip_of ha, clip_of (fits_cos ha).1.1]
  lit q h := by rw [clip_of h]
  ofInt z h := by rw [clip_of h]
  pi := clip_of fits_pi.1.1
  abs {a} ha := by
    rw [clip_of ha, clip_of]
    obtain ⟨s, m, hm, rfl⟩ := ha.exists
    trivial
  trunc {a} ha := by
    rw [clip_of ha, clip_of]
    obtain ⟨s, m, hm, rfl⟩ := ha.exists
    exact finite_round (trunc_small s hm)
  lt ha hb := by rw [clip_of ha, clip_of hb]
  le ha hb := by rw [clip_of ha, clip_of hb]
  eq ha hb := by rw [clip_of ha, clip_of hb]

end Ieee

end Trajopt
