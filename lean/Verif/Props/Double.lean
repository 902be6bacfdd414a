import Verif.Lemmas.Double
import Verif.Lemmas.Interp
import Verif.Props.Trajectory

/-!
# C73 interpolation and C74 timestamps in double arithmetic

`A : Arith` is any rounded arithmetic (`Model/Double.lean`), `binary64` the IEEE one.
-/

set_option autoImplicit false

namespace Trajopt.Props

open Doubles

variable {A : Arith}

theorem linspace_getElemD (a b : Doubles A) (n k : ℕ) (hk : k < (linspace a b n).length) :
    (linspace a b n)[k] = a + Dbl.ofNat (1 + k) * ((b - a) / Dbl.ofNat n) := by
  simp [linspace]

/-- C73: `Linspace` in doubles has `n` entries, the `k`-th of them (counting from 1) within
rounding of `a + k (b - a) / n`. -/
theorem C73_entry_partial (a b : Doubles A) (n k : ℕ) (hn : n ≤ 2 ^ 53) (hk : 1 ≤ k) (hkn : k ≤ n) :
    ∃ v, (linspace a b n)[k - 1]? = some v ∧
      |v.val - (a.val + k * (b.val - a.val) / n)| ≤
        A.u * max |a.val| |b.val| + 4 * A.u * |b.val - a.val| + (2 * k + 4) * A.η := by
  have hlen : k - 1 < (linspace a b n).length := by rw [linspace_length]; omega
  refine ⟨_, List.getElem?_eq_getElem hlen, ?_⟩
  rw [linspace_getElemD]
  have e1 : 1 + (k - 1) = k := by omega
  rw [e1]
  simp only [val_add, val_mul, val_div, val_sub, val_ofNat hn, val_ofNat (hkn.trans hn)]
  set s := a.val
  set e := b.val
  have hu := A.u_nonneg
  have hs := A.small
  have hη := eta_nonneg A
  have hn0 : (0 : ℝ) < n := by exact_mod_cast (by omega : 0 < n)
  have hk0 : (0 : ℝ) < k := by exact_mod_cast hk
  have hkn' : (k : ℝ) ≤ n := by exact_mod_cast hkn
  set E := |e - s|
  have hE : 0 ≤ E := abs_nonneg _
  -- the four roundings
  have r1 := A.error (e - s)
  set d1 := A.rnd (e - s)
  have r2 := A.error (d1 / n)
  set dl := A.rnd (d1 / n)
  have r3 := A.error (k * dl)
  set p := A.rnd (k * dl)
  have r4 := A.error (s + p)
  have hd1 : |d1| ≤ (1 + A.u) * E + A.η := rnd_abs_le _
  -- k * dl
  have hkd : |k * dl - k * (e - s) / n| ≤ (A.u * E + A.η) + A.u * ((1 + A.u) * E + A.η) + k * A.η := by
    have h1 : k * dl - k * (e - s) / n = k * (dl - d1 / n) + (k / n) * (d1 - (e - s)) := by ring
    rw [h1]
    refine (abs_add_le _ _).trans ?_
    rw [abs_mul, abs_mul, abs_of_pos hk0, abs_of_pos (div_pos hk0 hn0)]
    have hq : (k : ℝ) / n ≤ 1 := (div_le_one hn0).mpr hkn'
    have h2 : (k : ℝ) / n * |d1 - (e - s)| ≤ A.u * E + A.η :=
      (mul_le_of_le_one_left (abs_nonneg _) hq).trans r1
    have h3 : (k : ℝ) * |dl - d1 / n| ≤ A.u * ((1 + A.u) * E + A.η) + k * A.η := by
      have h4 : (k : ℝ) * |dl - d1 / n| ≤ k * (A.u * |d1 / n| + A.η) :=
        mul_le_mul_of_nonneg_left r2 hk0.le
      have h5 : (k : ℝ) * (A.u * |d1 / n| + A.η) = A.u * ((k / n) * |d1|) + k * A.η := by
        rw [abs_div, abs_of_pos hn0]; ring
      have h6 : (k : ℝ) / n * |d1| ≤ (1 + A.u) * E + A.η :=
        (mul_le_of_le_one_left (abs_nonneg _) hq).trans hd1
      rw [h5] at h4
      have := mul_le_mul_of_nonneg_left h6 hu
      linarith
    linarith
  have hconv : |s + k * (e - s) / n| ≤ max |s| |e| := by
    have hq : (k : ℝ) / n ≤ 1 := (div_le_one hn0).mpr hkn'
    have hq0 : 0 ≤ (k : ℝ) / n := (div_pos hk0 hn0).le
    have h1 : s + k * (e - s) / n = (1 - k / n) * s + (k / n) * e := by ring
    rw [h1]
    refine (abs_add_le _ _).trans ?_
    rw [abs_mul, abs_mul, abs_of_nonneg hq0, abs_of_nonneg (by linarith : 0 ≤ 1 - (k : ℝ) / n)]
    have a1 := mul_le_mul_of_nonneg_left (le_max_left |s| |e|) (by linarith : 0 ≤ 1 - (k : ℝ) / n)
    have a2 := mul_le_mul_of_nonneg_left (le_max_right |s| |e|) hq0
    linarith
  have hkx : |(k : ℝ) * (e - s) / n| ≤ E := by
    rw [abs_div, abs_mul, abs_of_pos hk0, abs_of_pos hn0, div_le_iff₀ hn0, mul_comm]
    exact mul_le_mul_of_nonneg_left hkn' hE
  set X := (k : ℝ) * (e - s) / n
  set B := (A.u * E + A.η) + A.u * ((1 + A.u) * E + A.η) + k * A.η
  have hkdl : |(k : ℝ) * dl| ≤ E + B := by
    have : (k : ℝ) * dl = (k * dl - X) + X := by ring
    rw [this]
    exact (abs_add_le _ _).trans (by linarith)
  have hp : |p - X| ≤ B + A.u * (E + B) + A.η := by
    have : p - X = (p - k * dl) + (k * dl - X) := by ring
    rw [this]
    refine (abs_add_le _ _).trans ?_
    have := mul_le_mul_of_nonneg_left hkdl hu
    linarith
  have hsp : |s + p| ≤ max |s| |e| + (B + A.u * (E + B) + A.η) := by
    have : s + p = (s + X) + (p - X) := by ring
    rw [this]
    exact (abs_add_le _ _).trans (by linarith)
  have hfin : |A.rnd (s + p) - (s + X)| ≤
      A.u * (max |s| |e| + (B + A.u * (E + B) + A.η)) + A.η + (B + A.u * (E + B) + A.η) := by
    have : A.rnd (s + p) - (s + X) = (A.rnd (s + p) - (s + p)) + (p - X) := by ring
    rw [this]
    refine (abs_add_le _ _).trans ?_
    have := mul_le_mul_of_nonneg_left hsp hu
    linarith
  refine hfin.trans ?_
  -- collect
  have hu2 : A.u ≤ 1 / 16 := hs.trans (by norm_num)
  have huE : 0 ≤ A.u * E := mul_nonneg hu hE
  have i1 : A.u * (A.u * E) ≤ 1 / 16 * (A.u * E) := mul_le_mul_of_nonneg_right hu2 huE
  have i2 : A.u * (A.u * (A.u * E)) ≤ 1 / 16 * (A.u * (A.u * E)) :=
    mul_le_mul_of_nonneg_right hu2 (mul_nonneg hu huE)
  have i3 : A.u * (A.u * (A.u * (A.u * E))) ≤ 1 / 16 * (A.u * (A.u * (A.u * E))) :=
    mul_le_mul_of_nonneg_right hu2 (mul_nonneg hu (mul_nonneg hu huE))
  have huη : 0 ≤ A.u * A.η := mul_nonneg hu hη
  have j1 : A.u * A.η ≤ 1 / 16 * A.η := mul_le_mul_of_nonneg_right hu2 hη
  have j2 : A.u * (A.u * A.η) ≤ 1 / 16 * (A.u * A.η) := mul_le_mul_of_nonneg_right hu2 huη
  have j3 : A.u * (A.u * (A.u * A.η)) ≤ 1 / 16 * (A.u * (A.u * A.η)) :=
    mul_le_mul_of_nonneg_right hu2 (mul_nonneg hu huη)
  have hkη : 0 ≤ k * A.η := mul_nonneg hk0.le hη
  have l1 : A.u * (k * A.η) ≤ 1 / 16 * (k * A.η) := mul_le_mul_of_nonneg_right hu2 hkη
  have l2 : A.u * (A.u * (k * A.η)) ≤ 1 / 16 * (A.u * (k * A.η)) :=
    mul_le_mul_of_nonneg_right hu2 (mul_nonneg hu hkη)
  simp only [B]
  ring_nf at i1 i2 i3 j1 j2 j3 l1 l2 huE huη hkη ⊢
  nlinarith

/-- C73: the last entry is within rounding of `b`. -/
theorem C73_last_partial (a b : Doubles A) (n : ℕ) (hn : n ≤ 2 ^ 53) (h0 : 0 < n) :
    ∃ v, (linspace a b n).getLast? = some v ∧
      |v.val - b.val| ≤
        A.u * max |a.val| |b.val| + 4 * A.u * |b.val - a.val| + (2 * n + 4) * A.η := by
  obtain ⟨v, hv, h⟩ := C73_entry_partial a b n n hn (by omega) le_rfl
  refine ⟨v, ?_, ?_⟩
  · rw [List.getLast?_eq_getElem?, linspace_length, hv]
  · have hn0 : (n : ℝ) ≠ 0 := by exact_mod_cast h0.ne'
    have e : a.val + n * (b.val - a.val) / n = b.val := by field_simp; ring
    rwa [e] at h

/-- C73: upwards from `a` to `b` the entries never decrease and none is below `a`; downwards
they never increase and none is above `a`. -/
theorem C73_monotone (a b : Doubles A) (n : ℕ) (hn : n ≤ 2 ^ 53) :
    (a.val ≤ b.val → (∀ v ∈ linspace a b n, a.val ≤ v.val) ∧
      ∀ (j k : ℕ) (v w : Doubles A), j ≤ k → (linspace a b n)[j]? = some v →
        (linspace a b n)[k]? = some w → v.val ≤ w.val) ∧
    (b.val ≤ a.val → (∀ v ∈ linspace a b n, v.val ≤ a.val) ∧
      ∀ (j k : ℕ) (v w : Doubles A), j ≤ k → (linspace a b n)[j]? = some v →
        (linspace a b n)[k]? = some w → w.val ≤ v.val) := by
  have hval : ∀ k, k < n → ∀ h, (Dbl.ofNat (1 + k) * h : Doubles A).val =
      A.rnd ((1 + k) * h.val) := by
    intro k hk h
    rw [val_mul, val_ofNat (by omega)]
    push_cast; rfl
  have hd : ∀ x : ℝ, 0 ≤ x → 0 ≤ A.rnd (A.rnd x / (Dbl.ofNat n : Doubles A).val) := by
    intro x hx
    rw [val_ofNat hn]
    exact rnd_nonneg (div_nonneg (rnd_nonneg hx) (Nat.cast_nonneg n))
  have hd' : ∀ x : ℝ, x ≤ 0 → A.rnd (A.rnd x / (Dbl.ofNat n : Doubles A).val) ≤ 0 := by
    intro x hx
    have := hd (-x) (by linarith)
    rw [A.symm, neg_div, A.symm] at this
    linarith
  have hnp : ∀ x : ℝ, x ≤ 0 → A.rnd x ≤ 0 := by
    intro x hx
    have := A.mono hx
    rwa [rnd_zero] at this
  have hget : ∀ (k : ℕ) (v : Doubles A), (linspace a b n)[k]? = some v →
      k < n ∧ v.val = A.rnd (a.val + A.rnd ((1 + k) * ((b - a) / Dbl.ofNat n : Doubles A).val)) := by
    intro k v hv
    obtain ⟨hk, rfl⟩ := List.getElem?_eq_some_iff.mp hv
    have hkn : k < n := by simpa using hk
    rw [linspace_getElemD, val_add, hval k hkn]
    exact ⟨hkn, rfl⟩
  refine ⟨fun hab => ⟨?_, ?_⟩, fun hab => ⟨?_, ?_⟩⟩
  · intro v hv
    obtain ⟨k, hk, rfl⟩ := List.getElem_of_mem hv
    obtain ⟨-, h⟩ := hget k _ (List.getElem?_eq_getElem hk)
    rw [h]
    have h1 : 0 ≤ ((b - a) / Dbl.ofNat n : Doubles A).val := hd _ (by linarith)
    have h2 : a.val ≤ a.val + A.rnd ((1 + k) * ((b - a) / Dbl.ofNat n : Doubles A).val) := by
      have := rnd_nonneg (A := A) (mul_nonneg (by positivity : (0 : ℝ) ≤ 1 + k) h1)
      linarith
    have := A.mono h2
    rwa [rnd_val] at this
  · intro j k v w hjk hv hw
    rw [(hget j v hv).2, (hget k w hw).2]
    have h1 : 0 ≤ ((b - a) / Dbl.ofNat n : Doubles A).val := hd _ (by linarith)
    have hjk' : (j : ℝ) ≤ k := by exact_mod_cast hjk
    have := A.mono (mul_le_mul_of_nonneg_right (by linarith : 1 + (j : ℝ) ≤ 1 + k) h1)
    exact A.mono (by linarith)
  · intro v hv
    obtain ⟨k, hk, rfl⟩ := List.getElem_of_mem hv
    obtain ⟨-, h⟩ := hget k _ (List.getElem?_eq_getElem hk)
    rw [h]
    have h1 : ((b - a) / Dbl.ofNat n : Doubles A).val ≤ 0 := hd' _ (by linarith)
    have h2 : a.val + A.rnd ((1 + k) * ((b - a) / Dbl.ofNat n : Doubles A).val) ≤ a.val := by
      have := hnp _ (mul_nonpos_of_nonneg_of_nonpos (by positivity : (0 : ℝ) ≤ 1 + k) h1)
      linarith
    have := A.mono h2
    rwa [rnd_val] at this
  · intro j k v w hjk hv hw
    rw [(hget j v hv).2, (hget k w hw).2]
    have h1 : ((b - a) / Dbl.ofNat n : Doubles A).val ≤ 0 := hd' _ (by linarith)
    have hjk' : (j : ℝ) ≤ k := by exact_mod_cast hjk
    have := A.mono (mul_le_mul_of_nonpos_right (by linarith : 1 + (j : ℝ) ≤ 1 + k) h1)
    exact A.mono (by linarith)

/-- C73: from `a` to `a` all entries are exactly `a`. -/
theorem C73_constant (a : Doubles A) (n : ℕ) (hn : n ≤ 2 ^ 53) :
    linspace a a n = List.replicate n a := by
  obtain ⟨hup, hdown⟩ := C73_monotone a a n hn
  rw [List.eq_replicate_iff]
  refine ⟨linspace_length _ _ _, fun v hv => Doubles.ext ?_⟩
  exact le_antisymm ((hdown le_rfl).1 v hv) ((hup le_rfl).1 v hv)

/-- An integer as a double. -/
noncomputable def dbl (z : ℤ) : Doubles binary64 := Doubles.round binary64 z

theorem dbl_val (z : ℤ) (h : |z| ≤ 2 ^ 53) : (dbl z).val = z := rnd64_int z h

theorem linspace_last_binary64 (b : ℤ) (n : ℕ) (x y : ℝ) (hb : |b| ≤ 2 ^ 53) (hn : n ≤ 2 ^ 53)
    (h0 : 0 < n) (h1 : rnd64 (b / n) = x) (h2 : rnd64 (n * x) = y) :
    ∃ v, (linspace (dbl 0) (dbl b) n).getLast? = some v ∧ v.val = y := by
  have hl : n - 1 < (linspace (dbl 0) (dbl b) n).length := by rw [linspace_length]; omega
  refine ⟨_, by rw [List.getLast?_eq_getElem?, linspace_length, List.getElem?_eq_getElem hl], ?_⟩
  rw [linspace_getElemD]
  have e1 : 1 + (n - 1) = n := by omega
  rw [e1]
  simp only [val_add, val_mul, val_div, val_sub, val_ofNat hn, dbl_val b hb,
    dbl_val 0 (by norm_num)]
  change rnd64 (((0 : ℤ) : ℝ) + rnd64 (n * rnd64 (rnd64 (b - ((0 : ℤ) : ℝ)) / n))) = y
  rw [Int.cast_zero, sub_zero, rnd64_int b hb, h1, zero_add, rnd64_idem, h2]

/-- C73 fails for exactness: in IEEE doubles the last entry of `Linspace(0, 1, 49)` is
0.9999999999999999. -/
theorem C73_refuted_last : ∃ v, (linspace (dbl 0) (dbl 1) 49).getLast? = some v ∧
    v.val = 1 - 1 / 2 ^ 53 ∧ v.val < (dbl 1).val := by
  obtain ⟨v, hv, h⟩ := linspace_last_binary64 1 49 ((5882252574524729 : ℤ) * 2 ^ (-58 : ℤ))
    ((9007199254740991 : ℤ) * 2 ^ (-53 : ℤ)) (by norm_num) (by norm_num) (by norm_num)
    (by apply rnd64_eq <;> norm_num [abs_lt]) (by apply rnd64_eq <;> norm_num [abs_lt])
  refine ⟨v, hv, ?_, ?_⟩
  · rw [h]; norm_num
  · rw [h, dbl_val 1 (by norm_num)]; norm_num

/-- C73 fails for the range: in IEEE doubles the last entry of `Linspace(0, 7, 25)` is
7.000000000000001, beyond the end value. -/
theorem C73_refuted_range : ∃ v, (linspace (dbl 0) (dbl 7) 25).getLast? = some v ∧
    v.val = 7 + 1 / 2 ^ 50 ∧ (dbl 7).val < v.val := by
  obtain ⟨v, hv, h⟩ := linspace_last_binary64 7 25 ((5044031582654956 : ℤ) * 2 ^ (-54 : ℤ))
    ((7881299347898369 : ℤ) * 2 ^ (-50 : ℤ)) (by norm_num) (by norm_num) (by norm_num)
    (by apply rnd64_eq <;> norm_num [abs_lt]) (by apply rnd64_eq <;> norm_num [abs_lt])
  refine ⟨v, hv, ?_, ?_⟩
  · rw [h]; norm_num
  · rw [h, dbl_val 7 (by norm_num)]; norm_num

/-- For a field of 16 m and at most a million samples, the last entry is within `2e-14` of the end
value. -/
example (a b : Doubles binary64) (ha : |a.val| ≤ 16) (hb : |b.val| ≤ 16) (n : ℕ) (h0 : 0 < n)
    (hn : n ≤ 1000000) :
    ∃ v, (linspace a b n).getLast? = some v ∧ |v.val - b.val| ≤ 2e-14 := by
  obtain ⟨v, hv, h⟩ := C73_last_partial a b n (hn.trans (by norm_num)) h0
  refine ⟨v, hv, h.trans ?_⟩
  have h1 : |b.val - a.val| ≤ 32 := (abs_sub _ _).trans (by linarith)
  have h2 : max |a.val| |b.val| ≤ 16 := max_le ha hb
  have h3 : (n : ℝ) ≤ 1000000 := by exact_mod_cast hn
  change 2 ^ (-53 : ℤ) * max |a.val| |b.val| + 4 * 2 ^ (-53 : ℤ) * |b.val - a.val| +
    (2 * n + 4) * 2 ^ (-1075 : ℤ) ≤ _
  have h4 : (2 : ℝ) ^ (-1075 : ℤ) ≤ 2 ^ (-80 : ℤ) := zpow_le_zpow_right₀ (by norm_num) (by norm_num)
  have h5 : (2 * (n : ℝ) + 4) * 2 ^ (-1075 : ℤ) ≤ 2000004 * 2 ^ (-80 : ℤ) :=
    mul_le_mul (by linarith) h4 (by positivity) (by norm_num)
  generalize (2 : ℝ) ^ (-1075 : ℤ) = t at *
  norm_num at h5 ⊢
  linarith

/-! ### C74 -/

/-- C74: timestamps in doubles start at 0 and never decrease when no step is negative. -/
theorem C74_monotone (sol : SwerveSolution (Doubles A)) (samples : List (TrajSample (Doubles A)))
    (h : holonomicTrajectory sol = .ok samples) (hdt : ∀ d ∈ sol.dt, 0 ≤ d.val) :
    (∀ s, samples[0]? = some s → s.timestamp.val = 0) ∧
    (∀ (j k : ℕ) (s s' : TrajSample (Doubles A)), j ≤ k → samples[j]? = some s →
      samples[k]? = some s' → s.timestamp.val ≤ s'.timestamp.val) := by
  obtain ⟨-, h0, hstep, -⟩ := C45_fields sol samples h
  refine ⟨?_, ?_⟩
  · intro s hs
    rw [h0 s hs, val_lit, Rat.cast_zero, rnd_zero]
  · intro j k s s' hjk hs hs'
    induction k, hjk using Nat.le_induction generalizing s' with
    | base =>
      rw [hs] at hs'
      rw [Option.some.inj hs']
    | succ k hjk ih =>
      have hk : k < samples.length := by
        have := (List.getElem?_eq_some_iff.mp hs').1; omega
      have hsk := List.getElem?_eq_getElem hk
      obtain ⟨d, hd, ht⟩ := hstep k _ _ hsk hs'
      refine (ih _ hsk).trans ?_
      rw [ht, val_add]
      have h1 := hdt d (List.mem_of_getElem? hd)
      have h2 := A.mono (by linarith : (samples[k]).timestamp.val ≤ (samples[k]).timestamp.val + d.val)
      rwa [rnd_val] at h2

/-- C74: the `k`-th timestamp is within rounding of the exact sum of the first `k` steps: the
relative error is at most `(1 + u)^k - 1`. -/
theorem C74_error (sol : SwerveSolution (Doubles A)) (samples : List (TrajSample (Doubles A)))
    (h : holonomicTrajectory sol = .ok samples) (hdt : ∀ d ∈ sol.dt, 0 ≤ d.val)
    (k : ℕ) (s : TrajSample (Doubles A)) (hs : samples[k]? = some s) :
    |s.timestamp.val - ((sol.dt.take k).map Doubles.val).sum| ≤
      ((1 + A.u) ^ k - 1) * ((sol.dt.take k).map Doubles.val).sum + k * (1 + A.u) ^ k * A.η := by
  obtain ⟨-, h0, hstep, -⟩ := C45_fields sol samples h
  have hu := A.u_nonneg
  have hη := eta_nonneg A
  induction k generalizing s with
  | zero => simp [h0 s hs, rnd_zero]
  | succ k ih =>
    have hk : k < samples.length := by
      have := (List.getElem?_eq_some_iff.mp hs).1; omega
    have hsk := List.getElem?_eq_getElem hk
    obtain ⟨d, hd, ht⟩ := hstep k _ _ hsk hs
    have hi := ih _ hsk
    have hd0 := hdt d (List.mem_of_getElem? hd)
    have hsum : ((sol.dt.take (k + 1)).map Doubles.val).sum =
        ((sol.dt.take k).map Doubles.val).sum + d.val := by
      rw [List.take_add_one, hd]
      simp
    have hS : 0 ≤ ((sol.dt.take k).map Doubles.val).sum := by
      apply List.sum_nonneg
      intro x hx
      obtain ⟨y, hy, rfl⟩ := List.mem_map.mp hx
      exact hdt y (List.mem_of_mem_take hy)
    rw [hsum, ht, val_add]
    set S := ((sol.dt.take k).map Doubles.val).sum
    set t := (samples[k]).timestamp.val
    set P := (1 + A.u) ^ k
    have hP : 1 ≤ P := one_le_pow₀ (by linarith)
    have he := A.error (t + d.val)
    have hts : |t + d.val| ≤ P * S + k * P * A.η + d.val := by
      have e : t + d.val = (t - S) + (S + d.val) := by ring
      rw [e]
      refine (abs_add_le _ _).trans ?_
      rw [abs_of_nonneg (by linarith : 0 ≤ S + d.val)]
      linarith
    have e : A.rnd (t + d.val) - (S + d.val) = (A.rnd (t + d.val) - (t + d.val)) + (t - S) := by ring
    rw [e]
    refine (abs_add_le _ _).trans ?_
    have h3 := mul_le_mul_of_nonneg_left hts hu
    have h4 : A.u * d.val ≤ ((1 + A.u) * P - 1) * d.val := by
      apply mul_le_mul_of_nonneg_right _ hd0
      nlinarith
    have h5 : A.η ≤ (1 + A.u) * P * A.η := by
      apply le_mul_of_one_le_left hη
      nlinarith
    have hpow : (1 + A.u) ^ (k + 1) = (1 + A.u) * P := by rw [pow_succ, mul_comm]
    rw [hpow]
    push_cast
    nlinarith

/-- Steps of 0.5 s and 3 s: the timestamps are 0, 0.5 and 3.5. -/
example : ∃ samples, holonomicTrajectory (D := Doubles binary64)
      { dt := [Doubles.round binary64 (1 / 2), dbl 3], x := [dbl 0, dbl 1, dbl 2],
        y := [dbl 0, dbl 0, dbl 0], thetacos := [dbl 1, dbl 1, dbl 1],
        thetasin := [dbl 0, dbl 0, dbl 0], vx := [dbl 0, dbl 0, dbl 0],
        vy := [dbl 0, dbl 0, dbl 0], omega := [dbl 0, dbl 0, dbl 0],
        ax := [], ay := [], alpha := [], moduleFX := [[], [], []], moduleFY := [[], [], []] } =
      .ok samples ∧ samples.length = 3 ∧
      ∀ s, samples[2]? = some s → s.timestamp.val = 7 / 2 := by
  refine ⟨_, rfl, rfl, fun s hs => ?_⟩
  have hs := Option.some.inj hs
  rw [← hs]
  change rnd64 (rnd64 (rnd64 ((0 : ℚ) : ℝ) + rnd64 (1 / 2)) + rnd64 ((3 : ℤ) : ℝ)) = 7 / 2
  have h1 : rnd64 (1 / 2) = 1 / 2 := binary64.half
  have h2 : rnd64 (7 / 2) = 7 / 2 := by
    have := rnd64_fix (m := 7) (e := -1) (by norm_num) (by norm_num)
    norm_num at this ⊢; exact this
  rw [Rat.cast_zero, rnd64_zero, h1, zero_add, h1, rnd64_int 3 (by norm_num)]
  norm_num
  exact h2

end Trajopt.Props
