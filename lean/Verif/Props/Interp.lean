import Verif.Lemmas.Interp
import Mathlib.Analysis.Real.Pi.Bounds

/-!
# C02 Linear interpolation, C03 angle interpolation
-/

set_option autoImplicit false

namespace Trajopt.Props

/-- C02: `Linspace(a, b, n)` has `n` entries (also in floating point). -/
theorem C02_length {D : Type} [Dbl D] (a b : D) (n : ℕ) : (linspace a b n).length = n :=
  linspace_length a b n

/-- C02: the `k`-th entry (counting from 1) of `Linspace(a, b, n)` is `a + k (b - a) / n`. -/
theorem C02_entry (a b : ℝ) (n k : ℕ) (hk : 1 ≤ k) (hkn : k ≤ n) :
    (linspace a b n)[k - 1]? = some (a + k * (b - a) / n) := by
  rw [List.getElem?_eq_getElem (by simp; omega), linspace_getElem]
  obtain ⟨j, rfl⟩ : ∃ j, k = j + 1 := ⟨k - 1, by omega⟩
  push_cast
  rw [mul_div_assoc]

/-- C02: the last entry is `b`. -/
theorem C02_last (a b : ℝ) (n : ℕ) (hn : 0 < n) : (linspace a b n).getLast? = some b := by
  rw [List.getLast?_eq_getElem?, linspace_length, C02_entry a b n n (by omega) le_rfl]
  have : (n : ℝ) ≠ 0 := by exact_mod_cast hn.ne'
  congr 1; field_simp; ring

/-- C02: all entries lie between `a` and `b`; the start is not among them unless `a = b`. -/
theorem C02_range (a b : ℝ) (n : ℕ) (v : ℝ) (hv : v ∈ linspace a b n) :
    min a b ≤ v ∧ v ≤ max a b ∧ (a ≠ b → v ≠ a) := by
  obtain ⟨k, hk, rfl⟩ := List.getElem_of_mem hv
  rw [linspace_getElem]
  have hkn : k < n := by simpa using hk
  have hn : (0 : ℝ) < n := by exact_mod_cast (by omega : 0 < n)
  have hk1 : ((k : ℝ) + 1) / n ≤ 1 := by rw [div_le_one hn]; exact_mod_cast hkn
  have hk0 : 0 < ((k : ℝ) + 1) / n := by positivity
  have e : a + (k + 1) * ((b - a) / n) = a + ((k + 1) / n) * (b - a) := by ring
  rw [e]
  refine ⟨?_, ?_, ?_⟩
  · rcases le_total a b with h | h
    · rw [min_eq_left h]; nlinarith
    · rw [min_eq_right h]; nlinarith
  · rcases le_total a b with h | h
    · rw [max_eq_right h]; nlinarith
    · rw [max_eq_left h]; nlinarith
  · intro hab h
    have h0 : ((k : ℝ) + 1) / n * (b - a) = 0 := by linarith
    rcases mul_eq_zero.mp h0 with h' | h'
    · exact hk0.ne' h'
    · exact hab (by linarith)

/-- C02: consecutive entries differ by `(b - a) / n`, and so does the first one from `a`. -/
theorem C02_steps (a b : ℝ) (n k : ℕ) (hk : k < n) :
    ∃ v, (linspace a b n)[k]? = some v ∧
      ((k = 0 → v - a = (b - a) / n) ∧
       (∀ u, 0 < k → (linspace a b n)[k - 1]? = some u → v - u = (b - a) / n)) := by
  refine ⟨_, List.getElem?_eq_getElem (by simpa using hk), ?_, ?_⟩
  · rintro rfl; rw [linspace_getElem]; simp
  · intro u h0 hu
    rw [List.getElem?_eq_getElem (by simp; omega), linspace_getElem] at hu
    have := Option.some.inj hu
    rw [linspace_getElem, ← this]
    have : ((k - 1 : ℕ) : ℝ) = k - 1 := by push_cast [Nat.cast_sub (by omega : 1 ≤ k)]; ring
    rw [this]; ring

/-- `n = 0` gives nothing. -/
theorem C02_empty {D : Type} [Dbl D] (a b : D) : linspace a b 0 = [] := rfl

example : (linspace (0 : ℝ) 2 2)[0]? = some 1 ∧ (linspace (0 : ℝ) 2 2).getLast? = some 2 :=
  ⟨by have := C02_entry 0 2 2 1 (by norm_num) (by norm_num); norm_num at this; simpa using this,
   C02_last 0 2 2 (by norm_num)⟩

/-- C03: `AngleLinspace(a, b, n)` turns from `a` by a total of `d` with `-π < d ≤ π` and `a + d`
congruent to `b`; the `k`-th of its `n` entries is `a + k d / n`. No turn congruent to `b - a`
is shorter than `d`. -/
theorem C03_short_way (a b : ℝ) (n : ℕ) :
    ∃ d : ℝ, -Real.pi < d ∧ d ≤ Real.pi ∧ (∃ z : ℤ, a + d = b + z * (2 * Real.pi)) ∧
      (∀ d' : ℝ, (∃ z : ℤ, a + d' = b + z * (2 * Real.pi)) → |d| ≤ |d'|) ∧
      (angleLinspace a b n).length = n ∧
      ∀ k, 1 ≤ k → k ≤ n → (angleLinspace a b n)[k - 1]? = some (a + k * d / n) := by
  obtain ⟨h1, h2, z, hz⟩ := wrapTurn_spec (b - a)
  refine ⟨wrapTurn (b - a), h1, h2, ⟨z, by rw [hz]; ring⟩, ?_, by simp, ?_⟩
  · rintro d' ⟨z', hz'⟩
    have : d' = wrapTurn (b - a) + ((z' - z : ℤ) : ℝ) * (2 * Real.pi) := by
      rw [hz]; push_cast; linarith
    rw [this]
    exact turn_shortest h1 h2 _
  · intro k hk hkn
    rw [angleLinspace_eq, C02_entry _ _ _ _ hk hkn, add_sub_cancel_left]

/-- C03: the last entry is congruent to `b` modulo `2π`. -/
theorem C03_last (a b : ℝ) (n : ℕ) (hn : 0 < n) :
    ∃ v, (angleLinspace a b n).getLast? = some v ∧ ∃ z : ℤ, v = b + z * (2 * Real.pi) := by
  obtain ⟨d, -, -, ⟨z, hz⟩, -, hl, h⟩ := C03_short_way a b n
  refine ⟨b + z * (2 * Real.pi), ?_, z, rfl⟩
  rw [List.getLast?_eq_getElem?, hl, h n (by omega) le_rfl, ← hz]
  have : (n : ℝ) ≠ 0 := by exact_mod_cast hn.ne'
  congr 1; field_simp

/-- C03: hence the last entry is the heading `b`. -/
theorem C03_last_heading (a b : ℝ) (n : ℕ) (hn : 0 < n) :
    ∃ v, (angleLinspace a b n).getLast? = some v ∧ Real.cos v = Real.cos b ∧
      Real.sin v = Real.sin b := by
  obtain ⟨v, hv, z, rfl⟩ := C03_last a b n hn
  exact ⟨_, hv, Real.cos_add_int_mul_two_pi b z, Real.sin_add_int_mul_two_pi b z⟩

/-- Going from heading 3 to heading -3 turns by `2π - 6`, not by `-6`: the last entry is
`2π - 3`. -/
example : (angleLinspace (3 : ℝ) (-3) 1).getLast? = some (2 * Real.pi - 3) := by
  obtain ⟨d, h1, h2, ⟨z, hz⟩, -, hl, h⟩ := C03_short_way 3 (-3) 1
  have hpi := Real.pi_gt_three
  have hpi' := Real.pi_le_four
  have hz1 : z = 1 := by
    have a1 : (0 : ℝ) < z := by
      by_contra hc
      have : (z : ℝ) ≤ 0 := not_lt.mp hc
      nlinarith
    have a2 : (z : ℝ) < 2 := by
      by_contra hc
      have : (2 : ℝ) ≤ z := not_lt.mp hc
      nlinarith
    have b1 : 0 < z := by exact_mod_cast a1
    have b2 : z < 2 := by exact_mod_cast a2
    omega
  rw [List.getLast?_eq_getElem?, hl, h 1 le_rfl le_rfl]
  rw [hz1] at hz
  congr 1; push_cast at hz ⊢; linarith

end Trajopt.Props
