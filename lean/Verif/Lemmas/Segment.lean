import Verif.Lemmas.Semantics
import Mathlib.Analysis.Convex.PathConnected

/-! # Distance of two segments -/

set_option autoImplicit false

namespace Trajopt

/-- A straight line leaving the unit square leaves it through a side. -/
theorem exit_square {x₀ x₁ : ℝ × ℝ} (h₀ : x₀ ∈ Set.Icc (0 : ℝ) 1 ×ˢ Set.Icc (0 : ℝ) 1)
    (h₁ : x₁ ∉ Set.Icc (0 : ℝ) 1 ×ˢ Set.Icc (0 : ℝ) 1) :
    ∃ l : ℝ, 0 ≤ l ∧ l ≤ 1 ∧ ∃ x : ℝ × ℝ, x = x₀ + l • (x₁ - x₀) ∧
      x ∈ Set.Icc (0 : ℝ) 1 ×ˢ Set.Icc (0 : ℝ) 1 ∧
      (x.1 = 0 ∨ x.1 = 1 ∨ x.2 = 0 ∨ x.2 = 1) := by
  have hconn : IsPreconnected (segment ℝ x₀ x₁) := (convex_segment x₀ x₁).isPreconnected
  have hmeet : ∃ x ∈ segment ℝ x₀ x₁, x ∈ (Set.Icc (0 : ℝ) 1 ×ˢ Set.Icc (0 : ℝ) 1) ∧
      x ∉ Set.Ioo (0 : ℝ) 1 ×ˢ Set.Ioo (0 : ℝ) 1 := by
    by_contra hno
    push Not at hno
    obtain ⟨x, -, hx1, hx2⟩ := hconn (Set.Ioo (0 : ℝ) 1 ×ˢ Set.Ioo (0 : ℝ) 1)
      (Set.Icc (0 : ℝ) 1 ×ˢ Set.Icc (0 : ℝ) 1)ᶜ (isOpen_Ioo.prod isOpen_Ioo)
      (isClosed_Icc.prod isClosed_Icc).isOpen_compl
      (fun x hx => by
        by_cases h : x ∈ Set.Icc (0 : ℝ) 1 ×ˢ Set.Icc (0 : ℝ) 1
        · exact .inl (hno x hx h)
        · exact .inr h)
      ⟨x₀, left_mem_segment ℝ x₀ x₁, hno x₀ (left_mem_segment ℝ x₀ x₁) h₀⟩
      ⟨x₁, right_mem_segment ℝ x₀ x₁, h₁⟩
    exact hx2 ⟨Set.Ioo_subset_Icc_self hx1.1, Set.Ioo_subset_Icc_self hx1.2⟩
  obtain ⟨x, hx, hin, hout⟩ := hmeet
  rw [segment_eq_image'] at hx
  obtain ⟨l, ⟨hl0, hl1⟩, rfl⟩ := hx
  dsimp only at hin hout
  refine ⟨l, hl0, hl1, _, rfl, hin, ?_⟩
  generalize x₀ + l • (x₁ - x₀) = x at hin hout
  obtain ⟨⟨h1, h2⟩, h3, h4⟩ := hin
  by_contra hne
  push Not at hne
  obtain ⟨n1, n2, n3, n4⟩ := hne
  exact hout ⟨⟨lt_of_le_of_ne h1 (Ne.symm n1), lt_of_le_of_ne h2 n2⟩,
    lt_of_le_of_ne h3 (Ne.symm n3), lt_of_le_of_ne h4 n4⟩

/-- The distance of two segments with no common point is that of an end point of one to a point of
the other. -/
theorem segment_dist {a b c e : ℂ} (hdis : ∀ z, z ∈ segment ℝ a b → z ∉ segment ℝ c e) {d : ℝ}
    (hc : ∀ q ∈ segment ℝ a b, d ≤ dist q c) (he : ∀ q ∈ segment ℝ a b, d ≤ dist q e)
    (ha : ∀ q ∈ segment ℝ c e, d ≤ dist q a) (hb : ∀ q ∈ segment ℝ c e, d ≤ dist q b)
    {p q : ℂ} (hp : p ∈ segment ℝ a b) (hq : q ∈ segment ℝ c e) : d ≤ dist p q := by
  rw [segment_eq_image'] at hp hq
  obtain ⟨s₀, hs₀, rfl⟩ := hp
  obtain ⟨t₀, ht₀, rfl⟩ := hq
  set F : ℝ × ℝ → ℂ := fun x => (a + x.1 • (b - a)) - (c + x.2 • (e - c)) with hF
  have hmemA : ∀ s ∈ Set.Icc (0 : ℝ) 1, a + s • (b - a) ∈ segment ℝ a b := fun s hs => by
    rw [segment_eq_image']; exact ⟨s, hs, rfl⟩
  have hmemC : ∀ t ∈ Set.Icc (0 : ℝ) 1, c + t • (e - c) ∈ segment ℝ c e := fun t ht => by
    rw [segment_eq_image']; exact ⟨t, ht, rfl⟩
  have key : ∀ x₁ : ℝ × ℝ, x₁ ∉ Set.Icc (0 : ℝ) 1 ×ˢ Set.Icc (0 : ℝ) 1 →
      (∀ l : ℝ, 0 ≤ l → l ≤ 1 → ‖F ((s₀, t₀) + l • (x₁ - (s₀, t₀)))‖ ≤ ‖F (s₀, t₀)‖) →
      d ≤ ‖F (s₀, t₀)‖ := by
    intro x₁ hx₁ hl
    obtain ⟨l, h0, h1, x, hx, ⟨hin1, hin2⟩, hb'⟩ := exit_square (x₀ := (s₀, t₀)) ⟨hs₀, ht₀⟩ hx₁
    refine le_trans ?_ (hl l h0 h1)
    rw [← hx]
    rcases hb' with h | h | h | h
    · have := ha _ (hmemC _ hin2)
      rw [dist_comm, dist_eq_norm] at this
      simpa [hF, h] using this
    · have := hb _ (hmemC _ hin2)
      rw [dist_comm, dist_eq_norm] at this
      simpa [hF, h] using this
    · have := hc _ (hmemA _ hin1)
      rw [dist_eq_norm] at this
      simpa [hF, h] using this
    · have := he _ (hmemA _ hin1)
      rw [dist_eq_norm] at this
      simpa [hF, h] using this
  rw [dist_eq_norm]
  change d ≤ ‖F (s₀, t₀)‖
  have hlin : ∀ (x₁ : ℝ × ℝ) (l : ℝ), F ((s₀, t₀) + l • (x₁ - (s₀, t₀))) =
      F (s₀, t₀) + l • (F x₁ - F (s₀, t₀)) := by
    intro x₁ l
    simp only [hF, Prod.fst_add, Prod.snd_add, Prod.smul_fst, Prod.smul_snd, Prod.fst_sub,
      Prod.snd_sub, smul_eq_mul, Complex.real_smul]
    push_cast
    ring
  by_cases hdet : (b - a).re * (e - c).im - (b - a).im * (e - c).re = 0
  · -- parallel: slide along
    have slide : ∃ x₁ : ℝ × ℝ, x₁ ∉ Set.Icc (0 : ℝ) 1 ×ˢ Set.Icc (0 : ℝ) 1 ∧ F x₁ = F (s₀, t₀) := by
      have base : ∀ α β : ℝ, (α ≠ 0 ∨ β ≠ 0) → (α : ℂ) * (b - a) = β * (e - c) →
          ∃ x₁ : ℝ × ℝ, x₁ ∉ Set.Icc (0 : ℝ) 1 ×ˢ Set.Icc (0 : ℝ) 1 ∧ F x₁ = F (s₀, t₀) := by
        intro α β hne hab
        have hM : ∀ M : ℝ, F (s₀ + M * α, t₀ + M * β) = F (s₀, t₀) := by
          intro M
          simp only [hF, Complex.real_smul]
          push_cast
          linear_combination (M : ℂ) * hab
        rcases hne with h | h
        · refine ⟨(s₀ + 2 / α * α, t₀ + 2 / α * β), ?_, hM _⟩
          rintro ⟨⟨-, h2⟩, -⟩
          simp only [div_mul_cancel₀ _ h] at h2
          linarith [hs₀.1]
        · refine ⟨(s₀ + 2 / β * α, t₀ + 2 / β * β), ?_, hM _⟩
          rintro ⟨-, -, h2⟩
          simp only [div_mul_cancel₀ _ h] at h2
          linarith [ht₀.1]
      by_cases hv : b - a = 0
      · exact base 1 0 (by simp) (by simp [hv])
      · by_cases hre : (b - a).re = 0
        · have him : (b - a).im ≠ 0 := fun h => hv (Complex.ext hre h)
          refine base (e - c).im (b - a).im (.inr him) ?_
          apply Complex.ext
          · simp only [Complex.re_ofReal_mul]
            linarith
          · simp only [Complex.im_ofReal_mul]
            ring
        · refine base (e - c).re (b - a).re (.inr hre) ?_
          apply Complex.ext
          · simp only [Complex.re_ofReal_mul]
            ring
          · simp only [Complex.im_ofReal_mul]
            linarith
    obtain ⟨x₁, hx₁, hFx⟩ := slide
    refine key x₁ hx₁ fun l _ _ => ?_
    rw [hlin, hFx, sub_self, smul_zero, add_zero]
  · -- not parallel: head for the crossing point of the two lines
    set D := (b - a).re * (e - c).im - (b - a).im * (e - c).re with hD
    set s₁ := ((c - a).re * (e - c).im - (c - a).im * (e - c).re) / D with hs₁
    set t₁ := ((c - a).re * (b - a).im - (c - a).im * (b - a).re) / D with ht₁
    have hF0 : F (s₁, t₁) = 0 := by
      have e1 : s₁ * D = (c - a).re * (e - c).im - (c - a).im * (e - c).re :=
        div_mul_cancel₀ _ hdet
      have e2 : t₁ * D = (c - a).re * (b - a).im - (c - a).im * (b - a).re :=
        div_mul_cancel₀ _ hdet
      apply Complex.ext
      · apply mul_right_cancel₀ hdet
        simp only [hF, Complex.real_smul, Complex.sub_re, Complex.add_re, Complex.re_ofReal_mul,
          Complex.zero_re, zero_mul] at *
        simp only [Complex.sub_im] at *
        linear_combination (b.re - a.re) * e1 - (e.re - c.re) * e2 - (c.re - a.re) * hD
      · apply mul_right_cancel₀ hdet
        simp only [hF, Complex.real_smul, Complex.sub_im, Complex.add_im, Complex.im_ofReal_mul,
          Complex.zero_im, zero_mul] at *
        simp only [Complex.sub_re] at *
        linear_combination (b.im - a.im) * e1 - (e.im - c.im) * e2 - (c.im - a.im) * hD
    have hout : (s₁, t₁) ∉ Set.Icc (0 : ℝ) 1 ×ˢ Set.Icc (0 : ℝ) 1 := by
      rintro ⟨h1, h2⟩
      refine hdis _ (hmemA _ h1) ?_
      have := hmemC _ h2
      rwa [← sub_eq_zero.mp hF0] at this
    refine key _ hout fun l h0 h1 => ?_
    rw [hlin, hF0, zero_sub, smul_neg, ← sub_eq_add_neg]
    have : F (s₀, t₀) - l • F (s₀, t₀) = (1 - l) • F (s₀, t₀) := by rw [sub_smul, one_smul]
    rw [this, norm_smul, Real.norm_of_nonneg (by linarith)]
    have := norm_nonneg (F (s₀, t₀))
    nlinarith

end Trajopt
