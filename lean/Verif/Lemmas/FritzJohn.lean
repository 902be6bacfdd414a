import Mathlib.Analysis.Calculus.ContDiff.Basic
import Mathlib.Analysis.Calculus.ContDiff.RCLike
import Mathlib.Analysis.Calculus.ContDiff.Comp
import Mathlib.Analysis.Calculus.FDeriv.Pow
import Mathlib.Analysis.Calculus.Deriv.Pow
import Mathlib.Analysis.Calculus.LocalExtr.Basic
import Mathlib.Analysis.Normed.Module.FiniteDimension
import Mathlib.Analysis.Asymptotics.Lemmas
import Mathlib.Topology.MetricSpace.ProperSpace.Lemmas

/-!
# First-order conditions at a constrained minimum

The conditions of Fritz John, by penalties (McShane).
-/

set_option autoImplicit false

namespace Trajopt.Props

open Filter Topology

/-- How far a constraint is violated: an equation `t = 0` or an inequality `t ≤ 0`. -/
noncomputable def excess (eq : Bool) (t : ℝ) : ℝ := if eq then t else max t 0

theorem excess_zero (eq : Bool) (t : ℝ) : excess eq t = 0 ↔ if eq then t = 0 else t ≤ 0 := by
  cases eq <;> simp [excess]

theorem hasDerivAt_excess (eq : Bool) (t : ℝ) :
    HasDerivAt (fun u => excess eq u ^ 2) (2 * excess eq t) t := by
  cases eq with
  | true => simpa [excess] using hasDerivAt_pow 2 t
  | false =>
    simp only [excess, Bool.false_eq_true, if_false]
    rcases lt_trichotomy t 0 with h | h | h
    · rw [max_eq_right h.le, mul_zero]
      refine (hasDerivAt_const t (0 : ℝ)).congr_of_eventuallyEq ?_
      filter_upwards [eventually_lt_nhds h] with u hu
      rw [max_eq_right hu.le]
      simp
    · subst h
      rw [max_self, mul_zero]
      rw [hasDerivAt_iff_isLittleO]
      simp only [max_self, sub_zero, smul_zero]
      refine Asymptotics.IsBigO.trans_isLittleO (g := fun u : ℝ => u ^ 2) ?_
        (Asymptotics.isLittleO_pow_id one_lt_two)
      refine Asymptotics.IsBigO.of_bound 1 (Eventually.of_forall fun u => ?_)
      rw [one_mul]
      rcases le_total u 0 with hu | hu
      · simp [max_eq_right hu, sq_nonneg]
      · simp [max_eq_left hu]
    · rw [max_eq_left h.le]
      have := hasDerivAt_pow 2 t
      simp only [Nat.cast_ofNat, Nat.add_one_sub_one, pow_one] at this
      refine this.congr_of_eventuallyEq ?_
      filter_upwards [eventually_gt_nhds h] with u hu
      rw [max_eq_left hu.le]

theorem continuous_excess (eq : Bool) : Continuous (excess eq) := by
  cases eq
  · exact continuous_id.max continuous_const
  · exact continuous_id

variable {n : ℕ} {κ : Type} [Fintype κ]

/-- Near a constrained minimum there are points where a combination of the gradients is small. -/
theorem nearly_stationary (eq : κ → Bool) (φ : (Fin n → ℝ) → ℝ) (g : κ → (Fin n → ℝ) → ℝ)
    (x₀ : Fin n → ℝ) (hφ : ContDiffAt ℝ 1 φ x₀) (hg : ∀ j, ContDiffAt ℝ 1 (g j) x₀)
    (hfeas : ∀ j, excess (eq j) (g j x₀) = 0)
    (hmin : ∀ᶠ x in 𝓝 x₀, (∀ j, excess (eq j) (g j x) = 0) → φ x₀ ≤ φ x) (ε : ℝ) (hε : 0 < ε) :
    ∃ (x : Fin n → ℝ) (M : ℝ × (κ → ℝ)), dist x x₀ ≤ ε ∧ ‖M‖ = 1 ∧ 0 ≤ M.1 ∧
      (∀ j, eq j = false → 0 ≤ M.2 j ∧ (g j x ≤ 0 → M.2 j = 0)) ∧
      ∀ d, |M.1 * fderiv ℝ φ x d + ∑ j, M.2 j * fderiv ℝ (g j) x d| ≤ 2 * ε * ∑ i, |d i| := by
  classical
  have hev : ∀ᶠ x in 𝓝 x₀, (ContDiffAt ℝ 1 φ x ∧ ∀ j, ContDiffAt ℝ 1 (g j) x) ∧
      ((∀ j, excess (eq j) (g j x) = 0) → φ x₀ ≤ φ x) := by
    refine ((hφ.eventually (by simp)).and ?_).and hmin
    rw [eventually_all]
    exact fun j => (hg j).eventually (by simp)
  obtain ⟨r, hr, hball⟩ := Metric.eventually_nhds_iff.mp hev
  obtain ⟨δ, hδ, hδr, hδε⟩ : ∃ δ, 0 < δ ∧ δ < r ∧ δ ≤ ε :=
    ⟨min (r / 2) ε, by positivity, (min_le_left _ _).trans_lt (by linarith), min_le_right _ _⟩
  have hin : ∀ x, dist x x₀ ≤ δ → _ := fun x hx => @hball x (hx.trans_lt hδr)
  let q : (Fin n → ℝ) → ℝ := fun x => ∑ i, (x i - x₀ i) ^ 2
  let pen : (Fin n → ℝ) → ℝ := fun x => ∑ j, excess (eq j) (g j x) ^ 2
  have hpen0 : ∀ x, 0 ≤ pen x := fun x => Finset.sum_nonneg fun j _ => sq_nonneg _
  let F : ℕ → (Fin n → ℝ) → ℝ := fun k x => φ x + q x + k / 2 * pen x
  have hcont : ∀ k, ContinuousOn (F k) (Metric.closedBall x₀ δ) := by
    intro k x hx
    have h := (hin x hx).1
    have h1 : ContinuousAt φ x := h.1.continuousAt
    have h2 : ∀ j, ContinuousAt (g j) x := fun j => (h.2 j).continuousAt
    have h3 : ContinuousAt q x := by
      refine Continuous.continuousAt ?_
      fun_prop
    have h4 : ContinuousAt pen x := by
      refine tendsto_finsetSum _ fun j _ => ?_
      exact (((continuous_excess (eq j)).continuousAt.comp (h2 j)).pow 2)
    exact ((h1.add h3).add (continuousAt_const.mul h4)).continuousWithinAt
  have hq : ∀ x, x ≠ x₀ → 0 < q x := by
    intro x hx
    obtain ⟨i, hi⟩ := Function.ne_iff.mp hx
    refine lt_of_lt_of_le ?_ (Finset.single_le_sum (f := fun i => (x i - x₀ i) ^ 2)
      (fun i _ => sq_nonneg _) (Finset.mem_univ i))
    have := sub_ne_zero.mpr hi
    positivity
  -- with a high enough penalty the sphere is out of the question
  obtain ⟨k, hk⟩ : ∃ k : ℕ, ∀ x, dist x x₀ = δ → φ x₀ < F k x := by
    by_contra hno
    push Not at hno
    let C : ℕ → Set (Fin n → ℝ) := fun k => Metric.sphere x₀ δ ∩ {x | F k x ≤ φ x₀}
    have hCc : ∀ k, IsClosed (C k) := fun k =>
      ((hcont k).mono Metric.sphere_subset_closedBall).preimage_isClosed_of_isClosed
        Metric.isClosed_sphere isClosed_Iic
    obtain ⟨x, hx⟩ := IsCompact.nonempty_iInter_of_sequence_nonempty_isCompact_isClosed C
      (fun k x hx => ⟨hx.1, by
        have h1 : F (k + 1) x ≤ φ x₀ := hx.2
        have h2 : F k x ≤ F (k + 1) x := by
          have := hpen0 x
          simp only [F]
          push_cast
          nlinarith
        exact h2.trans h1⟩)
      (fun k => (hno k).imp fun x hx => ⟨hx.1, hx.2⟩)
      ((isCompact_sphere x₀ δ).of_isClosed_subset (hCc 0) Set.inter_subset_left) hCc
    have hx' : ∀ k : ℕ, dist x x₀ = δ ∧ F k x ≤ φ x₀ := fun k => by
      have := Set.mem_iInter.mp hx k
      exact ⟨this.1, this.2⟩
    have hne : x ≠ x₀ := by
      rintro rfl
      have := (hx' 0).1
      rw [dist_self] at this
      exact hδ.ne this
    have hp : pen x = 0 := by
      by_contra h
      have hpos : 0 < pen x := lt_of_le_of_ne (hpen0 x) (Ne.symm h)
      obtain ⟨k, hk⟩ := exists_nat_gt ((φ x₀ - φ x - q x) * 2 / pen x)
      rw [div_lt_iff₀ hpos] at hk
      have := (hx' k).2
      simp only [F] at this
      nlinarith
    have hf : ∀ j, excess (eq j) (g j x) = 0 := fun j => by
      have := (Finset.sum_eq_zero_iff_of_nonneg (fun j _ => sq_nonneg _)).mp hp j (Finset.mem_univ j)
      exact pow_eq_zero_iff (two_ne_zero) |>.mp this
    have h1 := (hin x (hx' 0).1.le).2 hf
    have h2 := (hx' 0).2
    simp only [F, hp] at h2
    have := hq x hne
    linarith
  obtain ⟨x, hxb, hx⟩ := (isCompact_closedBall x₀ δ).exists_isMinOn
    ⟨x₀, Metric.mem_closedBall_self hδ.le⟩ (hcont k)
  have hFx₀ : F k x₀ = φ x₀ := by simp [F, q, pen, hfeas]
  have hlt : dist x x₀ < δ := by
    refine lt_of_le_of_ne hxb fun h => ?_
    have h1 := hk x h
    have h2 : F k x ≤ F k x₀ := hx (Metric.mem_closedBall_self hδ.le)
    linarith
  have hloc : IsLocalMin (F k) x := hx.isLocalMin (Metric.closedBall_mem_nhds_of_mem hlt)
  have hd := (hin x hxb).1
  have hdφ : HasFDerivAt φ (fderiv ℝ φ x) x := (hd.1.differentiableAt (by simp)).hasFDerivAt
  have hdg : ∀ j, HasFDerivAt (g j) (fderiv ℝ (g j) x) x :=
    fun j => ((hd.2 j).differentiableAt (by simp)).hasFDerivAt
  have hdq : HasFDerivAt q (∑ i, (2 * (x i - x₀ i)) •
      ContinuousLinearMap.proj (R := ℝ) (φ := fun _ : Fin n => ℝ) i) x := by
    refine HasFDerivAt.fun_sum fun i _ => ?_
    have h1 : HasFDerivAt (fun y : Fin n → ℝ => y i - x₀ i)
        (ContinuousLinearMap.proj (R := ℝ) (φ := fun _ : Fin n => ℝ) i) x :=
      (ContinuousLinearMap.proj (R := ℝ) (φ := fun _ : Fin n => ℝ) i).hasFDerivAt.sub_const _
    simpa using h1.pow 2
  have hdpen : HasFDerivAt pen (∑ j, (2 * excess (eq j) (g j x)) • fderiv ℝ (g j) x) x :=
    HasFDerivAt.fun_sum fun j _ => (hasDerivAt_excess (eq j) (g j x)).comp_hasFDerivAt x (hdg j)
  have hdF := (hdφ.add hdq).add (hdpen.const_mul ((k : ℝ) / 2))
  have hzero := hloc.hasFDerivAt_eq_zero hdF
  -- the multipliers, up to a factor
  let v : ℝ × (κ → ℝ) := (1, fun j => k * excess (eq j) (g j x))
  have hv : 1 ≤ ‖v‖ := by simp [v]
  have hv0 : 0 < ‖v‖ := one_pos.trans_le hv
  refine ⟨x, ‖v‖⁻¹ • v, hxb.trans hδε, ?_, ?_, ?_, ?_⟩
  · rw [norm_smul, norm_inv, norm_norm, inv_mul_cancel₀ hv0.ne']
  · simp [v]
  · intro j hj
    have h1 : 0 ≤ ‖v‖⁻¹ := inv_nonneg.mpr hv0.le
    have h2 : 0 ≤ excess (eq j) (g j x) := by simp [excess, hj]
    have h3 : (0 : ℝ) ≤ k := k.cast_nonneg
    refine ⟨?_, fun h => ?_⟩
    · change 0 ≤ ‖v‖⁻¹ * (k * excess (eq j) (g j x))
      positivity
    · change ‖v‖⁻¹ * (k * excess (eq j) (g j x)) = 0
      rw [(excess_zero (eq j) (g j x)).mpr (by simpa [hj] using h)]
      simp
  · intro d
    have h := congrArg (fun L => L d) hzero
    simp only [add_apply, smul_apply, smul_eq_mul,
      sum_apply, zero_apply,
      ContinuousLinearMap.proj_apply] at h
    have h' : 1 * fderiv ℝ φ x d + ∑ j, k * excess (eq j) (g j x) * fderiv ℝ (g j) x d =
        -∑ i, 2 * (x i - x₀ i) * d i := by
      have : (k : ℝ) / 2 * ∑ j, 2 * excess (eq j) (g j x) * fderiv ℝ (g j) x d =
          ∑ j, k * excess (eq j) (g j x) * fderiv ℝ (g j) x d := by
        rw [Finset.mul_sum]
        refine Finset.sum_congr rfl fun j _ => ?_
        ring
      rw [← this]
      linarith
    change |‖v‖⁻¹ * 1 * fderiv ℝ φ x d +
      ∑ j, ‖v‖⁻¹ * (k * excess (eq j) (g j x)) * fderiv ℝ (g j) x d| ≤ _
    have h2 : ‖v‖⁻¹ * 1 * fderiv ℝ φ x d +
        ∑ j, ‖v‖⁻¹ * (k * excess (eq j) (g j x)) * fderiv ℝ (g j) x d =
        ‖v‖⁻¹ * -∑ i, 2 * (x i - x₀ i) * d i := by
      rw [← h', mul_add, Finset.mul_sum]
      congr 1
      · ring
      · refine Finset.sum_congr rfl fun j _ => ?_
        ring
    rw [h2, abs_mul, abs_neg, abs_of_nonneg (inv_nonneg.mpr hv0.le)]
    have h3 : |∑ i, 2 * (x i - x₀ i) * d i| ≤ 2 * ε * ∑ i, |d i| := by
      refine (Finset.abs_sum_le_sum_abs _ _).trans ?_
      rw [Finset.mul_sum]
      refine Finset.sum_le_sum fun i _ => ?_
      rw [abs_mul, abs_mul, abs_two]
      have : |x i - x₀ i| ≤ ε := by
        rw [← Real.dist_eq]
        exact (dist_le_pi_dist x x₀ i).trans (hxb.trans hδε)
      gcongr
    calc ‖v‖⁻¹ * |∑ i, 2 * (x i - x₀ i) * d i| ≤ 1 * |∑ i, 2 * (x i - x₀ i) * d i| := by
          gcongr
          exact inv_le_one_of_one_le₀ hv
      _ ≤ _ := by rw [one_mul]; exact h3

/-- The conditions of Fritz John at a constrained minimum. -/
theorem fritz_john (eq : κ → Bool) (φ : (Fin n → ℝ) → ℝ) (g : κ → (Fin n → ℝ) → ℝ)
    (x₀ : Fin n → ℝ) (hφ : ContDiffAt ℝ 1 φ x₀) (hg : ∀ j, ContDiffAt ℝ 1 (g j) x₀)
    (hfeas : ∀ j, excess (eq j) (g j x₀) = 0)
    (hmin : ∀ᶠ x in 𝓝 x₀, (∀ j, excess (eq j) (g j x) = 0) → φ x₀ ≤ φ x) :
    ∃ (l : ℝ) (m : κ → ℝ), (l ≠ 0 ∨ ∃ j, m j ≠ 0) ∧ 0 ≤ l ∧
      (∀ j, eq j = false → 0 ≤ m j ∧ (g j x₀ < 0 → m j = 0)) ∧
      ∀ d, l * fderiv ℝ φ x₀ d + ∑ j, m j * fderiv ℝ (g j) x₀ d = 0 := by
  choose x M hx hM h0 hj hd using fun k : ℕ =>
    nearly_stationary eq φ g x₀ hφ hg hfeas hmin (1 / ((k : ℝ) + 1)) Nat.one_div_pos_of_nat
  have hsph : ∀ k, M k ∈ Metric.sphere (0 : ℝ × (κ → ℝ)) 1 := fun k => by
    rw [mem_sphere_zero_iff_norm]
    exact hM k
  obtain ⟨L, hL, s, hs, hlim⟩ := (isCompact_sphere (0 : ℝ × (κ → ℝ)) 1).tendsto_subseq hsph
  have hε : Tendsto (fun k => 1 / ((s k : ℝ) + 1)) atTop (𝓝 0) :=
    tendsto_one_div_add_atTop_nhds_zero_nat.comp hs.tendsto_atTop
  have hxlim : Tendsto (fun k => x (s k)) atTop (𝓝 x₀) :=
    tendsto_iff_dist_tendsto_zero.mpr
      (squeeze_zero (fun _ => dist_nonneg) (fun k => hx (s k)) hε)
  have h1 : Tendsto (fun k => (M (s k)).1) atTop (𝓝 L.1) :=
    (continuous_fst.tendsto L).comp hlim
  have h2 : ∀ j, Tendsto (fun k => (M (s k)).2 j) atTop (𝓝 (L.2 j)) := fun j =>
    (((continuous_apply j).comp continuous_snd).tendsto L).comp hlim
  have hder : ∀ f : (Fin n → ℝ) → ℝ, ContDiffAt ℝ 1 f x₀ → ∀ d,
      Tendsto (fun k => fderiv ℝ f (x (s k)) d) atTop (𝓝 (fderiv ℝ f x₀ d)) := by
    intro f hf d
    have hc : ContinuousAt (fderiv ℝ f) x₀ := hf.continuousAt_fderiv (by simp)
    exact ((ContinuousLinearMap.apply ℝ ℝ d).continuous.continuousAt.comp hc).tendsto.comp hxlim
  refine ⟨L.1, L.2, ?_, ge_of_tendsto' h1 fun k => h0 _, fun j hj' => ⟨?_, fun hneg => ?_⟩, fun d => ?_⟩
  · by_contra h
    push Not at h
    have : L = 0 := Prod.ext h.1 (funext h.2)
    rw [this] at hL
    simp at hL
  · exact ge_of_tendsto' (h2 j) fun k => (hj _ j hj').1
  · have hg' : ∀ᶠ k in atTop, g j (x (s k)) < 0 :=
      ((hg j).continuousAt.tendsto.comp hxlim).eventually (eventually_lt_nhds hneg)
    refine tendsto_nhds_unique_of_eventuallyEq (h2 j) tendsto_const_nhds ?_
    filter_upwards [hg'] with k hk
    exact (hj _ j hj').2 hk.le
  · have hT : Tendsto (fun k => (M (s k)).1 * fderiv ℝ φ (x (s k)) d +
        ∑ j, (M (s k)).2 j * fderiv ℝ (g j) (x (s k)) d) atTop
        (𝓝 (L.1 * fderiv ℝ φ x₀ d + ∑ j, L.2 j * fderiv ℝ (g j) x₀ d)) :=
      (h1.mul (hder φ hφ d)).add
        (tendsto_finsetSum _ fun j _ => (h2 j).mul (hder (g j) (hg j) d))
    have hB : Tendsto (fun k => 2 * (1 / ((s k : ℝ) + 1)) * ∑ i, |d i|) atTop (𝓝 0) := by
      have := (hε.const_mul 2).mul_const (∑ i, |d i|)
      simpa using this
    have hZ := squeeze_zero_norm (fun k => by rw [Real.norm_eq_abs]; exact hd (s k) d) hB
    exact tendsto_nhds_unique hT hZ

end Trajopt.Props
