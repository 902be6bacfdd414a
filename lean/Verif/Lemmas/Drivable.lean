import Verif.Spec.Drivable
import Verif.Props.EndToEnd
import Verif.Props.Reach
import Mathlib.Analysis.Complex.Norm
import Mathlib.Algebra.Order.BigOperators.Group.Finset
import Mathlib.Algebra.Order.Archimedean.Basic

/-!
# Lemmas: slow motion along curves
-/

set_option autoImplicit false

namespace Trajopt

open Spec Props

/-! ### Forces -/

theorem exists_lower {α : Type} (f : α → ℝ) (l : List α) (h : ∀ a ∈ l, 0 < f a) :
    ∃ ε : ℝ, 0 < ε ∧ ∀ a ∈ l, ε ≤ f a := by
  induction l with
  | nil => exact ⟨1, one_pos, by simp⟩
  | cons a l ih =>
    obtain ⟨ε, h0, hε⟩ := ih fun a ha => h a (by simp [ha])
    refine ⟨min ε (f a), lt_min h0 (h a (by simp)), ?_⟩
    intro b hb
    rcases List.mem_cons.mp hb with rfl | hb
    · exact min_le_right _ _
    · exact (min_le_left _ _).trans (hε b hb)

theorem exists_upper {α : Type} (f : α → ℝ) (l : List α) :
    ∃ C : ℝ, 0 ≤ C ∧ ∀ a ∈ l, f a ≤ C := by
  induction l with
  | nil => exact ⟨0, le_rfl, by simp⟩
  | cons a l ih =>
    obtain ⟨C, h0, hC⟩ := ih
    refine ⟨max C (f a), h0.trans (le_max_left _ _), ?_⟩
    intro b hb
    rcases List.mem_cons.mp hb with rfl | hb
    · exact le_max_right _ _
    · exact (hC b hb).trans (le_max_left _ _)

/-- A capable robot can produce all small accelerations at all small speeds. -/
theorem capable_dynamics {dr : SwerveDrivetrain ℝ} (h : Capable dr) : ∃ δ : ℝ, 0 < δ ∧
    ∀ s : State, ‖s.heading‖ = 1 → ‖s.vel‖ ≤ δ → |s.omega| ≤ δ → ‖s.acc‖ ≤ δ → |s.alpha| ≤ δ →
      ∃ F, Dynamics dr s F := by
  obtain ⟨f, hf0, hf⟩ := exists_lower maxForce dr.modules fun m hm => by
    have := h.speed m hm
    have := h.torque m hm
    unfold maxForce
    simp_all
  obtain ⟨v, hv0, hv⟩ := exists_lower maxSpeed dr.modules fun m hm => by
    have := h.speed m hm
    unfold maxSpeed
    simp_all
  obtain ⟨ρ, hρ0, hρ⟩ := exists_upper (fun m : SwerveModule ℝ => ‖vec m.translation‖) dr.modules
  set k := dr.modules.length with hk
  let r : Fin k → ℂ := fun j => vec dr.modules[j].translation
  have hk0 : (k : ℂ) ≠ 0 := by
    obtain ⟨m, hm, -⟩ := h.apart
    have : 0 < k := List.length_pos_of_mem hm
    exact_mod_cast this.ne'
  set c : ℂ := (∑ j, r j) / k with hc
  have hsum : ∑ j, (r j - c) = 0 := by
    rw [Finset.sum_sub_distrib, Finset.sum_const, Finset.card_univ, Fintype.card_fin, hc]
    simp only [nsmul_eq_mul]
    field_simp
    ring
  set S : ℝ := ∑ j, ‖r j - c‖ ^ 2 with hS
  have hS0 : 0 < S := by
    by_contra hn
    have hz : ∀ j, r j = c := by
      have h0 : S = 0 := le_antisymm (not_lt.mp hn) (Finset.sum_nonneg fun _ _ => by positivity)
      intro j
      have := (Finset.sum_eq_zero_iff_of_nonneg (fun _ _ => by positivity)).mp h0 j (Finset.mem_univ j)
      have : ‖r j - c‖ = 0 := by simpa using this
      exact sub_eq_zero.mp (norm_eq_zero.mp this)
    obtain ⟨m₁, h₁, m₂, h₂, hne⟩ := h.apart
    apply hne
    obtain ⟨i, hi, rfl⟩ := List.mem_iff_getElem.mp h₁
    obtain ⟨j, hj, rfl⟩ := List.mem_iff_getElem.mp h₂
    have e : vec dr.modules[i].translation = vec dr.modules[j].translation :=
      (hz ⟨i, hi⟩).trans (hz ⟨j, hj⟩).symm
    have hr := congrArg Complex.re e
    have hi := congrArg Complex.im e
    simp only [vec] at hr hi
    cases h1 : dr.modules[i].translation
    cases h2 : dr.modules[j].translation
    simp_all
  have hmom : ∑ j, ((starRingEnd ℂ) (r j) * (r j - c)) = (S : ℂ) := by
    have : ∀ j, (starRingEnd ℂ) (r j) * (r j - c) =
        ((‖r j - c‖ ^ 2 : ℝ) : ℂ) + (starRingEnd ℂ) c * (r j - c) := by
      intro j
      have := Complex.mul_conj (r j - c)
      rw [Complex.normSq_eq_norm_sq] at this
      rw [← this, map_sub]
      ring
    simp only [this, Finset.sum_add_distrib, ← Finset.mul_sum, hsum, mul_zero, add_zero, hS]
    push_cast
    rfl
  obtain ⟨R, hR0, hR⟩ := exists_upper (fun j => ‖r j - c‖) (List.finRange k)
  set C : ℝ := |dr.mass| + (|dr.moi| + ‖c‖ * |dr.mass|) / S * R with hC
  have hC0 : 0 ≤ C := by positivity
  refine ⟨min (v / (1 + ρ)) (f / (1 + C)), lt_min (by positivity) (by positivity), ?_⟩
  intro s hu hvel hom hacc hal
  have hd1 : min (v / (1 + ρ)) (f / (1 + C)) * (1 + ρ) ≤ v := by
    calc _ ≤ v / (1 + ρ) * (1 + ρ) := mul_le_mul_of_nonneg_right (min_le_left _ _) (by positivity)
      _ = v := by field_simp
  have hd2 : min (v / (1 + ρ)) (f / (1 + C)) * (1 + C) ≤ f := by
    calc _ ≤ f / (1 + C) * (1 + C) := mul_le_mul_of_nonneg_right (min_le_right _ _) (by positivity)
      _ = f := by field_simp
  have hd0 : 0 ≤ min (v / (1 + ρ)) (f / (1 + C)) := le_min (by positivity) (by positivity)
  generalize min (v / (1 + ρ)) (f / (1 + C)) = δ at *
  -- torque of the mean force, about the origin
  set T₀ : ℝ := ((starRingEnd ℂ) (c * s.heading) * (dr.mass * s.acc)).im with hT₀
  set q : ℝ := (dr.moi * s.alpha - T₀) / S with hq
  have hhh : (starRingEnd ℂ) s.heading * s.heading = 1 := by
    rw [mul_comm, Complex.mul_conj, Complex.normSq_eq_norm_sq, hu]; simp
  obtain ⟨F, hF⟩ : ∃ F : ℕ → ℂ, ∀ j : Fin dr.modules.length,
      F j = dr.mass * s.acc / k + q * Complex.I * (r j - c) * s.heading :=
    ⟨fun j => if hj : j < k then dr.mass * s.acc / k + q * Complex.I * (r ⟨j, hj⟩ - c) * s.heading
      else 0, fun j => dif_pos j.2⟩
  refine ⟨F, ?_, ?_, ?_, ?_⟩
  · simp only [hF]
    rw [Finset.sum_add_distrib, ← Finset.sum_mul, ← Finset.mul_sum, hsum, Finset.sum_const,
      Finset.card_univ, Fintype.card_fin]
    simp only [nsmul_eq_mul, mul_zero, zero_mul, add_zero, ← hk]
    field_simp
  · simp only [hF, torque, lever]
    rw [← Complex.im_sum]
    have : ∑ j : Fin k, (starRingEnd ℂ) (vec dr.modules[j].translation * s.heading) *
        (dr.mass * s.acc / k + q * Complex.I * (r j - c) * s.heading) =
        (starRingEnd ℂ) (c * s.heading) * (dr.mass * s.acc) + (q * S : ℝ) * Complex.I := by
      have e : ∀ j : Fin k, (starRingEnd ℂ) (vec dr.modules[j].translation * s.heading) *
        (dr.mass * s.acc / k + q * Complex.I * (r j - c) * s.heading) =
        (starRingEnd ℂ) (r j) * ((starRingEnd ℂ) s.heading * (dr.mass * s.acc / k)) +
          (starRingEnd ℂ) (r j) * (r j - c) * (q * Complex.I) := by
        intro j
        simp only [map_mul]
        change (starRingEnd ℂ) (r j) * _ * _ = _
        linear_combination (starRingEnd ℂ) (r j) * (q * Complex.I * (r j - c)) * hhh
      rw [Finset.sum_congr rfl fun j _ => e j, Finset.sum_add_distrib, ← Finset.sum_mul,
        ← Finset.sum_mul, hmom, ← map_sum]
      have hcr : ∑ j, r j = k * c := by rw [hc]; field_simp
      rw [hcr]
      simp only [map_mul, map_natCast]
      push_cast
      field_simp
    rw [this, Complex.add_im, ← hT₀, hq]
    simp only [Complex.mul_im, Complex.ofReal_re, Complex.ofReal_im, Complex.I_re, Complex.I_im]
    field_simp
    ring
  · intro m hm
    refine le_trans ?_ (hv m hm)
    refine le_trans ?_ hd1
    unfold wheelVelocity
    refine (norm_add_le _ _).trans ?_
    rw [norm_mul, norm_mul, norm_mul, Complex.norm_conj, hu, Complex.norm_I, Complex.norm_real,
      Real.norm_eq_abs, one_mul, one_mul, mul_add, mul_one]
    exact add_le_add hvel (mul_le_mul hom (hρ m hm) (norm_nonneg _) hd0)
  · intro j
    rw [hF]
    refine le_trans ?_ (hf _ (List.getElem_mem _))
    refine le_trans ?_ hd2
    have h1 : ‖(dr.mass * s.acc / k : ℂ)‖ ≤ |dr.mass| * δ := by
      rw [norm_div, norm_mul, Complex.norm_real, Real.norm_eq_abs, Complex.norm_natCast]
      have hk1 : (1 : ℝ) ≤ k := by exact_mod_cast Nat.one_le_iff_ne_zero.mpr (by exact_mod_cast hk0)
      refine (div_le_self (by positivity) hk1).trans ?_
      gcongr
    have h2 : |q| ≤ (|dr.moi| + ‖c‖ * |dr.mass|) / S * δ := by
      rw [hq, abs_div, abs_of_pos hS0, div_mul_eq_mul_div]
      gcongr
      refine (abs_sub _ _).trans ?_
      rw [abs_mul, add_mul]
      refine add_le_add (by gcongr) ?_
      refine (Complex.abs_im_le_norm _).trans ?_
      rw [norm_mul, Complex.norm_conj, norm_mul, norm_mul, hu, Complex.norm_real, Real.norm_eq_abs,
        mul_one, ← mul_assoc]
      gcongr
    refine (norm_add_le _ _).trans ?_
    rw [norm_mul, norm_mul, norm_mul, Complex.norm_I, hu, Complex.norm_real, Real.norm_eq_abs,
      mul_one, mul_one]
    have h3 : |q| * ‖r j - c‖ ≤ (|dr.moi| + ‖c‖ * |dr.mass|) / S * δ * R :=
      mul_le_mul h2 (hR j (List.mem_finRange j)) (norm_nonneg _) (by positivity)
    rw [hC]
    nlinarith

/-- Some positive duration respects the step cap. -/
theorem exists_step (dr : SwerveDrivetrain ℝ) : ∃ τ : ℝ, 0 < τ ∧ ∀ m ∈ dr.modules, ∀ g, Gap dr g →
    τ * m.wheelRadius * m.wheelMaxAngularVelocity ≤ g := by
  obtain ⟨V, hV0, hV⟩ := exists_upper
    (fun m : SwerveModule ℝ => m.wheelRadius * m.wheelMaxAngularVelocity) dr.modules
  let gaps := (dr.modules.zip dr.modules.tail).flatMap fun ab =>
    [|ab.1.translation.x - ab.2.translation.x|, |ab.1.translation.y - ab.2.translation.y|]
  obtain ⟨g₀, hg0, hg⟩ := exists_lower id (gaps.filter fun g => decide (g ≠ 0)) (by
    intro g hg
    simp only [List.mem_filter, gaps, List.mem_flatMap, decide_eq_true_eq] at hg
    obtain ⟨⟨ab, -, hg⟩, h0⟩ := hg
    have : 0 ≤ g := by
      simp only [List.mem_cons, List.not_mem_nil, or_false] at hg
      rcases hg with rfl | rfl <;> exact abs_nonneg _
    exact lt_of_le_of_ne this (Ne.symm h0))
  refine ⟨g₀ / (1 + V), by positivity, ?_⟩
  intro m hm g ⟨h0, a, b, hab, h⟩
  refine le_trans ?_ (hg g ?_)
  · rw [mul_assoc, div_mul_eq_mul_div, div_le_iff₀ (by positivity)]
    have := hV m hm
    nlinarith
  · simp only [List.mem_filter, gaps, List.mem_flatMap, decide_eq_true_eq]
    exact ⟨⟨(a, b), hab, by simpa using h⟩, h0⟩

/-! ### The profile -/

/-- Part of the way covered in interval `k` of `N`. -/
noncomputable def share (N k : ℕ) : ℝ := 6 * k * (N - k) / (N * (N ^ 2 - 1))

/-- Part of the way covered in the first `k` intervals. -/
noncomputable def covered (N : ℕ) : ℕ → ℝ
  | 0 => 0
  | k + 1 => covered N k + share N (k + 1)

theorem covered_eq (N k : ℕ) (hN : 2 ≤ N) :
    covered N k = k * (k + 1) * (3 * N - 2 * k - 1) / (N * (N ^ 2 - 1)) := by
  have : (2 : ℝ) ≤ N := by exact_mod_cast hN
  have h0 : (N : ℝ) * (N ^ 2 - 1) ≠ 0 := by
    have : 0 < (N : ℝ) ^ 2 - 1 := by nlinarith
    positivity
  induction k with
  | zero => simp [covered]
  | succ k ih =>
    rw [covered, ih, share]
    field_simp
    push_cast
    ring

theorem covered_last (N : ℕ) (hN : 2 ≤ N) : covered N N = 1 := by
  rw [covered_eq N N hN]
  have : (2 : ℝ) ≤ N := by exact_mod_cast hN
  have h0 : (N : ℝ) * (N ^ 2 - 1) ≠ 0 := by
    have : 0 < (N : ℝ) ^ 2 - 1 := by nlinarith
    positivity
  rw [div_eq_one_iff_eq h0]
  ring

theorem share_nonneg (N k : ℕ) (hN : 2 ≤ N) (hk : k ≤ N) : 0 ≤ share N k := by
  have : (2 : ℝ) ≤ N := by exact_mod_cast hN
  have hk : (k : ℝ) ≤ N := by exact_mod_cast hk
  have : 0 < (N : ℝ) ^ 2 - 1 := by nlinarith
  have : 0 ≤ (N : ℝ) - k := by linarith
  unfold share
  positivity

theorem share_le (N k : ℕ) (hN : 2 ≤ N) : share N k ≤ 2 / N := by
  have h2 : (2 : ℝ) ≤ N := by exact_mod_cast hN
  have h3 : 0 < (N : ℝ) ^ 2 - 1 := by nlinarith
  unfold share
  rw [div_le_div_iff₀ (by positivity) (by positivity)]
  have h4 : (k : ℝ) * (N - k) ≤ N ^ 2 / 4 := by nlinarith [sq_nonneg ((N : ℝ) - 2 * k)]
  have h5 : (0 : ℝ) < N := by linarith
  have : 6 * ((k : ℝ) * (N - k)) ≤ 2 * (N ^ 2 - 1) := by nlinarith
  nlinarith

theorem share_diff (N k : ℕ) (hN : 2 ≤ N) (hk : k < N) : |share N (k + 1) - share N k| ≤ 6 / N ^ 2 := by
  have h2 : (2 : ℝ) ≤ N := by exact_mod_cast hN
  have hk : (k : ℝ) + 1 ≤ N := by exact_mod_cast hk
  have h3 : 0 < (N : ℝ) ^ 2 - 1 := by nlinarith
  have h5 : (0 : ℝ) < N := by linarith
  have hk0 : (0 : ℝ) ≤ k := Nat.cast_nonneg _
  have e : share N (k + 1) - share N k = 6 * (N - 2 * k - 1) / (N * (N ^ 2 - 1)) := by
    unfold share
    push_cast
    field_simp
    ring
  rw [e, abs_div, abs_of_pos (show 0 < (N : ℝ) * (N ^ 2 - 1) by positivity),
    div_le_div_iff₀ (by positivity) (by positivity)]
  have : |6 * ((N : ℝ) - 2 * k - 1)| ≤ 6 * (N - 1) := by
    rw [abs_le]; constructor <;> linarith
  have h6 : |6 * ((N : ℝ) - 2 * k - 1)| * N ^ 2 ≤ 6 * (N - 1) * N ^ 2 :=
    mul_le_mul_of_nonneg_right this (by positivity)
  nlinarith

theorem covered_range (N k : ℕ) (hN : 2 ≤ N) (hk : k ≤ N) : 0 ≤ covered N k ∧ covered N k ≤ 1 := by
  have mono : ∀ i j, i ≤ j → j ≤ N → covered N i ≤ covered N j := by
    intro i j hij
    induction hij with
    | refl => intro _; exact le_rfl
    | @step j hij ih =>
      intro hj
      rw [covered]
      have := share_nonneg N (j + 1) hN hj
      have := ih (by omega)
      linarith
  constructor
  · simpa [covered] using mono 0 k (by omega) hk
  · rw [← covered_last N hN]
    exact mono k N hk le_rfl

/-! ### Curves -/

section Curves

variable {E : Type} [NormedAddCommGroup E] [NormedSpace ℝ E] {f : ℝ → E} {L M : ℝ}

theorem Spec.Smooth.lipschitz (h : Smooth f L M) {u v : ℝ} (hu : u ∈ Set.Icc (0 : ℝ) 1)
    (hv : v ∈ Set.Icc (0 : ℝ) 1) : ‖f v - f u‖ ≤ L * |v - u| := by
  obtain ⟨f', hf⟩ := h
  exact (convex_Icc (0 : ℝ) 1).norm_image_sub_le_of_norm_hasDerivWithin_le
    (fun x hx => (hf x hx).1) (fun x hx => (hf x hx).2.1) hu hv

theorem Spec.Smooth.nonneg (h : Smooth f L M) : 0 ≤ L := by
  obtain ⟨f', hf⟩ := h
  exact (norm_nonneg _).trans (hf 0 (by simp)).2.1

theorem Spec.Smooth.nonneg' (h : Smooth f L M) : 0 ≤ M := by
  obtain ⟨f', hf⟩ := h
  have := (norm_nonneg _).trans ((hf 0 (by simp)).2.2 1 (by simp))
  simpa using this

/-- Steps forward and backward from the same point. -/
theorem Spec.Smooth.second (h : Smooth f L M) {u a b : ℝ} (ha : 0 ≤ a) (hb : 0 ≤ b)
    (hu : u ∈ Set.Icc (0 : ℝ) 1) (hua : u - a ∈ Set.Icc (0 : ℝ) 1) (hub : u + b ∈ Set.Icc (0 : ℝ) 1) :
    ‖(f (u + b) - f u) - (f u - f (u - a))‖ ≤ L * |b - a| + M * (a ^ 2 + b ^ 2) := by
  have hM := h.nonneg'
  obtain ⟨f', hf⟩ := h
  -- first-order expansion
  have key : ∀ v ∈ Set.Icc (0 : ℝ) 1, ‖f v - f u - (v - u) • f' u‖ ≤ M * |v - u| ^ 2 := by
    intro v hv
    have hsub : Set.uIcc u v ⊆ Set.Icc (0 : ℝ) 1 := Set.uIcc_subset_Icc hu hv
    have := (convex_uIcc u v).norm_image_sub_le_of_norm_hasDerivWithin_le
      (f := fun x => f x - x • f' u) (f' := fun x => f' x - f' u) (C := M * |v - u|)
      (fun x hx => ((hf x (hsub hx)).1.mono hsub).sub (by
        simpa using (hasDerivWithinAt_id x (Set.uIcc u v)).smul_const (f' u)))
      (fun x hx => by
        refine ((hf x (hsub hx)).2.2 u hu).trans ?_
        refine mul_le_mul_of_nonneg_left ?_ hM
        exact Set.abs_sub_left_of_mem_uIcc hx)
      Set.left_mem_uIcc Set.right_mem_uIcc
    rw [Real.norm_eq_abs] at this
    calc ‖f v - f u - (v - u) • f' u‖ = ‖(f v - v • f' u) - (f u - u • f' u)‖ := by
          congr 1
          rw [sub_smul]
          abel
      _ ≤ M * |v - u| * |v - u| := this
      _ = M * |v - u| ^ 2 := by ring
  have k1 := key _ hub
  have k2 := key _ hua
  rw [show u + b - u = b by ring, abs_of_nonneg hb] at k1
  rw [show u - a - u = -a by ring, abs_neg, abs_of_nonneg ha] at k2
  have e : (f (u + b) - f u) - (f u - f (u - a)) = (f (u + b) - f u - b • f' u) +
      (f (u - a) - f u - (-a) • f' u) + (b - a) • f' u := by
    rw [sub_smul, neg_smul]
    abel
  rw [e]
  have k3 : ‖(b - a) • f' u‖ ≤ L * |b - a| := by
    rw [norm_smul, Real.norm_eq_abs, mul_comm]
    exact mul_le_mul_of_nonneg_right (hf u hu).2.1 (abs_nonneg _)
  have := norm_add₃_le (a := f (u + b) - f u - b • f' u) (b := f (u - a) - f u - (-a) • f' u)
    (c := (b - a) • f' u)
  linarith

theorem smooth_straight (p q : E) : Smooth (straight p q) ‖q - p‖ 0 := by
  refine ⟨fun _ => q - p, fun u _ => ⟨?_, le_rfl, by simp⟩⟩
  have := (((hasDerivAt_id u).smul_const (q - p)).const_add p).hasDerivWithinAt (s := Set.Icc 0 1)
  rwa [one_smul] at this

theorem contDiff_straight (p q : E) : ContDiff ℝ 2 (straight p q) := by
  unfold straight
  fun_prop

theorem Spec.Smooth.mono (h : Smooth f L M) {L' M' : ℝ} (hL : L ≤ L') (hM : M ≤ M') :
    Smooth f L' M' := by
  obtain ⟨f', hf⟩ := h
  exact ⟨f', fun u hu => ⟨(hf u hu).1, (hf u hu).2.1.trans hL, fun v hv =>
    ((hf u hu).2.2 v hv).trans (by gcongr)⟩⟩

theorem exists_smooth (h : ContDiff ℝ 2 f) : ∃ L M, Smooth f L M := by
  have h1 : ContDiff ℝ 1 (deriv f) := by
    have : ContDiff ℝ (1 + 1) f := by simpa [one_add_one_eq_two] using h
    exact (contDiff_succ_iff_deriv.mp this).2.2
  obtain ⟨L, hL⟩ := (isCompact_Icc (a := (0 : ℝ)) (b := 1)).exists_bound_of_continuousOn
    h1.continuous.continuousOn
  obtain ⟨M, hM⟩ := (isCompact_Icc (a := (0 : ℝ)) (b := 1)).exists_bound_of_continuousOn
    (h1.continuous_deriv le_rfl).continuousOn
  refine ⟨L, M, deriv f, fun u hu => ⟨?_, hL u hu, fun v hv => ?_⟩⟩
  · exact (h.differentiable (by norm_num) u).hasDerivAt.hasDerivWithinAt
  · have := (convex_Icc (0 : ℝ) 1).norm_image_sub_le_of_norm_hasDerivWithin_le
      (fun x _ => (h1.differentiable (by norm_num) x).hasDerivAt.hasDerivWithinAt) hM hv hu
    simpa using this

/-- What `f` does in step `k` of `N`. -/
noncomputable def step (f : ℝ → E) (N k : ℕ) : E :=
  if k = 0 then 0 else f (covered N k) - f (covered N (k - 1))

theorem step_le (h : Smooth f L M) (N : ℕ) (hN : 2 ≤ N) (k : ℕ) (hk : k ≤ N) :
    ‖step f N k‖ ≤ 2 * L / N := by
  have hL := h.nonneg
  cases k with
  | zero =>
    simp only [step, if_true, norm_zero]
    positivity
  | succ k =>
    have hr := covered_range N (k + 1) hN hk
    have hr' := covered_range N k hN (by omega)
    rw [step, if_neg (by omega), Nat.add_sub_cancel]
    refine (h.lipschitz hr' hr).trans ?_
    rw [covered, add_sub_cancel_left, abs_of_nonneg (share_nonneg N (k + 1) hN hk)]
    have := share_le N (k + 1) hN
    calc _ ≤ L * (2 / N) := by gcongr
      _ = 2 * L / N := by ring

theorem step_diff (h : Smooth f L M) (N : ℕ) (hN : 2 ≤ N) (k : ℕ) (hk : k < N) :
    ‖step f N (k + 1) - step f N k‖ ≤ (6 * L + 8 * M) / N ^ 2 := by
  have hL := h.nonneg
  have hM := h.nonneg'
  have hd := share_diff N k hN hk
  cases k with
  | zero =>
    have hr := covered_range N 1 hN hk
    simp only [step, if_true, sub_zero, zero_add, one_ne_zero, if_false, Nat.sub_self]
    refine (h.lipschitz (covered_range N 0 hN (by omega)) hr).trans ?_
    have e : |covered N 1 - covered N 0| ≤ 6 / N ^ 2 := by
      have : share N 0 = 0 := by simp [share]
      simp only [covered, zero_add, sub_zero]
      simpa [this] using hd
    calc _ ≤ L * (6 / N ^ 2) := by gcongr
      _ = (6 * L + 8 * 0) / N ^ 2 := by ring
      _ ≤ _ := by gcongr
  | succ k =>
    have h0 := share_nonneg N (k + 1) hN (by omega)
    have h1 := share_nonneg N (k + 1 + 1) hN (by omega)
    have h2 := share_le N (k + 1) hN
    have h3 := share_le N (k + 1 + 1) hN
    have r0 := covered_range N k hN (by omega)
    have r1 := covered_range N (k + 1) hN (by omega)
    have r2 := covered_range N (k + 1 + 1) hN (by omega)
    have e2 : covered N (k + 1 + 1) = covered N (k + 1) + share N (k + 1 + 1) := rfl
    have e0 : covered N k = covered N (k + 1) - share N (k + 1) := by rw [covered]; ring
    rw [step, step, if_neg (by omega), if_neg (by omega), Nat.add_sub_cancel, Nat.add_sub_cancel]
    rw [e0] at r0 ⊢
    rw [e2] at r2 ⊢
    refine (h.second h0 h1 r1 r0 r2).trans ?_
    have s0 : share N (k + 1) ^ 2 ≤ (2 / N) ^ 2 := by gcongr
    have s1 : share N (k + 1 + 1) ^ 2 ≤ (2 / N) ^ 2 := by gcongr
    calc _ ≤ L * (6 / N ^ 2) + M * ((2 / N) ^ 2 + (2 / N) ^ 2) := by gcongr
      _ = (6 * L + 8 * M) / N ^ 2 := by ring

end Curves

/-! ### The trajectory -/

/-- State after `k` of `N` intervals of duration `τ` along `γ`, turning as `φ` says. -/
noncomputable def slow (τ : ℝ) (N : ℕ) (γ : ℝ → ℂ) (φ : ℝ → ℝ) (k : ℕ) : State where
  pos := γ (covered N k)
  heading := unitVec (φ (covered N k))
  vel := step γ N k / τ
  omega := step φ N k / τ
  acc := if k = 0 then 0 else (step γ N k - step γ N (k - 1)) / τ ^ 2
  alpha := if k = 0 then 0 else (step φ N k - step φ N (k - 1)) / τ ^ 2

/-- One segment after the other; `q`, `θ` is the first pose. -/
noncomputable def slowStates (τ : ℝ) (q : ℂ) (θ : ℝ) : List ℕ → (ℕ → ℝ → ℂ) → (ℕ → ℝ → ℝ) → ℕ → State
  | [], _, _, _ => ⟨q, unitVec θ, 0, 0, 0, 0⟩
  | N :: rest, γ, φ, n =>
    if n ≤ N then slow τ N (γ 0) (φ 0) n
    else slowStates τ (γ 0 1) (φ 0 1) rest (fun i => γ (i + 1)) (fun i => φ (i + 1)) (n - N)

/-- Standing at `p` with heading `θ`. -/
def Stands (s : State) (p : ℂ) (θ : ℝ) : Prop :=
  s.pos = p ∧ s.heading = unitVec θ ∧ s.vel = 0 ∧ s.omega = 0

theorem slow_start (τ : ℝ) (N : ℕ) (γ : ℝ → ℂ) (φ : ℝ → ℝ) :
    Stands (slow τ N γ φ 0) (γ 0) (φ 0) := by
  simp [Stands, slow, covered, step]

theorem slow_stop (τ : ℝ) (N : ℕ) (hN : 2 ≤ N) (γ : ℝ → ℂ) (φ : ℝ → ℝ) :
    Stands (slow τ N γ φ N) (γ 1) (φ 1) := by
  have h1 := covered_last N hN
  have h0 : covered N (N - 1) = 1 := by
    obtain ⟨k, rfl⟩ : ∃ k, N = k + 1 := ⟨N - 1, by omega⟩
    rw [covered] at h1
    rw [Nat.add_sub_cancel, ← h1]
    simp [share]
  simp [Stands, slow, h1, step, h0]

theorem slowStates_waypoint (τ : ℝ) (counts : List ℕ) (hc : ∀ N ∈ counts, 2 ≤ N) (p : ℕ → ℂ)
    (θ : ℕ → ℝ) (γ : ℕ → ℝ → ℂ) (φ : ℕ → ℝ → ℝ) (hγ0 : ∀ s < counts.length, γ s 0 = p s)
    (hγ1 : ∀ s < counts.length, γ s 1 = p (s + 1)) (hφ0 : ∀ s < counts.length, φ s 0 = θ s)
    (hφ1 : ∀ s < counts.length, φ s 1 = θ (s + 1)) (w : ℕ) (hw : w ≤ counts.length) :
    Stands (slowStates τ (p 0) (θ 0) counts γ φ (waypointSample counts w)) (p w) (θ w) := by
  induction counts generalizing p θ γ φ w with
  | nil =>
    obtain rfl : w = 0 := by simpa using hw
    simp [slowStates, Stands]
  | cons N rest ih =>
    have hN := hc N (by simp)
    rw [slowStates]
    cases w with
    | zero =>
      rw [← hγ0 0 (by simp), ← hφ0 0 (by simp)]
      simpa [waypointSample] using slow_start ..
    | succ w =>
      have hw : w ≤ rest.length := by simpa using hw
      have e : waypointSample (N :: rest) (w + 1) = N + waypointSample rest w := by
        simp [waypointSample]
      rw [e]
      split
      · have h0 : waypointSample rest w = 0 := by omega
        have hw0 : w = 0 := by
          by_contra hne
          obtain ⟨M, rest', rfl⟩ : ∃ M rest', rest = M :: rest' := by
            cases rest with
            | nil => simp at hw; omega
            | cons M r => exact ⟨M, r, rfl⟩
          have hM := hc M (by simp)
          obtain ⟨v, rfl⟩ := Nat.exists_eq_succ_of_ne_zero hne
          simp [waypointSample] at h0
          omega
        subst hw0
        rw [h0, ← hγ1 0 (by simp), ← hφ1 0 (by simp)]
        exact slow_stop τ N hN _ _
      · rw [Nat.add_sub_cancel_left, hγ1 0 (by simp), hφ1 0 (by simp)]
        exact ih (fun M hM => hc M (by simp [hM])) (fun i => p (i + 1)) (fun i => θ (i + 1))
          (fun i => γ (i + 1)) (fun i => φ (i + 1)) (fun s hs => hγ0 _ (by simpa using hs))
          (fun s hs => hγ1 _ (by simpa using hs)) (fun s hs => hφ0 _ (by simpa using hs))
          (fun s hs => hφ1 _ (by simpa using hs)) w hw

theorem slowStates_inside (τ : ℝ) (q : ℂ) (θ : ℝ) (counts : List ℕ) (γ : ℕ → ℝ → ℂ)
    (φ : ℕ → ℝ → ℝ) (s : ℕ) (hs : s < counts.length) (k : ℕ) (hk : 1 ≤ k) (hkN : k ≤ counts[s]) :
    slowStates τ q θ counts γ φ (waypointSample counts s + k) =
      slow τ counts[s] (γ s) (φ s) k := by
  induction counts generalizing q θ γ φ s with
  | nil => simp at hs
  | cons N rest ih =>
    rw [slowStates]
    cases s with
    | zero =>
      simp only [waypointSample, List.take_zero, List.sum_nil, zero_add, List.getElem_cons_zero]
        at hkN ⊢
      rw [if_pos hkN]
    | succ s =>
      have hs : s < rest.length := by simpa using hs
      have e : waypointSample (N :: rest) (s + 1) = N + waypointSample rest s := by
        simp [waypointSample]
      rw [e, if_neg (by omega), show N + waypointSample rest s + k - N = waypointSample rest s + k by
        omega]
      exact ih _ _ (fun i => γ (i + 1)) (fun i => φ (i + 1)) s hs hkN

/-- Consecutive states. -/
theorem slow_interval (τ : ℝ) (hτ : 0 < τ) (N : ℕ) (γ : ℝ → ℂ) (φ : ℝ → ℝ) (k : ℕ) (a : State)
    (ha : a.pos = (slow τ N γ φ k).pos) (hh : a.heading = (slow τ N γ φ k).heading)
    (hv : a.vel = (slow τ N γ φ k).vel) (ho : a.omega = (slow τ N γ φ k).omega) :
    Interval τ a (slow τ N γ φ (k + 1)) := by
  have hτ0 : τ ≠ 0 := hτ.ne'
  have hτc : (τ : ℂ) ≠ 0 := by exact_mod_cast hτ0
  constructor
  · rw [ha]
    simp only [slow, step, Nat.succ_ne_zero, if_false, Nat.add_sub_cancel]
    field_simp
    ring
  · left
    rw [hh]
    simp only [slow, step, Nat.succ_ne_zero, if_false, Nat.add_sub_cancel]
    rw [div_mul_cancel₀ _ hτ0]
    nth_rw 1 [← sub_add_cancel (φ (covered N (k + 1))) (φ (covered N k))]
    rw [unitVec_add, mul_assoc, Complex.mul_conj, Complex.normSq_eq_norm_sq, norm_unitVec]
    simp
  · rw [hv]
    simp only [slow, Nat.add_sub_cancel, Nat.succ_ne_zero, if_false]
    field_simp
    ring
  · rw [ho]
    simp only [slow, Nat.add_sub_cancel, Nat.succ_ne_zero, if_false]
    field_simp
    ring

/-- Slow states are slow. -/
theorem slow_small (τ : ℝ) (hτ : 0 < τ) (N : ℕ) (hN : 2 ≤ N) (L M δ : ℝ) (γ : ℝ → ℂ) (φ : ℝ → ℝ)
    (hγ : Smooth γ L M) (hφ : Smooth φ L M) (h1 : 2 * L ≤ δ * (N * τ))
    (h2 : 6 * L + 8 * M ≤ δ * (N * τ) ^ 2) (k : ℕ) (hk : k ≤ N) :
    ‖(slow τ N γ φ k).vel‖ ≤ δ ∧ |(slow τ N γ φ k).omega| ≤ δ ∧
    ‖(slow τ N γ φ k).acc‖ ≤ δ ∧ |(slow τ N γ φ k).alpha| ≤ δ := by
  have hN' : (0 : ℝ) < N := by exact_mod_cast (by omega : 0 < N)
  have hL := hγ.nonneg
  have hM := hγ.nonneg'
  have hs1 : 2 * L / N / τ ≤ δ := by
    rw [div_div, div_le_iff₀ (by positivity)]
    exact h1
  have ha1 : (6 * L + 8 * M) / N ^ 2 / τ ^ 2 ≤ δ := by
    rw [div_div, ← mul_pow, div_le_iff₀ (by positivity)]
    exact h2
  have hδ : 0 ≤ δ := le_trans (by positivity) hs1
  have habs : |τ ^ 2| = τ ^ 2 := abs_of_pos (by positivity)
  refine ⟨?_, ?_, ?_, ?_⟩
  · simp only [slow, norm_div, Complex.norm_real, Real.norm_eq_abs, abs_of_pos hτ]
    exact (div_le_div_of_nonneg_right (step_le hγ N hN k hk) hτ.le).trans hs1
  · simp only [slow, abs_div, abs_of_pos hτ]
    exact (div_le_div_of_nonneg_right (step_le hφ N hN k hk) hτ.le).trans hs1
  · cases k with
    | zero => simpa [slow] using hδ
    | succ k =>
      simp only [slow, Nat.succ_ne_zero, if_false, Nat.add_sub_cancel, norm_div, norm_pow,
        Complex.norm_real, Real.norm_eq_abs, abs_of_pos hτ]
      exact (div_le_div_of_nonneg_right (step_diff hγ N hN k hk) (by positivity)).trans ha1
  · cases k with
    | zero => simpa [slow] using hδ
    | succ k =>
      simp only [slow, Nat.succ_ne_zero, if_false, Nat.add_sub_cancel, abs_div, habs]
      exact (div_le_div_of_nonneg_right (step_diff hφ N hN k hk) (by positivity)).trans ha1

/-- The trajectory of slow states drives the path. -/
theorem slow_obeys (t : PathTable ℝ) (dr : SwerveDrivetrain ℝ) (p : ℕ → ℂ) (θ : ℕ → ℝ)
    (γ : ℕ → ℝ → ℂ) (φ : ℕ → ℝ → ℝ) (δ L M τ : ℝ)
    (hτ : 0 < τ) (hcap : ∀ m ∈ dr.modules, ∀ g, Gap dr g →
      τ * m.wheelRadius * m.wheelMaxAngularVelocity ≤ g)
    (hδ : 0 < δ) (hdyn : ∀ s : State, ‖s.heading‖ = 1 → ‖s.vel‖ ≤ δ → |s.omega| ≤ δ → ‖s.acc‖ ≤ δ →
      |s.alpha| ≤ δ → ∃ F, Dynamics dr s F)
    (hγ : ∀ s < t.counts.length, Smooth (γ s) L M ∧ γ s 0 = p s ∧ γ s 1 = p (s + 1))
    (hφ : ∀ s < t.counts.length, Smooth (φ s) L M ∧ φ s 0 = θ s ∧ φ s 1 = θ (s + 1))
    (hN : ∀ N ∈ t.counts, 2 ≤ N ∧ 2 * L ≤ δ * (N * τ) ∧ 6 * L + 8 * M ≤ δ * (N * τ) ^ 2)
    (hi : ∀ w ≤ t.counts.length, ∀ c ∈ t.instant w, AllowsStop c δ (p w) (θ w))
    (hc : ∀ s < t.counts.length, ∀ c ∈ t.continuous s, Tolerates c δ (γ s) (φ s)) :
    ∃ T, Obeys t dr T ∧ ∀ w ≤ t.counts.length, Stands (T.state (waypointSample t.counts w)) (p w) (θ w) := by
  have h2 : ∀ N ∈ t.counts, 2 ≤ N := fun N h => (hN N h).1
  have wp := slowStates_waypoint τ t.counts h2 p θ γ φ (fun s hs => (hγ s hs).2.1)
    (fun s hs => (hγ s hs).2.2) (fun s hs => (hφ s hs).2.1) (fun s hs => (hφ s hs).2.2)
  -- every sample of a segment
  have inside : ∀ s, (hs : s < t.counts.length) → ∀ n ∈ segmentSamples t.counts s,
      ∃ k < t.counts[s], n = waypointSample t.counts s + (k + 1) ∧
        slowStates τ (p 0) (θ 0) t.counts γ φ n = slow τ t.counts[s] (γ s) (φ s) (k + 1) := by
    intro s hs n hn
    simp only [segmentSamples, Finset.mem_Ioc] at hn
    have e : waypointSample t.counts (s + 1) = waypointSample t.counts s + t.counts[s] := by
      simp only [waypointSample]
      rw [← List.take_append_getElem hs, List.sum_append]
      simp
    obtain ⟨k, rfl⟩ := Nat.exists_eq_add_of_lt hn.1
    refine ⟨k, by omega, by omega, ?_⟩
    rw [add_assoc]
    exact slowStates_inside τ _ _ t.counts γ φ s hs (k + 1) (by omega) (by omega)
  have small : ∀ s, (hs : s < t.counts.length) → ∀ k ≤ t.counts[s], _ := fun s hs k hk =>
    slow_small τ hτ t.counts[s] (h2 _ (List.getElem_mem hs)) L M δ (γ s) (φ s)
      (hγ s hs).1 (hφ s hs).1 (hN _ (List.getElem_mem hs)).2.1 (hN _ (List.getElem_mem hs)).2.2 k hk
  have all : ∀ n < sampleCount t.counts, ‖(slowStates τ (p 0) (θ 0) t.counts γ φ n).heading‖ = 1 ∧
      ‖(slowStates τ (p 0) (θ 0) t.counts γ φ n).vel‖ ≤ δ ∧
      |(slowStates τ (p 0) (θ 0) t.counts γ φ n).omega| ≤ δ ∧
      ‖(slowStates τ (p 0) (θ 0) t.counts γ φ n).acc‖ ≤ δ ∧
      |(slowStates τ (p 0) (θ 0) t.counts γ φ n).alpha| ≤ δ := by
    intro n hn
    rcases Nat.eq_zero_or_pos n with rfl | h0
    · cases t.counts with
      | nil => simp [slowStates, norm_unitVec, hδ.le]
      | cons N r =>
        rw [slowStates, if_pos (Nat.zero_le _)]
        simp [slow, step, norm_unitVec, hδ.le]
    · obtain ⟨s, ⟨hs, hm⟩, -⟩ := (C01_tiling t.counts).1 n h0 hn
      obtain ⟨k, hk, -, e⟩ := inside s hs n hm
      rw [e]
      exact ⟨norm_unitVec _, small s hs (k + 1) hk⟩
  choose! F hF using hdyn
  refine ⟨⟨slowStates τ (p 0) (θ 0) t.counts γ φ,
    fun n => F (slowStates τ (p 0) (θ 0) t.counts γ φ n), fun _ => τ⟩, ?_, wp⟩
  constructor
  · intro s hs n hn
    obtain ⟨k, hk, rfl, e⟩ := inside s hs n hn
    simp only [e]
    cases k with
    | zero =>
      have h := wp s hs.le
      have h' := slow_start τ t.counts[s] (γ s) (φ s)
      rw [(hγ s hs).2.1, (hφ s hs).2.1] at h'
      refine slow_interval τ hτ _ _ _ 0 _ ?_ ?_ ?_ ?_
      · rw [Nat.add_sub_cancel, h'.1]; exact h.1
      · rw [Nat.add_sub_cancel, h'.2.1]; exact h.2.1
      · rw [Nat.add_sub_cancel, h'.2.2.1]; exact h.2.2.1
      · rw [Nat.add_sub_cancel, h'.2.2.2]; exact h.2.2.2
    | succ k =>
      have e' := slowStates_inside τ (p 0) (θ 0) t.counts γ φ s hs (k + 1) (by omega) (by omega)
      refine slow_interval τ hτ _ _ _ (k + 1) _ ?_ ?_ ?_ ?_ <;>
        rw [show waypointSample t.counts s + (k + 1 + 1) - 1 = waypointSample t.counts s + (k + 1) by
          omega, e']
  · intro n hn
    obtain ⟨h1, h2, h3, h4, h5⟩ := all n hn
    exact hF _ h1 h2 h3 h4 h5
  · intro s _; exact hτ.le
  · intro s _; exact hcap
  · intro w hw c hcw
    obtain ⟨h1, h2, h3, h4⟩ := wp w hw
    have hlt : waypointSample t.counts w < sampleCount t.counts := by
      have := sum_take_le t.counts w
      simp only [waypointSample, sampleCount]; omega
    obtain ⟨-, -, -, h5, h6⟩ := all _ hlt
    exact hi w hw c hcw _ h1 h2 h3 h4 h5 h6
  · intro s hs c hcs n hn
    obtain ⟨k, hk, -, e⟩ := inside s hs n hn
    obtain ⟨s1, s2, s3, s4⟩ := small s hs (k + 1) hk
    simp only [e]
    have hr := covered_range t.counts[s] (k + 1) (h2 _ (List.getElem_mem hs)) hk
    exact hc s hs c hcs _ hr _ rfl rfl s1 s2 s3 s4

end Trajopt
