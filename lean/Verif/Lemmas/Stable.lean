import Verif.Lemmas.Nearby
import Verif.Spec.Stable

/-!
# Helper lemmas for C118: what obeys a path obeys nearby paths up to a tolerance
-/

set_option autoImplicit false

namespace Trajopt

open Spec Props

theorem sq_shift {x y B k δ : ℝ} (hx : 0 ≤ x) (hB : y ≤ B) (hk : 0 ≤ k) (h0 : 0 ≤ δ) (h1 : δ ≤ 1)
    (h : x ≤ y + k * δ) : x ^ 2 ≤ y ^ 2 + (2 * B * k + k ^ 2) * δ := by
  have h2 : x ^ 2 ≤ (y + k * δ) ^ 2 := pow_le_pow_left₀ hx h 2
  have h3 : y * (k * δ) ≤ B * (k * δ) := mul_le_mul_of_nonneg_right hB (by positivity)
  have h4 : k ^ 2 * (δ * δ) ≤ k ^ 2 * (δ * 1) := by gcongr
  nlinarith

/-- The state is no further from the origin than `R`, with unit heading. -/
structure Tame (R : ℝ) (s : State) : Prop where
  pos : ‖s.pos‖ ≤ R
  vel : ‖s.vel‖ ≤ R
  heading : ‖s.heading‖ = 1

theorem onRobot_close {R δ : ℝ} {s : State} (h : Tame R s) {r r' : Translation2 ℝ} (hr : dist (vec r) (vec r') ≤ δ) :
    dist (s.onRobot r) (s.onRobot r') ≤ δ := by
  have e : s.onRobot r - s.onRobot r' = (vec r - vec r') * s.heading := by simp only [State.onRobot]; ring
  rw [dist_eq_norm, e, norm_mul, h.heading, mul_one, ← dist_eq_norm]
  exact hr

theorem norm_onRobot {R : ℝ} {s : State} (h : Tame R s) (r : Translation2 ℝ) : ‖s.onRobot r‖ ≤ R + ‖vec r‖ := by
  simp only [State.onRobot]
  refine (norm_add_le _ _).trans (add_le_add h.pos ?_)
  rw [norm_mul, h.heading, mul_one]

theorem segment_close {p q p' q' z : ℂ} {δ : ℝ} (hp : dist p p' ≤ δ) (hq : dist q q' ≤ δ) (hz : z ∈ segment ℝ p q) :
    ∃ z' ∈ segment ℝ p' q', dist z z' ≤ δ := by
  obtain ⟨a, b, ha, hb, hab, rfl⟩ := hz
  refine ⟨a • p' + b • q', ⟨a, b, ha, hb, hab, rfl⟩, ?_⟩
  rw [dist_eq_norm] at *
  have e : a • p + b • q - (a • p' + b • q') = a • (p - p') + b • (q - q') := by simp only [smul_sub]; ring
  rw [e]
  calc ‖a • (p - p') + b • (q - q')‖ ≤ a * δ + b * δ := (norm_add_le _ _).trans (by
        rw [norm_smul, norm_smul, Real.norm_of_nonneg ha, Real.norm_of_nonneg hb]; gcongr)
    _ = δ := by rw [← add_mul, hab, one_mul]

theorem norm_segment {p q z : ℂ} {B : ℝ} (hp : ‖p‖ ≤ B) (hq : ‖q‖ ≤ B) (hz : z ∈ segment ℝ p q) : ‖z‖ ≤ B := by
  have := (convex_closedBall (0 : ℂ) B).segment_subset (x := p) (y := q) (by simpa using hp) (by simpa using hq) hz
  simpa using this

/-- Keep-outs of the form the code uses for segments. -/
theorem fourth_shift {d d' x y B δ : ℝ} (hx : 0 ≤ x) (hy : 0 ≤ y) (hB : y ≤ B) (h0 : 0 ≤ δ) (h1 : δ ≤ 1)
    (hd : |d - d'| ≤ δ) (h : |d'| ≤ x ^ 2) (hxy : x ≤ y + 2 * δ) :
    d ^ 2 ≤ y ^ 4 + (2 * B ^ 2 * (4 * B + 5) + (4 * B + 5) ^ 2) * δ := by
  have hB0 : 0 ≤ B := hy.trans hB
  have h2 := sq_shift hx hB (by norm_num : (0 : ℝ) ≤ 2) h0 h1 hxy
  have h3 : |d| ≤ y ^ 2 + (4 * B + 5) * δ := by
    have := abs_sub_abs_le_abs_sub d d'
    nlinarith
  have h4 := sq_shift (abs_nonneg d) (pow_le_pow_left₀ hy hB 2) (by positivity) h0 h1 h3
  rw [sq_abs] at h4
  calc d ^ 2 ≤ _ := h4
    _ = _ := by ring

theorem abs_sin_sub (a b : ℝ) : |(unitVec a * (starRingEnd ℂ) (unitVec b)).im| ≤ |a - b| := by
  have : (unitVec a * (starRingEnd ℂ) (unitVec b)).im = Real.sin (a - b) := by
    rw [Real.sin_sub]
    simp [unitVec, Complex.exp_mul_I, Complex.mul_im, ← Complex.ofReal_cos, ← Complex.ofReal_sin]
    ring
  rw [this]
  exact Real.abs_sin_le_abs

theorem vec_inj_ne {p q : Translation2 ℝ} (h : p ≠ q) : vec p ≠ vec q := by
  intro e
  apply h
  have hr := congrArg Complex.re e
  have hi := congrArg Complex.im e
  simp only [vec] at hr hi
  cases p
  cases q
  simp_all

/-- What obeys a constraint obeys a nearby one up to a multiple of the difference. -/
theorem meaning_close {R : ℝ} (hR : 0 ≤ R) (c : Constraint ℝ) (hlen : ¬ HasNoLength c) :
    ∃ K, 0 ≤ K ∧ ∀ δ, 0 ≤ δ → δ ≤ 1 → ∀ c', ConstraintClose δ c c' → ∀ s, Tame R s → Meaning c' s →
      MeaningWithin (K * δ) c s := by
  have speed : ∀ m m' δ : ℝ, 0 ≤ δ → δ ≤ 1 → |m - m'| ≤ δ → ∀ v : ℂ, ‖v‖ ≤ |m'| →
      (m = 0 → Near ((2 * |m| + 1) * δ) v 0) ∧ (m ≠ 0 → ‖v‖ ^ 2 ≤ m ^ 2 + (2 * |m| + 1) * δ) := by
    intro m m' δ h0 h1 h v hv
    have e : ‖v‖ ≤ |m| + 1 * δ := by
      have := abs_sub_abs_le_abs_sub m' m
      rw [abs_sub_comm] at this
      linarith
    constructor
    · rintro rfl
      have hr := Complex.abs_re_le_norm v
      have hi := Complex.abs_im_le_norm v
      rw [abs_zero] at e
      simp only [Near, Complex.zero_re, Complex.zero_im, sub_zero, abs_zero]
      constructor <;> linarith
    · intro _
      have := sq_shift (norm_nonneg v) le_rfl zero_le_one h0 h1 e
      rw [sq_abs] at this
      calc ‖v‖ ^ 2 ≤ _ := this
        _ = _ := by ring
  cases c with
  | angularVelocityMaxMagnitude m =>
    refine ⟨1, zero_le_one, fun δ h0 h1 c' hc s hs hm => ?_⟩
    cases c' <;> simp only [ConstraintClose] at hc
    simp only [Meaning, MeaningWithin] at *
    have := (abs_le.mp hc).1
    linarith
  | linearAccelerationMaxMagnitude m =>
    refine ⟨2 * |m| + 1, by positivity, fun δ h0 h1 c' hc s hs hm => ?_⟩
    cases c' <;> simp only [ConstraintClose] at hc
    exact speed m _ δ h0 h1 hc _ hm
  | linearVelocityMaxMagnitude m =>
    refine ⟨2 * |m| + 1, by positivity, fun δ h0 h1 c' hc s hs hm => ?_⟩
    cases c' <;> simp only [ConstraintClose] at hc
    exact speed m _ δ h0 h1 hc _ hm
  | linearVelocityDirection a =>
    refine ⟨R ^ 2, by positivity, fun δ h0 h1 c' hc s hs hm => ?_⟩
    cases c' with
    | linearVelocityDirection a' =>
      obtain ⟨t, ht⟩ := hm
      simp only [ConstraintClose] at hc
      have hu : ‖unitVec a'‖ = 1 := by rw [unitVec]; exact Complex.norm_exp_ofReal_mul_I a'
      have hR : |t| ≤ R := by
        have := hs.vel
        rw [ht, norm_mul, hu, mul_one, Complex.norm_real, Real.norm_eq_abs] at this
        exact this
      have e : (s.vel * (starRingEnd ℂ) (unitVec a)).im = t * (unitVec a' * (starRingEnd ℂ) (unitVec a)).im := by
        rw [ht, mul_assoc, Complex.im_ofReal_mul]
      have h2 := ((abs_sin_sub a' a).trans_eq (abs_sub_comm _ _)).trans hc
      simp only [MeaningWithin]
      rw [e, mul_pow, ← sq_abs t, ← sq_abs (Complex.im _)]
      have h3 : |(unitVec a' * (starRingEnd ℂ) (unitVec a)).im| ^ 2 ≤ δ := by
        nlinarith [abs_nonneg (unitVec a' * (starRingEnd ℂ) (unitVec a)).im]
      exact mul_le_mul (pow_le_pow_left₀ (abs_nonneg t) hR 2) h3 (sq_nonneg _) (sq_nonneg _)
    | _ => simp only [ConstraintClose] at hc
  | pointAt p tol =>
    refine ⟨R + ‖vec p‖ + 2, by positivity, fun δ h0 h1 c' hc s hs hm => ?_⟩
    cases c' with
    | pointAt p' tol' =>
      obtain ⟨hp, ht⟩ := hc
      simp only [Meaning, MeaningWithin] at *
      have e1 := (abs_le.mp ((Real.abs_cos_sub_cos_le tol tol').trans ht)).2
      have e2 : dist s.pos (vec p) ≤ R + ‖vec p‖ := by
        rw [dist_eq_norm]
        exact (norm_sub_le _ _).trans (add_le_add hs.pos le_rfl)
      have e3 : |dist s.pos (vec p) - dist s.pos (vec p')| ≤ δ := by
        refine le_trans ?_ hp
        rw [dist_comm s.pos, dist_comm s.pos]
        exact abs_dist_sub_le _ _ _
      have e4 : Real.cos tol' * (dist s.pos (vec p) - dist s.pos (vec p')) ≤ δ := by
        refine (le_abs_self _).trans ?_
        rw [abs_mul]
        calc |Real.cos tol'| * |dist s.pos (vec p) - dist s.pos (vec p')| ≤ 1 * δ :=
              mul_le_mul (Real.abs_cos_le_one _) e3 (abs_nonneg _) zero_le_one
          _ = δ := one_mul _
      have e5 : ((vec p' - s.pos) * (starRingEnd ℂ) s.heading).re ≤
          ((vec p - s.pos) * (starRingEnd ℂ) s.heading).re + δ := by
        have e : ((vec p' - s.pos) * (starRingEnd ℂ) s.heading).re -
            ((vec p - s.pos) * (starRingEnd ℂ) s.heading).re = ((vec p' - vec p) * (starRingEnd ℂ) s.heading).re := by
          rw [← Complex.sub_re]; congr 1; ring
        have := Complex.re_le_norm ((vec p' - vec p) * (starRingEnd ℂ) s.heading)
        rw [norm_mul, Complex.norm_conj, hs.heading, mul_one, ← dist_eq_norm, dist_comm] at this
        linarith
      have e6 : (Real.cos tol - Real.cos tol') * dist s.pos (vec p) ≤ δ * (R + ‖vec p‖) :=
        mul_le_mul e1 e2 dist_nonneg h0
      nlinarith
    | _ => simp only [ConstraintClose] at hc
  | linePoint a b p d =>
    set B := R + ‖vec a‖ + ‖vec b‖ + ‖vec p‖ with hB
    refine ⟨2 * B ^ 2 * (4 * B + 5) + (4 * B + 5) ^ 2, by positivity, fun δ h0 h1 c' hc s hs hm => ?_⟩
    cases c' with
    | linePoint a' b' p' d' =>
      obtain ⟨ha, hb, hp, hd⟩ := hc
      refine ⟨?_, fun q hq => ?_⟩
      · simp only [State.onRobot]
        intro e
        have hh : s.heading ≠ 0 := by
          intro h
          have := hs.heading
          rw [h, norm_zero] at this
          norm_num at this
        exact vec_inj_ne hlen (mul_right_cancel₀ hh (add_left_cancel e))
      · obtain ⟨q', hq', hqq⟩ := segment_close (onRobot_close hs ha) (onRobot_close hs hb) hq
        refine fourth_shift dist_nonneg dist_nonneg ?_ h0 h1 hd (hm.2 q' hq') ?_
        · rw [dist_eq_norm]
          have := norm_segment (B := R + ‖vec a‖ + ‖vec b‖) ((norm_onRobot hs a).trans (by linarith [norm_nonneg (vec b)]))
            ((norm_onRobot hs b).trans (by linarith [norm_nonneg (vec a)])) hq
          exact (norm_sub_le _ _).trans (by linarith)
        · have := dist_triangle4 q' q (vec p) (vec p')
          rw [dist_comm q' q] at this
          linarith
    | _ => simp only [ConstraintClose] at hc
  | pointLine r a b d =>
    set B := R + ‖vec r‖ + ‖vec a‖ + ‖vec b‖ with hB
    refine ⟨2 * B ^ 2 * (4 * B + 5) + (4 * B + 5) ^ 2, by positivity, fun δ h0 h1 c' hc s hs hm => ?_⟩
    cases c' with
    | pointLine r' a' b' d' =>
      obtain ⟨hr, ha, hb, hd⟩ := hc
      refine ⟨vec_inj_ne hlen, fun q hq => ?_⟩
      obtain ⟨q', hq', hqq⟩ := segment_close ha hb hq
      refine fourth_shift dist_nonneg dist_nonneg ?_ h0 h1 hd (hm.2 q' hq') ?_
      · rw [dist_eq_norm]
        have := norm_segment (B := ‖vec a‖ + ‖vec b‖) (by linarith [norm_nonneg (vec b)])
          (by linarith [norm_nonneg (vec a)]) hq
        exact (norm_sub_le _ _).trans (by linarith [norm_onRobot hs r])
      · have := dist_triangle4 q' q (s.onRobot r) (s.onRobot r')
        rw [dist_comm q' q] at this
        linarith [onRobot_close hs hr]
    | _ => simp only [ConstraintClose] at hc
  | pointPoint r p d =>
    set B := R + ‖vec r‖ + ‖vec p‖ with hB
    refine ⟨2 * B * 3 + 3 ^ 2, by positivity, fun δ h0 h1 c' hc s hs hm => ?_⟩
    cases c' with
    | pointPoint r' p' d' =>
      obtain ⟨hr, hp, hd⟩ := hc
      simp only [Meaning, MeaningWithin] at *
      have e : |d| ≤ dist (s.onRobot r) (vec p) + 3 * δ := by
        have e1 := abs_sub_abs_le_abs_sub d d'
        have e2 := dist_triangle4 (s.onRobot r') (s.onRobot r) (vec p) (vec p')
        rw [dist_comm (s.onRobot r') (s.onRobot r)] at e2
        linarith [onRobot_close hs hr]
      have hB' : dist (s.onRobot r) (vec p) ≤ B := by
        rw [dist_eq_norm]
        exact (norm_sub_le _ _).trans (by linarith [norm_onRobot hs r])
      have := sq_shift (abs_nonneg d) hB' (by norm_num) h0 h1 e
      rwa [sq_abs] at this
    | _ => simp only [ConstraintClose] at hc
  | poseEquality x y h =>
    refine ⟨1, zero_le_one, fun δ h0 h1 c' hc s hs hm => ?_⟩
    cases c' with
    | poseEquality x' y' h' =>
      obtain ⟨hx, hy, hh⟩ := hc
      obtain ⟨hp, ho⟩ := hm
      rw [one_mul]
      refine ⟨?_, ?_, ?_⟩
      · rw [hp]
        exact ⟨by rw [abs_sub_comm]; exact hx, by rw [abs_sub_comm]; exact hy⟩
      · have := ((abs_sin_sub h' h).trans_eq (abs_sub_comm _ _)).trans hh
        rcases ho with e | e <;> rw [e]
        · exact this
        · rwa [neg_mul, Complex.neg_im, abs_neg]
      · rw [hs.heading]; simpa using h0
    | _ => simp only [ConstraintClose] at hc
  | translationEquality p =>
    refine ⟨1, zero_le_one, fun δ h0 h1 c' hc s hs hm => ?_⟩
    cases c' with
    | translationEquality p' =>
      simp only [Meaning, MeaningWithin, ConstraintClose, one_mul] at *
      rw [hm, dist_comm] at *
      rw [dist_eq_norm] at hc
      exact ⟨by rw [← Complex.sub_re]; exact (Complex.abs_re_le_norm _).trans hc,
        by rw [← Complex.sub_im]; exact (Complex.abs_im_le_norm _).trans hc⟩
    | _ => simp only [ConstraintClose] at hc

/-! ### Robots -/

theorem mul_close {a a' b b' δ : ℝ} (h1 : δ ≤ 1) (ha : |a - a'| ≤ δ) (hb : |b - b'| ≤ δ) :
    |a * b - a' * b'| ≤ (|a| + |b| + 1) * δ := by
  have h0 : 0 ≤ δ := (abs_nonneg _).trans ha
  have e : a * b - a' * b' = (a - a') * b + a * (b - b') - (a - a') * (b - b') := by ring
  rw [e]
  have e1 : |(a - a') * b| ≤ δ * |b| := by rw [abs_mul]; gcongr
  have e2 : |a * (b - b')| ≤ |a| * δ := by rw [abs_mul]; gcongr
  have e3 : |(a - a') * (b - b')| ≤ δ * 1 := by
    rw [abs_mul]
    exact mul_le_mul ha (hb.trans h1) (abs_nonneg _) h0
  have e4 := abs_add_le ((a - a') * b) (a * (b - b'))
  have e5 := abs_sub ((a - a') * b + a * (b - b')) ((a - a') * (b - b'))
  nlinarith

theorem maxSpeed_close {m m' : SwerveModule ℝ} {δ : ℝ} (h1 : δ ≤ 1) (h : ModuleClose δ m m') :
    maxSpeed m' ≤ maxSpeed m + (|m.wheelRadius| + |m.wheelMaxAngularVelocity| + 1) * δ := by
  have := mul_close h1 h.wheelRadius h.wheelMaxAngularVelocity
  have e := abs_sub_abs_le_abs_sub (m'.wheelRadius * m'.wheelMaxAngularVelocity)
    (m.wheelRadius * m.wheelMaxAngularVelocity)
  rw [abs_sub_comm] at e
  simp only [maxSpeed]
  linarith

theorem maxForce_close {m m' : SwerveModule ℝ} {δ : ℝ} (hr : m.wheelRadius ≠ 0) (h : ModuleClose δ m m')
    (h2 : δ ≤ |m.wheelRadius| / 2) :
    maxForce m' ≤ maxForce m + 2 * (|m.wheelRadius| + |m.wheelMaxTorque|) / |m.wheelRadius| ^ 2 * δ := by
  have hr0 : 0 < |m.wheelRadius| := abs_pos.mpr hr
  have hr1 : |m.wheelRadius| / 2 ≤ |m'.wheelRadius| := by
    have := abs_sub_abs_le_abs_sub m.wheelRadius m'.wheelRadius
    linarith [h.wheelRadius]
  have hr' : m'.wheelRadius ≠ 0 := abs_pos.mp (by linarith)
  have h0 : 0 ≤ δ := (abs_nonneg _).trans h.wheelRadius
  have e : m'.wheelMaxTorque / m'.wheelRadius - m.wheelMaxTorque / m.wheelRadius =
      (m.wheelRadius * (m'.wheelMaxTorque - m.wheelMaxTorque) + m.wheelMaxTorque * (m.wheelRadius - m'.wheelRadius)) /
        (m.wheelRadius * m'.wheelRadius) := by
    field_simp
    ring
  have e1 : |m.wheelRadius * (m'.wheelMaxTorque - m.wheelMaxTorque) +
      m.wheelMaxTorque * (m.wheelRadius - m'.wheelRadius)| ≤ (|m.wheelRadius| + |m.wheelMaxTorque|) * δ := by
    refine (abs_add_le _ _).trans ?_
    rw [abs_mul, abs_mul, add_mul]
    gcongr
    · rw [abs_sub_comm]; exact h.wheelMaxTorque
    · exact h.wheelRadius
  have e2 : |m'.wheelMaxTorque / m'.wheelRadius - m.wheelMaxTorque / m.wheelRadius| ≤
      2 * (|m.wheelRadius| + |m.wheelMaxTorque|) / |m.wheelRadius| ^ 2 * δ := by
    rw [e, abs_div, abs_mul, div_le_iff₀ (by positivity)]
    refine e1.trans ?_
    have : (|m.wheelRadius| + |m.wheelMaxTorque|) * δ =
        2 * (|m.wheelRadius| + |m.wheelMaxTorque|) / |m.wheelRadius| ^ 2 * δ * (|m.wheelRadius| * (|m.wheelRadius| / 2)) := by
      field_simp
    rw [this]
    gcongr
  have e3 := abs_sub_abs_le_abs_sub (m'.wheelMaxTorque / m'.wheelRadius) (m.wheelMaxTorque / m.wheelRadius)
  simp only [maxForce]
  linarith

/-- What holds of each element of a list for small enough numbers holds of all of them. -/
theorem small_enough {α : Type} (l : List α) (P : α → ℝ → Prop) (anti : ∀ x δ δ', P x δ → δ' ≤ δ → P x δ')
    (h : ∀ x ∈ l, ∃ δ > 0, P x δ) : ∃ δ > 0, ∀ x ∈ l, P x δ := by
  induction l with
  | nil => exact ⟨1, one_pos, by simp⟩
  | cons a l ih =>
    obtain ⟨δ, hδ, ha⟩ := h a (by simp)
    obtain ⟨δ', hδ', hl⟩ := ih fun x hx => h x (List.mem_cons_of_mem _ hx)
    refine ⟨min δ δ', lt_min hδ hδ', fun x hx => ?_⟩
    rcases List.mem_cons.mp hx with rfl | hx
    · exact anti _ _ _ ha (min_le_left _ _)
    · exact anti _ _ _ (hl x hx) (min_le_right _ _)

/-- What holds of each element of a list for large enough numbers holds of all of them. -/
theorem large_enough {α : Type} (l : List α) (P : α → ℝ → Prop) (mono : ∀ x K K', P x K → K ≤ K' → P x K')
    (h : ∀ x ∈ l, ∃ K, 0 ≤ K ∧ P x K) : ∃ K, 0 ≤ K ∧ ∀ x ∈ l, P x K := by
  induction l with
  | nil => exact ⟨0, le_rfl, by simp⟩
  | cons a l ih =>
    obtain ⟨K, hK, ha⟩ := h a (by simp)
    obtain ⟨K', hK', hl⟩ := ih fun x hx => h x (List.mem_cons_of_mem _ hx)
    refine ⟨max K K', hK.trans (le_max_left _ _), fun x hx => ?_⟩
    rcases List.mem_cons.mp hx with rfl | hx
    · exact mono _ _ _ ha (le_max_left _ _)
    · exact mono _ _ _ (hl x hx) (le_max_right _ _)

theorem module_mono {δ δ' : ℝ} (h : δ ≤ δ') {m m' : SwerveModule ℝ} (hm : ModuleClose δ m m') :
    ModuleClose δ' m m' :=
  ⟨hm.1.trans h, hm.2.trans h, hm.3.trans h, hm.4.trans h⟩

/-- Limits of a module close to `m`. -/
theorem module_close (m : SwerveModule ℝ) (hr : m.wheelRadius ≠ 0) :
    ∃ K, 0 ≤ K ∧ ∀ m' δ, δ ≤ 1 → δ ≤ |m.wheelRadius| / 2 → ModuleClose δ m m' →
      maxSpeed m' ≤ maxSpeed m + K * δ ∧ maxForce m' ≤ maxForce m + K * δ := by
  have hr0 : 0 < |m.wheelRadius| := abs_pos.mpr hr
  set K₁ := |m.wheelRadius| + |m.wheelMaxAngularVelocity| + 1
  set K₂ := 2 * (|m.wheelRadius| + |m.wheelMaxTorque|) / |m.wheelRadius| ^ 2
  have h1 : 0 ≤ K₁ := by positivity
  have h2 : 0 ≤ K₂ := by positivity
  refine ⟨K₁ + K₂, by positivity, fun m' δ hδ hδ2 h => ?_⟩
  have h0 : 0 ≤ δ := (abs_nonneg _).trans h.wheelRadius
  have e1 := maxSpeed_close hδ h
  have e2 := maxForce_close hr h hδ2
  have e3 := mul_nonneg h1 h0
  have e4 := mul_nonneg h2 h0
  rw [add_mul]
  exact ⟨by linarith, by linarith⟩

/-- What is physically possible for a robot is so for nearby robots, up to a multiple of the difference. -/
theorem dynamics_close (dr : SwerveDrivetrain ℝ) (hradius : ∀ m ∈ dr.modules, m.wheelRadius ≠ 0)
    (m₁ m₂ : SwerveModule ℝ) (h₁ : m₁ ∈ dr.modules) (h₂ : m₂ ∈ dr.modules)
    (hm : vec m₁.translation ≠ vec m₂.translation) (hmass : dr.mass ≠ 0) (hmoi : dr.moi ≠ 0) :
    ∃ δ₀ > 0, ∃ K, 0 ≤ K ∧ ∀ δ, 0 ≤ δ → δ ≤ δ₀ → ∀ dr', RobotClose δ dr dr' → ∀ s F, ‖s.heading‖ = 1 →
      Dynamics dr' s F → DynamicsWithin (K * δ) dr s F := by
  -- how close
  obtain ⟨δ₁, hδ₁, hδr⟩ := small_enough dr.modules (fun m δ => δ ≤ |m.wheelRadius| / 2)
    (fun _ _ _ h h' => h'.trans h) fun m h =>
      ⟨|m.wheelRadius| / 2, half_pos (abs_pos.mpr (hradius m h)), le_rfl⟩
  have hv : 0 < ‖vec m₁.translation - vec m₂.translation‖ := norm_pos_iff.mpr (sub_ne_zero.mpr hm)
  have hM : 0 < |dr.mass| := abs_pos.mpr hmass
  have hI : 0 < |dr.moi| := abs_pos.mpr hmoi
  -- limits of the modules
  obtain ⟨L, hL0, hL⟩ := large_enough dr.modules (fun m K => ∀ m' δ, 0 ≤ δ → δ ≤ 1 → δ ≤ |m.wheelRadius| / 2 →
      ModuleClose δ m m' → maxSpeed m' ≤ maxSpeed m + K * δ ∧ maxForce m' ≤ maxForce m + K * δ)
    (fun m K K' h hK m' δ h0 h1 h2 hm => by
      have := h m' δ h0 h1 h2 hm
      have := mul_le_mul_of_nonneg_right hK h0
      constructor <;> linarith)
    (fun m hm => (module_close m (hradius m hm)).imp fun K h => ⟨h.1, fun m' δ _ => h.2 m' δ⟩)
  -- bounds on speeds and forces
  obtain ⟨B, hB0, hB⟩ := large_enough dr.modules (fun m K => maxSpeed m ≤ K ∧ maxForce m ≤ K ∧ ‖vec m.translation‖ ≤ K)
    (fun m K K' h hK => ⟨h.1.trans hK, h.2.1.trans hK, h.2.2.trans hK⟩)
    (fun m _ => ⟨max (maxSpeed m) (max (maxForce m) ‖vec m.translation‖), (abs_nonneg _).trans (le_max_left _ _), by simp⟩)
  set n := dr.modules.length with hn
  set Ω := 2 * (2 * (B + L)) / ‖vec m₁.translation - vec m₂.translation‖ with hΩ
  set A := 2 * (n * (B + L)) / |dr.mass| with hA
  set Α := 2 * (n * ((B + 1) * (B + L))) / |dr.moi| with hΑ
  have hΩ0 : 0 ≤ Ω := by positivity
  have hA0 : 0 ≤ A := by positivity
  have hΑ0 : 0 ≤ Α := by positivity
  set Q := 2 * B * (L + Ω) + (L + Ω) ^ 2 with hQ
  have hQ0 : 0 ≤ Q := by positivity
  set Q' := 2 * B * L + L ^ 2 with hQ'
  have hQ0' : 0 ≤ Q' := by positivity
  refine ⟨min (min 1 δ₁) (min (|dr.mass| / 2) (min (|dr.moi| / 2) (‖vec m₁.translation - vec m₂.translation‖ / 4))),
    by positivity, A + n * (B + L) + Α + Q + Q', by positivity, fun δ h0 hδ dr' hdr s F hs hd => ?_⟩
  have d1 : δ ≤ 1 := hδ.trans ((min_le_left _ _).trans (min_le_left _ _))
  have d2 : δ ≤ δ₁ := hδ.trans ((min_le_left _ _).trans (min_le_right _ _))
  have d3 : δ ≤ |dr.mass| / 2 := hδ.trans ((min_le_right _ _).trans (min_le_left _ _))
  have d4 : δ ≤ |dr.moi| / 2 := hδ.trans ((min_le_right _ _).trans ((min_le_right _ _).trans (min_le_left _ _)))
  have d5 : δ ≤ ‖vec m₁.translation - vec m₂.translation‖ / 4 :=
    hδ.trans ((min_le_right _ _).trans ((min_le_right _ _).trans (min_le_right _ _)))
  have hlen : dr.modules.length = dr'.modules.length := hdr.modules.length_eq
  have hcl : ∀ j (hj : j < dr.modules.length), ModuleClose δ dr.modules[j] (dr'.modules[j]'(by omega)) := fun j hj =>
    hdr.modules.get hj (by omega)
  have hlim : ∀ j (hj : j < dr.modules.length), maxSpeed (dr'.modules[j]'(by omega)) ≤ maxSpeed dr.modules[j] + L * δ ∧
      maxForce (dr'.modules[j]'(by omega)) ≤ maxForce dr.modules[j] + L * δ := fun j hj =>
    hL _ (List.getElem_mem hj) _ δ h0 d1 (d2.trans (hδr _ (List.getElem_mem hj))) (hcl j hj)
  have hLδ : L * δ ≤ L := mul_le_of_le_one_right hL0 d1
  -- forces
  have hF : ∀ j (hj : j < dr.modules.length), ‖F j‖ ≤ maxForce dr.modules[j] + L * δ := fun j hj =>
    (hd.limit ⟨j, by omega⟩).trans (hlim j hj).2
  have hFB : ∀ j < dr.modules.length, ‖F j‖ ≤ B + L := fun j hj =>
    (hF j hj).trans (add_le_add (hB _ (List.getElem_mem hj)).2.1 hLδ)
  have sum_cast : ∀ {M : Type} [AddCommMonoid M] (f : Fin dr'.modules.length → M),
      ∑ j, f j = ∑ j : Fin dr.modules.length, f (Fin.cast hlen j) := fun f =>
    (Fintype.sum_equiv (finCongr hlen) _ _ fun _ => rfl).symm
  have hforce : ∑ j : Fin dr.modules.length, F j = dr'.mass * s.acc := by
    rw [← hd.force, sum_cast]
    rfl
  have htorque : ∑ j : Fin dr.modules.length, torque (lever s (dr'.modules[j]'(by omega))) (F j) = dr'.moi * s.alpha := by
    rw [← hd.torque, sum_cast]
    rfl
  have habs : ∀ x y : ℝ, |x - y| ≤ δ → δ ≤ |x| / 2 → |x| / 2 ≤ |y| := fun x y h h' => by
    have := abs_sub_abs_le_abs_sub x y
    linarith
  -- acceleration
  have hacc : ‖s.acc‖ ≤ A := by
    have e : |dr'.mass| * ‖s.acc‖ ≤ n * (B + L) := by
      calc |dr'.mass| * ‖s.acc‖ = ‖(dr'.mass : ℂ) * s.acc‖ := by simp
        _ = ‖∑ j : Fin dr.modules.length, F j‖ := by rw [hforce]
        _ ≤ ∑ j : Fin dr.modules.length, (B + L) := (norm_sum_le _ _).trans (Finset.sum_le_sum fun j _ => hFB j j.2)
        _ = n * (B + L) := by rw [Finset.sum_const, Finset.card_univ, Fintype.card_fin, nsmul_eq_mul]
    have e1 := habs _ _ hdr.mass d3
    rw [hA, le_div_iff₀ hM]
    nlinarith [norm_nonneg s.acc]
  -- angular acceleration
  have tq : ∀ (z f : ℂ), |torque z f| ≤ ‖z‖ * ‖f‖ := fun z f => by
    refine (Complex.abs_im_le_norm _).trans ?_
    rw [norm_mul, Complex.norm_conj]
  have halpha : |s.alpha| ≤ Α := by
    have e : |dr'.moi| * |s.alpha| ≤ n * ((B + 1) * (B + L)) := by
      rw [← abs_mul, ← htorque]
      calc _ ≤ ∑ j : Fin dr.modules.length, (B + 1) * (B + L) :=
            (Finset.abs_sum_le_sum_abs _ _).trans (Finset.sum_le_sum fun j _ => (tq _ _).trans ?_)
        _ = _ := by rw [Finset.sum_const, Finset.card_univ, Fintype.card_fin, nsmul_eq_mul]
      refine mul_le_mul ?_ (hFB j j.2) (norm_nonneg _) (by positivity)
      rw [lever, norm_mul, hs, mul_one]
      have e1 := (hcl j j.2).translation
      rw [dist_comm, dist_eq_norm] at e1
      have e2 := norm_le_norm_add_norm_sub' (vec (dr'.modules[(j : ℕ)]'(by omega)).translation)
        (vec dr.modules[(j : ℕ)].translation)
      have e3 := (hB _ (List.getElem_mem j.2)).2.2
      change ‖vec (dr'.modules[(j : ℕ)]'(by omega)).translation‖ ≤ B + 1
      linarith
    have e1 := habs _ _ hdr.moi d4
    rw [hΑ, le_div_iff₀ hI]
    nlinarith [abs_nonneg s.alpha]
  -- angular velocity
  have homega : |s.omega| ≤ Ω := by
    obtain ⟨i, hi, rfl⟩ := List.getElem_of_mem h₁
    obtain ⟨k, hk, rfl⟩ := List.getElem_of_mem h₂
    have e1 := (hd.speed _ (List.getElem_mem (by omega : i < dr'.modules.length))).trans (hlim i hi).1
    have e2 := (hd.speed _ (List.getElem_mem (by omega : k < dr'.modules.length))).trans (hlim k hk).1
    have b1 := (hB _ (List.getElem_mem hi)).1
    have b2 := (hB _ (List.getElem_mem hk)).1
    set v := vec (dr'.modules[i]'(by omega)).translation with hvdef
    set v' := vec (dr'.modules[k]'(by omega)).translation with hvdef'
    have e3 : wheelVelocity s (dr'.modules[i]'(by omega)) - wheelVelocity s (dr'.modules[k]'(by omega)) =
        Complex.I * s.omega * (v - v') := by
      simp only [wheelVelocity, hvdef, hvdef']; ring
    have e4 : |s.omega| * ‖v - v'‖ ≤ 2 * (B + L) := by
      calc |s.omega| * ‖v - v'‖ = ‖wheelVelocity s (dr'.modules[i]'(by omega)) -
            wheelVelocity s (dr'.modules[k]'(by omega))‖ := by rw [e3]; simp
        _ ≤ _ := (norm_sub_le _ _).trans (by linarith)
    have e5 : ‖vec dr.modules[i].translation - vec dr.modules[k].translation‖ / 2 ≤ ‖v - v'‖ := by
      have c1 := (hcl i hi).translation
      have c2 := (hcl k hk).translation
      have c3 := dist_triangle4 (vec dr.modules[i].translation) v v' (vec dr.modules[k].translation)
      rw [dist_comm v'] at c3
      rw [← dist_eq_norm, ← dist_eq_norm]
      rw [← dist_eq_norm] at d5
      linarith
    rw [hΩ, le_div_iff₀ hv]
    nlinarith [abs_nonneg s.omega]
  have mono : ∀ k, 0 ≤ k → k ≤ A + n * (B + L) + Α + Q + Q' → k * δ ≤ (A + n * (B + L) + Α + Q + Q') * δ :=
    fun k _ h => mul_le_mul_of_nonneg_right h h0
  have hnB : 0 ≤ n * (B + L) := by positivity
  refine ⟨?_, ?_, ?_, ?_⟩
  · rw [hforce]
    have e : ‖(dr'.mass : ℂ) * s.acc - dr.mass * s.acc‖ ≤ (A + n * (B + L) + Α + Q + Q') * δ := by
      rw [← sub_mul, norm_mul, ← Complex.ofReal_sub, Complex.norm_real, Real.norm_eq_abs, abs_sub_comm]
      refine le_trans ?_ (mono A hA0 (by linarith))
      rw [mul_comm]
      exact mul_le_mul hacc hdr.mass (abs_nonneg _) hA0
    constructor
    · rw [← Complex.sub_re]; exact (Complex.abs_re_le_norm _).trans e
    · rw [← Complex.sub_im]; exact (Complex.abs_im_le_norm _).trans e
  · have e1 : (∑ j : Fin dr.modules.length, torque (lever s dr.modules[j]) (F j)) - dr.moi * s.alpha =
        (∑ j : Fin dr.modules.length, (torque (lever s dr.modules[j]) (F j) -
          torque (lever s (dr'.modules[j]'(by omega))) (F j))) + (dr'.moi - dr.moi) * s.alpha := by
      rw [Finset.sum_sub_distrib, htorque]; ring
    rw [e1]
    have e2 : ∀ j : Fin dr.modules.length, |torque (lever s dr.modules[j]) (F j) -
        torque (lever s (dr'.modules[j]'(by omega))) (F j)| ≤ (B + L) * δ := by
      intro j
      have e : torque (lever s dr.modules[j]) (F j) - torque (lever s (dr'.modules[j]'(by omega))) (F j) =
          torque ((vec dr.modules[j].translation - vec (dr'.modules[j]'(by omega)).translation) * s.heading) (F j) := by
        simp only [torque, lever]
        rw [← Complex.sub_im, ← sub_mul, ← map_sub, sub_mul]
      rw [e]
      refine (tq _ _).trans ?_
      rw [norm_mul, hs, mul_one, ← dist_eq_norm, mul_comm]
      exact mul_le_mul (hFB j j.2) (hcl j j.2).translation dist_nonneg (by positivity)
    have e3 : |∑ j : Fin dr.modules.length, (torque (lever s dr.modules[j]) (F j) -
        torque (lever s (dr'.modules[j]'(by omega))) (F j))| ≤ n * (B + L) * δ := by
      calc _ ≤ ∑ j : Fin dr.modules.length, (B + L) * δ :=
            (Finset.abs_sum_le_sum_abs _ _).trans (Finset.sum_le_sum fun j _ => e2 j)
        _ = _ := by rw [Finset.sum_const, Finset.card_univ, Fintype.card_fin, nsmul_eq_mul, mul_assoc]
    have e4 : |(dr'.moi - dr.moi) * s.alpha| ≤ Α * δ := by
      rw [abs_mul, abs_sub_comm, mul_comm]
      exact mul_le_mul halpha hdr.moi (abs_nonneg _) hΑ0
    refine (abs_add_le _ _).trans ((add_le_add e3 e4).trans ?_)
    rw [← add_mul]
    exact mono _ (by positivity) (by linarith)
  · intro m hmem
    obtain ⟨i, hi, rfl⟩ := List.getElem_of_mem hmem
    have e1 := (hd.speed _ (List.getElem_mem (by omega : i < dr'.modules.length))).trans (hlim i hi).1
    have e2 : wheelVelocity s dr.modules[i] = wheelVelocity s (dr'.modules[i]'(by omega)) + Complex.I * s.omega *
        (vec dr.modules[i].translation - vec (dr'.modules[i]'(by omega)).translation) := by
      simp only [wheelVelocity]; ring
    have e3 : ‖Complex.I * s.omega *
        (vec dr.modules[i].translation - vec (dr'.modules[i]'(by omega)).translation)‖ ≤ Ω * δ := by
      rw [norm_mul, norm_mul, Complex.norm_I, one_mul, Complex.norm_real, Real.norm_eq_abs, ← dist_eq_norm]
      exact mul_le_mul homega (hcl i hi).translation dist_nonneg hΩ0
    have e4 : ‖wheelVelocity s dr.modules[i]‖ ≤ maxSpeed dr.modules[i] + (L + Ω) * δ := by
      rw [e2, add_mul]
      exact (norm_add_le _ _).trans (by linarith)
    exact (sq_shift (norm_nonneg _) (hB _ hmem).1 (by positivity) h0 d1 e4).trans
      (add_le_add le_rfl (mono _ hQ0 (by linarith)))
  · intro j
    exact (sq_shift (norm_nonneg _) (hB _ (List.getElem_mem j.2)).2.1 hL0 h0 d1 (hF j j.2)).trans
      (add_le_add le_rfl (mono _ hQ0' (by linarith)))

/-- The largest time step of a robot is that of nearby robots, or larger, up to a multiple of the difference. -/
theorem step_close (dr : SwerveDrivetrain ℝ) (τ : ℝ) (hτ : 0 ≤ τ) :
    ∃ δ₀ > 0, ∃ K, 0 ≤ K ∧ ∀ δ, 0 ≤ δ → δ ≤ δ₀ → ∀ dr', RobotClose δ dr dr' → ∀ dt, 0 ≤ dt → dt ≤ τ →
      (∀ m ∈ dr'.modules, ∀ g, Gap dr' g → dt * m.wheelRadius * m.wheelMaxAngularVelocity ≤ g) →
      ∀ m ∈ dr.modules, ∀ g, Gap dr g → dt * m.wheelRadius * m.wheelMaxAngularVelocity ≤ g + K * δ := by
  obtain ⟨δ₁, hδ₁, hg⟩ := small_enough (dr.modules.zip dr.modules.tail)
    (fun p δ => (|p.1.translation.x - p.2.translation.x| ≠ 0 → 4 * δ ≤ |p.1.translation.x - p.2.translation.x|) ∧
      (|p.1.translation.y - p.2.translation.y| ≠ 0 → 4 * δ ≤ |p.1.translation.y - p.2.translation.y|))
    (fun p δ δ' h hδ => ⟨fun h0 => by linarith [h.1 h0], fun h0 => by linarith [h.2 h0]⟩)
    (fun p _ => by
      have key : ∀ x : ℝ, 0 ≤ x → ∃ δ > 0, x ≠ 0 → 4 * δ ≤ x := fun x hx => by
        by_cases h : x = 0
        · exact ⟨1, one_pos, fun h' => absurd h h'⟩
        · have : 0 < x := lt_of_le_of_ne hx (Ne.symm h)
          exact ⟨x / 4, by positivity, fun _ => by linarith⟩
      obtain ⟨a, ha, h⟩ := key _ (abs_nonneg (p.1.translation.x - p.2.translation.x))
      obtain ⟨a', ha', h'⟩ := key _ (abs_nonneg (p.1.translation.y - p.2.translation.y))
      exact ⟨min a a', lt_min ha ha', fun h0 => by linarith [h h0, min_le_left a a'],
        fun h0 => by linarith [h' h0, min_le_right a a']⟩)
  obtain ⟨L, hL0, hL⟩ := large_enough dr.modules
    (fun m K => |m.wheelRadius| + |m.wheelMaxAngularVelocity| + 1 ≤ K) (fun _ _ _ h h' => h.trans h')
    (fun m _ => ⟨_, by positivity, le_rfl⟩)
  refine ⟨min 1 δ₁, lt_min one_pos hδ₁, τ * L + 2, by positivity,
    fun δ h0 hδ dr' hdr dt hd0 hd h m hm g ⟨hg0, a, c, hac, hgap⟩ => ?_⟩
  have d1 : δ ≤ 1 := hδ.trans (min_le_left _ _)
  have d2 : δ ≤ δ₁ := hδ.trans (min_le_right _ _)
  have hlen : dr.modules.length = dr'.modules.length := hdr.modules.length_eq
  have hcl : ∀ j (hj : j < dr.modules.length), ModuleClose δ dr.modules[j] (dr'.modules[j]'(by omega)) := fun j hj =>
    hdr.modules.get hj (by omega)
  obtain ⟨hx, hy⟩ := hg _ hac
  obtain ⟨k, hk, hkeq⟩ := List.mem_iff_getElem.mp hac
  simp only [List.length_zip, List.length_tail] at hk
  simp only [List.getElem_zip, List.getElem_tail, Prod.mk.injEq] at hkeq
  obtain ⟨rfl, rfl⟩ := hkeq
  have hmem : ((dr'.modules[k]'(by omega)), (dr'.modules[k + 1]'(by omega))) ∈ dr'.modules.zip dr'.modules.tail := by
    refine List.mem_iff_getElem.mpr ⟨k, by simp only [List.length_zip, List.length_tail]; omega, ?_⟩
    simp
  obtain ⟨j, hj, rfl⟩ := List.getElem_of_mem hm
  have hstep : dt * dr.modules[j].wheelRadius * dr.modules[j].wheelMaxAngularVelocity ≤
      dt * (dr'.modules[j]'(by omega)).wheelRadius * (dr'.modules[j]'(by omega)).wheelMaxAngularVelocity + τ * L * δ := by
    have e := (abs_le.mp (mul_close d1 (hcl j hj).wheelRadius (hcl j hj).wheelMaxAngularVelocity)).2
    have e' : (|dr.modules[j].wheelRadius| + |dr.modules[j].wheelMaxAngularVelocity| + 1) * δ ≤ L * δ :=
      mul_le_mul_of_nonneg_right (hL _ (List.getElem_mem hj)) h0
    have e2 : dt * (L * δ) ≤ τ * (L * δ) := mul_le_mul_of_nonneg_right hd (by positivity)
    have e3 := mul_le_mul_of_nonneg_left (e.trans e') hd0
    nlinarith
  have hc := h _ (List.getElem_mem (by omega : j < dr'.modules.length))
  have px := fun i (hi : i < dr.modules.length) => (Complex.abs_re_le_norm (vec dr.modules[i].translation -
    vec (dr'.modules[i]'(by omega)).translation)).trans ((dist_eq_norm _ _).symm.trans_le (hcl i hi).translation)
  have py := fun i (hi : i < dr.modules.length) => (Complex.abs_im_le_norm (vec dr.modules[i].translation -
    vec (dr'.modules[i]'(by omega)).translation)).trans ((dist_eq_norm _ _).symm.trans_le (hcl i hi).translation)
  simp only [Complex.sub_re, Complex.sub_im, vec] at px py
  have near : ∀ a b a' b' : ℝ, |a - a'| ≤ δ → |b - b'| ≤ δ → |a - b| ≠ 0 → 4 * δ₁ ≤ |a - b| →
      |a' - b'| ≤ |a - b| + 2 * δ ∧ |a' - b'| ≠ 0 := by
    intro a b a' b' ha hb _ hab
    have e1 := abs_sub_abs_le_abs_sub (a' - b') (a - b)
    have e2 := abs_sub_abs_le_abs_sub (a - b) (a' - b')
    have e3 : |a - b - (a' - b')| ≤ 2 * δ := by
      have : a - b - (a' - b') = (a - a') - (b - b') := by ring
      rw [this]
      exact (abs_sub _ _).trans (by linarith)
    rw [abs_sub_comm (a' - b') (a - b)] at e1
    refine ⟨by linarith, ?_⟩
    have : 0 < |a' - b'| := by linarith
    exact this.ne'
  rcases hgap with rfl | rfl
  · obtain ⟨n1, n2⟩ := near _ _ _ _ (px k (by omega)) (px (k + 1) (by omega)) hg0 (hx hg0)
    have := hc _ ⟨n2, _, _, hmem, .inl rfl⟩
    nlinarith
  · obtain ⟨n1, n2⟩ := near _ _ _ _ (py k (by omega)) (py (k + 1) (by omega)) hg0 (hy hg0)
    have := hc _ ⟨n2, _, _, hmem, .inr rfl⟩
    nlinarith

/-- No robot near one with a wheel that can turn forwards and with modules in different places can take time steps
beyond some bound. -/
theorem step_bound (dr : SwerveDrivetrain ℝ) (g : ℝ) (hg : Gap dr g) (m : SwerveModule ℝ) (hm : m ∈ dr.modules)
    (hpos : 0 < m.wheelRadius * m.wheelMaxAngularVelocity) :
    ∃ δ₀ > 0, ∃ D, 0 ≤ D ∧ ∀ δ, 0 ≤ δ → δ ≤ δ₀ → ∀ dr', RobotClose δ dr dr' → ∀ dt, 0 ≤ dt →
      (∀ m ∈ dr'.modules, ∀ g, Gap dr' g → dt * m.wheelRadius * m.wheelMaxAngularVelocity ≤ g) → dt ≤ D := by
  have hg0 : 0 ≤ g := by obtain ⟨-, a, c, -, rfl | rfl⟩ := hg <;> exact abs_nonneg _
  set D := (g + 2) / (m.wheelRadius * m.wheelMaxAngularVelocity) with hD
  have hD0 : 0 ≤ D := by positivity
  obtain ⟨δ₁, hδ₁, K, hK, h⟩ := step_close dr D hD0
  refine ⟨min δ₁ (1 / (K + 1)), by positivity, D, hD0, fun δ h0 hδ dr' hdr dt hdt hcap => ?_⟩
  by_contra hlt
  push Not at hlt
  have h1 := h δ h0 (hδ.trans (min_le_left _ _)) dr' hdr D hD0 le_rfl (fun m' hm' g' hg' => by
    have hg0' : 0 ≤ g' := by obtain ⟨-, a, c, -, rfl | rfl⟩ := hg' <;> exact abs_nonneg _
    have := hcap m' hm' g' hg'
    rw [mul_assoc] at this ⊢
    rcases le_total 0 (m'.wheelRadius * m'.wheelMaxAngularVelocity) with hp | hp
    · exact (mul_le_mul_of_nonneg_right hlt.le hp).trans this
    · exact (mul_nonpos_of_nonneg_of_nonpos hD0 hp).trans hg0') m hm g hg
  have h2 : K * δ ≤ 1 := by
    have : δ ≤ 1 / (K + 1) := hδ.trans (min_le_right _ _)
    rw [le_div_iff₀ (by positivity)] at this
    nlinarith
  rw [mul_assoc, hD, div_mul_cancel₀ _ hpos.ne'] at h1
  linarith

theorem intervalWithin_of {ε dt : ℝ} {a b : State} (h : Interval dt a b) (hε : 0 ≤ ε) : IntervalWithin ε dt a b := by
  have near : ∀ z : ℂ, Near ε z z := fun z => by simp [Near, hε]
  have hu : ‖unitVec (b.omega * dt)‖ = 1 := by rw [unitVec]; exact Complex.norm_exp_ofReal_mul_I _
  have hn : (unitVec (b.omega * dt) * (starRingEnd ℂ) (unitVec (b.omega * dt))).im = 0 := by
    rw [Complex.mul_conj]; exact Complex.ofReal_im _
  refine ⟨by rw [← h.pos]; exact near _, ?_, by rw [← h.vel]; exact near _, by rw [← h.omega]; simpa using hε⟩
  rcases h.turn with e | e <;> rw [e] <;> constructor
  · rw [hn]; simpa using hε
  · rw [hu]; simpa using hε
  · rw [neg_mul, Complex.neg_im, hn]; simpa using hε
  · rw [norm_neg, hu]; simpa using hε

/-- What obeys a path and a robot obeys nearby ones up to a multiple of the difference. -/
theorem obeys_close (t : PathTable ℝ) (dr : SwerveDrivetrain ℝ) (hradius : ∀ m ∈ dr.modules, m.wheelRadius ≠ 0)
    (m₁ m₂ : SwerveModule ℝ) (h₁ : m₁ ∈ dr.modules) (h₂ : m₂ ∈ dr.modules)
    (hm : vec m₁.translation ≠ vec m₂.translation) (hmass : dr.mass ≠ 0) (hmoi : dr.moi ≠ 0)
    (hi : ∀ w ≤ t.counts.length, ∀ c ∈ t.instant w, ¬ HasNoLength c)
    (hc : ∀ s < t.counts.length, ∀ c ∈ t.continuous s, ¬ HasNoLength c)
    (k : ℕ) (hk : k < sampleCount t.counts) (P τ : ℝ) (hτ : 0 ≤ τ) :
    ∃ δ₀ > 0, ∃ K, 0 ≤ K ∧ ∀ δ, 0 ≤ δ → δ ≤ δ₀ → ∀ t' dr' T, PathClose δ t t' → RobotClose δ dr dr' →
      Obeys t' dr' T → (∀ n < sampleCount t.counts, ‖(T.state n).heading‖ = 1) → ‖(T.state k).pos‖ ≤ P →
      (∀ s < t.counts.length, T.dt s ≤ τ) → ObeysWithin (K * δ) t dr T := by
  obtain ⟨δ₁, hδ₁, K₁, hK₁, hdyn⟩ := dynamics_close dr hradius m₁ m₂ h₁ h₂ hm hmass hmoi
  obtain ⟨δ₂, hδ₂, K₂, hK₂, hstep⟩ := step_close dr τ hτ
  set t₀ : PathTable ℝ := { t with instant := fun _ => [], continuous := fun _ => [] } with ht₀
  obtain ⟨R, hR⟩ := bounded_within t₀ dr m₁ m₂ h₁ h₂ hm hmass hmoi k hk P τ one_pos 1
  obtain ⟨K₃, hK₃, hcon⟩ := large_enough ((List.range (t.counts.length + 1)).flatMap t.instant ++
      (List.range t.counts.length).flatMap t.continuous)
    (fun c K => ∀ δ, 0 ≤ δ → δ ≤ 1 → ∀ c', ConstraintClose δ c c' → ∀ s, Tame (max R 0) s → Meaning c' s →
      MeaningWithin (K * δ) c s)
    (fun c K K' h hK δ h0 h1 c' hc s hs hm =>
      meaningWithin_mono (mul_le_mul_of_nonneg_right hK h0) (h δ h0 h1 c' hc s hs hm))
    (fun c hmem => meaning_close (le_max_right _ _) c (by
      rcases List.mem_append.mp hmem with h | h <;> obtain ⟨w, hw, hcw⟩ := List.mem_flatMap.mp h <;>
        rw [List.mem_range] at hw
      · exact hi w (by omega) c hcw
      · exact hc w hw c hcw))
  refine ⟨min (min 1 (1 / (K₁ + K₂ + 1))) (min δ₁ δ₂), by positivity, K₁ + K₂ + K₃, by positivity,
    fun δ h0 hδ t' dr' T ht hdr ho hu hP hdt => ?_⟩
  have d1 : δ ≤ 1 := hδ.trans ((min_le_left _ _).trans (min_le_left _ _))
  have d2 : δ ≤ 1 / (K₁ + K₂ + 1) := hδ.trans ((min_le_left _ _).trans (min_le_right _ _))
  have d3 : δ ≤ δ₁ := hδ.trans ((min_le_right _ _).trans (min_le_left _ _))
  have d4 : δ ≤ δ₂ := hδ.trans ((min_le_right _ _).trans (min_le_right _ _))
  have hK : (K₁ + K₂) * δ ≤ 1 := by
    rw [le_div_iff₀ (by positivity)] at d2
    nlinarith
  have hN := ht.counts
  have hseg : ∀ s < t.counts.length, ∀ n ∈ segmentSamples t.counts s, n < sampleCount t.counts := by
    intro s hs n hn
    rw [segmentSamples, Finset.mem_Ioc] at hn
    have h1 := sum_take_le t.counts (s + 1)
    simp only [waypointSample, sampleCount] at *
    omega
  have k1 : 0 ≤ K₁ * δ := by positivity
  have k2 : 0 ≤ K₂ * δ := by positivity
  have k3 : 0 ≤ K₃ * δ := by positivity
  have base : ObeysWithin ((K₁ + K₂) * δ) t₀ dr T := by
    have kk : 0 ≤ (K₁ + K₂) * δ := by positivity
    refine ⟨fun s hs n hn => ?_, fun n hn => ?_, fun s hs => ?_, fun s hs m hm g hg => ?_,
      fun w hw c hc => by simp [ht₀] at hc, fun s hs c hc => by simp [ht₀] at hc⟩
    · have i := ho.interval s (by rw [← hN]; exact hs) n (by rw [← hN]; exact hn)
      exact intervalWithin_of i kk
    · have d := hdyn δ h0 d3 dr' hdr _ _ (hu n hn) (ho.dynamics n (by rw [← hN]; exact hn))
      have h : K₁ * δ ≤ (K₁ + K₂) * δ := by rw [add_mul]; linarith
      exact ⟨near_mono h d.force, d.torque.trans h, fun m hm => (d.speed m hm).trans (by linarith),
        fun j => (d.limit j).trans (by linarith)⟩
    · have := ho.time s (by rw [← hN]; exact hs)
      linarith
    · have hs' : s < t'.counts.length := by rw [← hN]; exact hs
      have := hstep δ h0 d4 dr' hdr (T.dt s) (ho.time s hs') (hdt s hs) (ho.stepCap s hs') m hm g hg
      rw [add_mul]
      linarith
  have tame : ∀ n < sampleCount t.counts, Tame (max R 0) (T.state n) := by
    intro n hn
    have := mem_ball.mp (hR _ (by positivity) hK T base (fun n hn => ⟨(hu n hn).ge, (hu n hn).le⟩) hP
      (fun s hs _ => by
        rw [abs_of_nonneg (ho.time s (by rw [← hN]; exact hs))]
        exact hdt s hs) n)
    have e : (trim t₀.counts dr.modules.length T).state n = T.state n := if_pos hn
    simp only [toSlices, e] at this
    exact ⟨this.1.trans (le_max_left _ _), this.2.2.1.trans (le_max_left _ _), hu n hn⟩
  have big : (K₁ + K₂) * δ ≤ (K₁ + K₂ + K₃) * δ := by
    rw [add_mul (K₁ + K₂)]; linarith
  have big3 : K₃ * δ ≤ (K₁ + K₂ + K₃) * δ := by
    rw [add_mul, add_mul]; linarith
  have base' := obeysWithin_mono big base
  have pick : ∀ {l l' : List (Constraint ℝ)}, List.Forall₂ (ConstraintClose δ) l l' → ∀ c ∈ l,
      ∃ c' ∈ l', ConstraintClose δ c c' := by
    intro l l' h
    induction h with
    | nil => intro c hc; simp at hc
    | cons hab _ ih =>
      intro c hc
      rcases List.mem_cons.mp hc with rfl | hc
      · exact ⟨_, by simp, hab⟩
      · obtain ⟨c', hc', h⟩ := ih c hc
        exact ⟨c', List.mem_cons_of_mem _ hc', h⟩
  refine ⟨base'.interval, base'.dynamics, base'.time, base'.stepCap, fun w hw c hcw => ?_, fun s hs c hcs n hn => ?_⟩
  · obtain ⟨c', hc', hcc⟩ := pick (ht.instant w hw) c hcw
    have hws : waypointSample t.counts w < sampleCount t.counts := by
      have := sum_take_le t.counts w
      simp only [waypointSample, sampleCount]; omega
    refine meaningWithin_mono big3 (hcon c ?_ δ h0 d1 c' hcc _ (tame _ hws) ?_)
    · exact List.mem_append_left _ (List.mem_flatMap.mpr ⟨w, List.mem_range.mpr (by omega), hcw⟩)
    · have := ho.instant w (by rw [← hN]; exact hw) c' hc'
      rwa [← hN] at this
  · obtain ⟨c', hc', hcc⟩ := pick (ht.continuous s hs) c hcs
    refine meaningWithin_mono big3 (hcon c ?_ δ h0 d1 c' hcc _ (tame _ (hseg s hs n hn)) ?_)
    · exact List.mem_append_right _ (List.mem_flatMap.mpr ⟨s, List.mem_range.mpr hs, hcs⟩)
    · exact ho.continuous s (by rw [← hN]; exact hs) c' hc' n (by rw [← hN]; exact hn)

end Trajopt
