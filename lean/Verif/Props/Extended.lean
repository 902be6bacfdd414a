import Verif.Spec.Extended
import Verif.Lemmas.Wide

/-!
# C88 The arithmetic of infinities and NaN
-/

set_option autoImplicit false

namespace Trajopt.Props

open Spec Wide

/-- C88: sums are those of the extended reals; infinities of opposite signs have none. -/
theorem C88_add (a b : Wide) :
    ext (a + b) = op (fun x y => x = ⊤ ∧ y = ⊥ ∨ x = ⊥ ∧ y = ⊤) (· + ·) (ext a) (ext b) := by
  rcases a with _ | s | x <;> rcases b with _ | t | y
  case inf.inf => cases s <;> cases t <;> simp [ext, op, inf_add_inf]
  case inf.fin => cases s <;> simp [ext, op]
  case fin.inf => cases t <;> simp [ext, op]
  all_goals simp [ext, op]

/-- C88: a difference is the sum with the negative. -/
theorem C88_sub (a b : Wide) : a - b = a + -b ∧ ext (-b) = (ext b).map (- ·) := by
  refine ⟨rfl, ?_⟩
  rcases b with _ | t | y
  · rfl
  · cases t <;> simp [ext]
  · simp [ext]

/-- C88: products are those of the extended reals; zero times infinity has none. -/
theorem C88_mul (a b : Wide) :
    ext (a * b) = op (fun x y => x = 0 ∧ Endless y ∨ Endless x ∧ y = 0) (· * ·) (ext a) (ext b) := by
  rcases a with _ | s | x <;> rcases b with _ | t | y
  case inf.inf => cases s <;> cases t <;> simp [ext, op, Endless]
  case inf.fin =>
    rcases lt_trichotomy y 0 with h | h | h
    · cases s <;> simp [ext, op, Endless, inf_mul_fin, below, h, h.ne, EReal.top_mul_coe_of_neg, EReal.bot_mul_coe_of_neg]
    · cases s <;> simp [ext, op, Endless, inf_mul_fin, h]
    · cases s <;> simp [ext, op, Endless, inf_mul_fin, below, h.le, h.ne', h, EReal.top_mul_coe_of_pos, EReal.bot_mul_coe_of_pos]
  case fin.inf =>
    rcases lt_trichotomy x 0 with h | h | h
    · cases t <;> simp [ext, op, Endless, fin_mul_inf, below, h, h.ne, EReal.coe_mul_top_of_neg, EReal.coe_mul_bot_of_neg]
    · cases t <;> simp [ext, op, Endless, fin_mul_inf, h]
    · cases t <;> simp [ext, op, Endless, fin_mul_inf, below, h.le, h.ne', h, EReal.coe_mul_top_of_pos, EReal.coe_mul_bot_of_pos]
  all_goals simp [ext, op, Endless]

/-- C88: quotients are those of the extended reals, by zero they are infinite; zero by zero and infinity by infinity
have none. -/
theorem C88_div (a b : Wide) :
    ext (a / b) = op (fun x y => x = 0 ∧ y = 0 ∨ Endless x ∧ Endless y) quotient (ext a) (ext b) := by
  rcases a with _ | s | x <;> rcases b with _ | t | y
  case inf.inf => cases s <;> cases t <;> simp [ext, op, Endless, hdiv, Wide.div]
  case inf.fin =>
    rcases lt_trichotomy y 0 with h | h | h
    · cases s <;> simp [ext, op, Endless, hdiv, Wide.div, below, h, h.ne, quotient, EReal.top_div_of_neg_ne_bot, EReal.bot_div_of_neg_ne_bot]
    · cases s <;> simp [ext, op, Endless, hdiv, Wide.div, below, h, quotient]
    · cases s <;> simp [ext, op, Endless, hdiv, Wide.div, below, h.le, h.ne', h, quotient, EReal.top_div_of_pos_ne_top, EReal.bot_div_of_pos_ne_top]
  case fin.inf => cases t <;> simp [ext, op, Endless, hdiv, Wide.div, quotient]
  case fin.fin =>
    by_cases hy : y = 0
    · rcases lt_trichotomy x 0 with h | h | h
      · simp [ext, op, Endless, fin_div, hy, quotient, below, h, h.ne, h.le]
      · simp [ext, op, Endless, fin_div, hy, h]
      · simp [ext, op, Endless, fin_div, hy, quotient, below, h, h.ne', h.le]
    · simp [ext, op, Endless, fin_div, hy, quotient, EReal.coe_div]
  all_goals simp [ext, op]

/-- C88: comparisons are those of the extended reals, and false for NaN. -/
theorem C88_compare (a b : Wide) :
    (Dbl.lt a b = true ↔ ∃ x y, ext a = some x ∧ ext b = some y ∧ x < y) ∧
    (Dbl.le a b = true ↔ ∃ x y, ext a = some x ∧ ext b = some y ∧ x ≤ y) ∧
    (Dbl.eq a b = true ↔ ∃ x y, ext a = some x ∧ ext b = some y ∧ x = y) := by
  change (Wide.lt a b = true ↔ _) ∧ (Wide.le a b = true ↔ _) ∧ (Wide.eq a b = true ↔ _)
  rcases a with _ | s | x <;> rcases b with _ | t | y
  case inf.inf => cases s <;> cases t <;> simp [ext, Wide.lt, Wide.le, Wide.eq]
  case inf.fin => cases s <;> simp [ext, Wide.lt, Wide.le, Wide.eq]
  case fin.inf => cases t <;> simp [ext, Wide.lt, Wide.le, Wide.eq]
  case fin.fin =>
    simp [ext, Wide.lt, Wide.le, Wide.eq, le_iff_lt_or_eq]
    exact eq_comm
  all_goals simp [ext, Wide.lt, Wide.le, Wide.eq]

/-- C88: the absolute value. -/
theorem C88_abs (a : Wide) : ext (Dbl.abs a) = (ext a).map fun x => max x (-x) := by
  change ext (Wide.abs a) = _
  rcases a with _ | s | x
  · rfl
  · cases s <;> simp [ext, Wide.abs]
  · simp only [ext, Wide.abs, Option.map_some, Option.some.injEq, abs_eq_max_neg]
    rw [EReal.coe_strictMono.monotone.map_max, EReal.coe_neg]

/-- C88: `hypot` is infinite if an argument is, even if the other is NaN. -/
theorem C88_hypot (a b : Wide) :
    ((∃ x, (ext a = some x ∨ ext b = some x) ∧ Endless x) → ext (Num.hypot a b) = some ⊤) ∧
    (∀ x y : ℝ, ext a = some (x : EReal) → ext b = some (y : EReal) →
      ext (Num.hypot a b) = some (√(x ^ 2 + y ^ 2) : ℝ)) ∧
    ((¬ ∃ x, (ext a = some x ∨ ext b = some x) ∧ Endless x) → (ext a = none ∨ ext b = none) →
      ext (Num.hypot a b) = none) := by
  change (_ → ext (Wide.hypot a b) = _) ∧ (∀ x y, _ → _ → ext (Wide.hypot a b) = _) ∧ (_ → _ → ext (Wide.hypot a b) = _)
  rcases a with _ | s | x <;> rcases b with _ | t | y
  case inf.inf => cases s <;> simp [ext, Wide.hypot, Endless]
  case inf.fin => cases s <;> simp [ext, Wide.hypot, Endless]
  case fin.inf => cases t <;> simp [ext, Wide.hypot, Endless]
  all_goals simp [ext, Wide.hypot, Endless]

/-- A number, or numbers on their way to an infinity. -/
def approach : Wide → ℝ → ℝ
  | .nan, _ => 0
  | .inf false, r => r
  | .inf true, r => -r
  | .fin a, _ => a

/-- The limit of these numbers, divided by their distance. -/
def direction : Wide → ℝ
  | .nan => 0
  | .inf false => 1
  | .inf true => -1
  | .fin _ => 0

open Filter Topology

theorem approach_div (a : Wide) : Tendsto (fun r => approach a r / r) atTop (𝓝 (direction a)) := by
  have h1 : Tendsto (fun r : ℝ => r / r) atTop (𝓝 1) :=
    tendsto_const_nhds.congr' (by filter_upwards [eventually_gt_atTop 0] with r hr; rw [div_self hr.ne'])
  rcases a with _ | (_ | _) | x
  · simp [approach, direction]
  · simpa [approach, direction] using h1
  · simpa [approach, direction, neg_div] using h1.neg
  · simpa [approach, direction] using tendsto_const_nhds.div_atTop (tendsto_id (α := ℝ))

theorem approach_arg (a b : Wide) {l : Filter ℂ} {v : ℝ} (hl : Tendsto Complex.arg l (𝓝 v))
    (h : Tendsto (fun r => (⟨approach b r / r, approach a r / r⟩ : ℂ)) atTop l) :
    Tendsto (fun r => Complex.arg ⟨approach b r, approach a r⟩) atTop (𝓝 v) := by
  refine (hl.comp h).congr' ?_
  filter_upwards [eventually_gt_atTop 0] with r hr
  simp only [Function.comp]
  rw [← Complex.arg_real_mul _ hr]
  congr 1
  apply Complex.ext <;> simp <;> field_simp

theorem approach_tendsto (a b : Wide) :
    Tendsto (fun r => (⟨approach b r / r, approach a r / r⟩ : ℂ)) atTop (𝓝 ⟨direction b, direction a⟩) := by
  have := ((approach_div b).prodMk_nhds (approach_div a))
  exact (Complex.equivRealProdCLM.symm.continuous.tendsto _).comp this

theorem arg_polar {c d θ : ℝ} (h1 : -Real.pi < θ) (h2 : θ ≤ Real.pi) (hc : √2 * Real.cos θ = c)
    (hd : √2 * Real.sin θ = d) : Complex.arg ⟨c, d⟩ = θ := by
  have := Complex.arg_mul_cos_add_sin_mul_I (r := √2) (by positivity) ⟨h1, h2⟩
  rw [← this]
  congr 1
  apply Complex.ext
  · simp [← hc, Complex.cos_ofReal_re, Complex.sin_ofReal_im]
  · simp [← hd, Complex.cos_ofReal_im, Complex.sin_ofReal_re]

/-- C88: `atan2` of infinities is the limit of the angles on the way there. -/
theorem C88_atan2 (a b : Wide) :
    ((a = nan ∨ b = nan) → Num.atan2 a b = nan) ∧
    (a ≠ nan → b ≠ nan → ∃ v, Num.atan2 a b = fin v ∧
      Tendsto (fun r => Complex.arg ⟨approach b r, approach a r⟩) atTop (𝓝 v)) := by
  have slit : (⟨direction b, direction a⟩ : ℂ) ∈ Complex.slitPlane →
      Tendsto (fun r => Complex.arg ⟨approach b r, approach a r⟩) atTop
        (𝓝 (Complex.arg ⟨direction b, direction a⟩)) := fun h =>
    approach_arg a b (Complex.continuousAt_arg h) (approach_tendsto a b)
  have h2 : √2 * (√2 / 2) = 1 := by
    rw [← mul_div_assoc, Real.mul_self_sqrt (by norm_num)]; norm_num
  have hpi := Real.pi_pos
  have c3 : Real.cos (3 * Real.pi / 4) = -(√2 / 2) := by
    rw [show 3 * Real.pi / 4 = Real.pi - Real.pi / 4 by ring, Real.cos_pi_sub, Real.cos_pi_div_four]
  have s3 : Real.sin (3 * Real.pi / 4) = √2 / 2 := by
    rw [show 3 * Real.pi / 4 = Real.pi - Real.pi / 4 by ring, Real.sin_pi_sub, Real.sin_pi_div_four]
  refine ⟨fun h => ?_, fun ha hb => ?_⟩
  · change Wide.atan2 a b = nan
    rcases h with rfl | rfl
    · rfl
    · cases a <;> rfl
  · change ∃ v, Wide.atan2 a b = fin v ∧ _
    rcases a with _ | s | y
    · exact absurd rfl ha
    · rcases b with _ | t | x
      · exact absurd rfl hb
      · refine ⟨_, rfl, ?_⟩
        cases s <;> cases t
        all_goals
          convert slit (by simp [Complex.mem_slitPlane_iff, direction]) using 2
          symm
          simp only [direction]
          apply arg_polar
        all_goals first
          | (simp; nlinarith)
          | simp [c3, s3, h2]
      · refine ⟨_, rfl, ?_⟩
        convert slit (by cases s <;> simp [Complex.mem_slitPlane_iff, direction]) using 2
        cases s
        · have : (⟨direction (fin x), direction (inf false)⟩ : ℂ) = Complex.I := rfl
          rw [this, Complex.arg_I]; simp
        · have : (⟨direction (fin x), direction (inf true)⟩ : ℂ) = -Complex.I := by
            apply Complex.ext <;> simp [direction]
          rw [this, Complex.arg_neg_I]; simp
    · rcases b with _ | t | x
      · exact absurd rfl hb
      · refine ⟨_, rfl, ?_⟩
        cases t
        · convert slit (by simp [Complex.mem_slitPlane_iff, direction]) using 2
          have : (⟨direction (inf false), direction (fin y)⟩ : ℂ) = 1 := rfl
          rw [this, Complex.arg_one]; simp
        · have ht := approach_tendsto (fin y) (inf true)
          by_cases hy : y < 0
          · simp only [below, hy, decide_true, if_true]
            refine approach_arg _ _ (Complex.tendsto_arg_nhdsWithin_im_neg_of_re_neg_of_im_zero
              (z := ⟨direction (inf true), direction (fin y)⟩) (by simp [direction]) rfl)
              (tendsto_nhdsWithin_iff.mpr ⟨ht, ?_⟩)
            filter_upwards [eventually_gt_atTop 0] with r hr
            exact div_neg_of_neg_of_pos hy hr
          · simp only [below, hy, decide_false, if_true]
            refine approach_arg _ _ (Complex.tendsto_arg_nhdsWithin_im_nonneg_of_re_neg_of_im_zero
              (z := ⟨direction (inf true), direction (fin y)⟩) (by simp [direction]) rfl)
              (tendsto_nhdsWithin_iff.mpr ⟨ht, ?_⟩)
            filter_upwards [eventually_gt_atTop 0] with r hr
            exact div_nonneg (not_lt.mp hy) hr.le
      · exact ⟨_, rfl, tendsto_const_nhds⟩

/-- C88: sine and cosine of infinities and of NaN are NaN; truncation leaves them alone; Sleipnir's sign of NaN is 1. -/
theorem C88_functions (a : Wide) (h : ∀ r, a ≠ fin r) :
    Num.sin a = nan ∧ Num.cos a = nan ∧ Dbl.trunc a = a ∧
    (a = inf true → Num.sign a = fin (-1)) ∧ (a ≠ inf true → Num.sign a = fin 1) := by
  rcases a with _ | (_ | _) | x
  · exact ⟨rfl, rfl, rfl, nofun, fun _ => rfl⟩
  · exact ⟨rfl, rfl, rfl, nofun, fun _ => congrArg fin (if_neg Bool.false_ne_true)⟩
  · exact ⟨rfl, rfl, rfl, fun _ => congrArg fin (if_pos rfl), fun h => absurd rfl h⟩
  · exact absurd rfl (h x)

/-- C88: on numbers, all operations but division by zero are those of the real numbers. -/
theorem C88_numbers (x y : ℝ) :
    Num.sin (fin x) = fin (Real.sin x) ∧ Num.cos (fin x) = fin (Real.cos x) ∧
    Num.atan2 (fin y) (fin x) = fin (Complex.arg ⟨x, y⟩) ∧
    Num.sign (fin x) = fin (if x < 0 then -1 else if x = 0 then 0 else 1) ∧
    Dbl.trunc (fin x) = fin (if x < 0 then ⌈x⌉ else ⌊x⌋) ∧ (Dbl.pi : Wide) = fin Real.pi ∧
    (∀ z : ℤ, (Dbl.ofInt z : Wide) = fin z) ∧ ∀ q : ℚ, (Num.lit q : Wide) = fin q := by
  refine ⟨rfl, rfl, rfl, rfl, ?_, rfl, fun _ => rfl, fun _ => rfl⟩
  change fin (Dbl.trunc x) = _
  rw [real_trunc]

/-- `5.0 / 0` is infinite, `atan2` of it and `-∞` is 135°, and infinity minus infinity is NaN. -/
example : (fin 5 / fin 0 : Wide) = inf false ∧ Num.atan2 (fin 5 / fin 0) (inf true) = fin (3 * Real.pi / 4) ∧
    (inf false - inf false : Wide) = nan := by
  have h : (fin 5 / fin 0 : Wide) = inf false := by simp [fin_div, below]
  refine ⟨h, ?_, rfl⟩
  rw [h]
  change fin ((if false then -1 else 1) * (if true then 3 * Real.pi / 4 else Real.pi / 4)) = _
  simp

end Trajopt.Props
