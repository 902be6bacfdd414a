import Verif.Spec.Geometry
import Verif.Lemmas.Geometry
import Mathlib.Analysis.SpecialFunctions.Complex.Arg

/-!
# C55–C59 Geometry (real arithmetic)
-/

set_option autoImplicit false

namespace Trajopt.Props

open Spec

theorem isUnit_iff {r : Rotation2 ℝ} : Spec.IsUnit r ↔ r.cos ^ 2 + r.sin ^ 2 = 1 := norm_mk_eq_one

theorem dir_injective {r s : Rotation2 ℝ} (h : dir r = dir s) : r = s := by
  cases r; cases s
  simp only [dir, Complex.mk.injEq] at h
  rw [h.1, h.2]

theorem vec_injective {r s : Translation2 ℝ} (h : vec r = vec s) : r = s := by
  cases r; cases s
  simp only [vec, Complex.mk.injEq] at h
  rw [h.1, h.2]

/-- C55: composition of rotations is multiplication of directions. -/
theorem C55_compose (a b : Rotation2 ℝ) : dir (a.add b) = dir a * dir b := by
  apply Complex.ext <;> simp [dir, Rotation2.add, Rotation2.rotateBy]

/-- C55: negation is complex conjugation. -/
theorem C55_neg (a : Rotation2 ℝ) : dir a.neg = (starRingEnd ℂ) (dir a) := by
  apply Complex.ext <;> simp [dir, Rotation2.neg]

/-- C55: composition is associative. -/
theorem C55_assoc (a b c : Rotation2 ℝ) : (a.add b).add c = a.add (b.add c) :=
  dir_injective (by simp only [C55_compose, mul_assoc])

/-- C55: composition is commutative. -/
theorem C55_comm (a b : Rotation2 ℝ) : a.add b = b.add a :=
  dir_injective (by simp only [C55_compose, mul_comm])

/-- C55: `Rotation2{}` is the identity. -/
theorem C55_identity (a : Rotation2 ℝ) : a.add .zero = a ∧ Rotation2.zero.add a = a := by
  have h : dir Rotation2.zero = 1 := by apply Complex.ext <;> simp [dir, Rotation2.zero]
  exact ⟨dir_injective (by rw [C55_compose, h, mul_one]),
    dir_injective (by rw [C55_compose, h, one_mul])⟩

/-- C55: for unit rotations `-a` is the inverse, and `a - b` undoes `b`. -/
theorem C55_inverse (a b : Rotation2 ℝ) (hb : Spec.IsUnit b) :
    b.add b.neg = .zero ∧ (a.sub b).add b = a := by
  have h : dir Rotation2.zero = 1 := by apply Complex.ext <;> simp [dir, Rotation2.zero]
  have hbb : b.add b.neg = .zero := by
    apply dir_injective
    rw [C55_compose, C55_neg, h, Complex.mul_conj, Complex.normSq_eq_norm_sq, hb]
    simp
  refine ⟨hbb, ?_⟩
  rw [Rotation2.sub, C55_assoc, C55_comm b.neg b, hbb, (C55_identity a).1]

/-- C55: composing rotations adds angles. -/
theorem C55_angles (x y : ℝ) :
    (Rotation2.ofAngle x).add (Rotation2.ofAngle y) = Rotation2.ofAngle (x + y) := by
  simp only [Rotation2.ofAngle, Rotation2.add, Rotation2.rotateBy, real_cos, real_sin, real_sub,
    real_mul, real_add, Real.cos_add, Real.sin_add, Rotation2.mk.injEq]
  exact ⟨trivial, by ring⟩

/-- C55: unit rotations are closed under the operations, and angles make unit rotations. -/
theorem C55_unit (a b : Rotation2 ℝ) (x : ℝ) (ha : Spec.IsUnit a) (hb : Spec.IsUnit b) :
    Spec.IsUnit (a.add b) ∧ Spec.IsUnit (a.sub b) ∧ Spec.IsUnit a.neg ∧
    Spec.IsUnit (Rotation2.ofAngle x) ∧ Spec.IsUnit Rotation2.zero := by
  simp only [Spec.IsUnit] at *
  refine ⟨?_, ?_, ?_, ?_, ?_⟩
  · rw [C55_compose, norm_mul, ha, hb, one_mul]
  · rw [Rotation2.sub, C55_compose, C55_neg, norm_mul, ha, RCLike.norm_conj, hb, one_mul]
  · rw [C55_neg, RCLike.norm_conj, ha]
  · exact norm_mk_eq_one.mpr (Real.cos_sq_add_sin_sq x)
  · exact norm_mk_eq_one.mpr (by simp [Rotation2.zero])

/-- C56: rotating a translation is multiplying by the direction. -/
theorem C56_rotate (t : Translation2 ℝ) (r : Rotation2 ℝ) : vec (t.rotateBy r) = vec t * dir r := by
  apply Complex.ext <;> simp [vec, dir, Translation2.rotateBy]

theorem vec_add (s t : Translation2 ℝ) : vec (s.add t) = vec s + vec t := by
  apply Complex.ext <;> simp [vec, Translation2.add]

theorem vec_sub (s t : Translation2 ℝ) : vec (s.sub t) = vec s - vec t := by
  apply Complex.ext <;> simp [vec, Translation2.add, Translation2.sub, Translation2.neg] <;> ring

theorem vec_neg (t : Translation2 ℝ) : vec t.neg = -vec t := by
  apply Complex.ext <;> simp [vec, Translation2.neg]

/-- C56, C58: `Norm` is the Euclidean norm, `SquaredNorm` its square, `Distance` the Euclidean
distance. -/
theorem C58_norm (s t : Translation2 ℝ) :
    t.norm = ‖vec t‖ ∧ t.squaredNorm = ‖vec t‖ ^ 2 ∧ s.distance t = dist (vec s) (vec t) := by
  refine ⟨?_, ?_, ?_⟩
  · rw [vec, norm_mk]; rfl
  · rw [vec, norm_mk_sq]; simp [Translation2.squaredNorm]; ring
  · rw [dist_comm, dist_eq_norm]
    have : vec t - vec s = ⟨t.x - s.x, t.y - s.y⟩ := by apply Complex.ext <;> simp [vec]
    rw [this, norm_mk]; rfl

/-- C56: dot and cross product are real and imaginary part of the complex product with the
conjugate; the cross product is positive if the second vector is to the left of the first. -/
theorem C56_products (s t : Translation2 ℝ) :
    s.dot t = ((starRingEnd ℂ) (vec s) * vec t).re ∧
    s.cross t = ((starRingEnd ℂ) (vec s) * vec t).im := by
  simp [Translation2.dot, Translation2.cross, vec, real_add, real_mul, real_sub]
  ring

/-- C56: a structured binding `auto [x, y] = t` gives the components of the vector. -/
theorem C56_bindings (t : Translation2 ℝ) : vec t = t.get 0 + t.get 1 * Complex.I := by
  simp [Translation2.get, vec, Complex.ext_iff]

/-- C56: rotating by a unit rotation preserves norms, distances, dot and cross products. -/
theorem C56_isometry (s t : Translation2 ℝ) (r : Rotation2 ℝ) (hr : Spec.IsUnit r) :
    (t.rotateBy r).norm = t.norm ∧
    (s.rotateBy r).distance (t.rotateBy r) = s.distance t ∧
    (s.rotateBy r).dot (t.rotateBy r) = s.dot t ∧
    (s.rotateBy r).cross (t.rotateBy r) = s.cross t := by
  have hu := isUnit_iff.mp hr
  refine ⟨?_, ?_, ?_, ?_⟩
  · rw [(C58_norm s _).1, (C58_norm s _).1, C56_rotate, norm_mul, hr, mul_one]
  · rw [(C58_norm _ _).2.2, (C58_norm _ _).2.2, C56_rotate, C56_rotate, dist_eq_norm, ← sub_mul,
      norm_mul, hr, mul_one, dist_eq_norm]
  · simp only [Translation2.dot, Translation2.rotateBy, real_add, real_mul, real_sub]
    linear_combination (s.x * t.x + s.y * t.y) * hu
  · simp only [Translation2.cross, Translation2.rotateBy, real_add, real_mul, real_sub]
    linear_combination (s.x * t.y - s.y * t.x) * hu

/-- C56: rotating distributes over sums, differences and negation, and rotating by `r` then `s` is
rotating by `r + s`. -/
theorem C56_action (t u : Translation2 ℝ) (r s : Rotation2 ℝ) :
    (t.add u).rotateBy r = (t.rotateBy r).add (u.rotateBy r) ∧
    (t.sub u).rotateBy r = (t.rotateBy r).sub (u.rotateBy r) ∧
    t.neg.rotateBy r = (t.rotateBy r).neg ∧
    (t.rotateBy r).rotateBy s = t.rotateBy (r.add s) ∧
    t.rotateBy .zero = t := by
  refine ⟨vec_injective ?_, vec_injective ?_, vec_injective ?_, vec_injective ?_,
    vec_injective ?_⟩
  · simp only [C56_rotate, vec_add, add_mul]
  · simp only [C56_rotate, vec_sub, sub_mul]
  · simp only [C56_rotate, vec_neg, neg_mul]
  · simp only [C56_rotate, C55_compose, mul_assoc]
  · rw [C56_rotate, show dir Rotation2.zero = 1 by
      apply Complex.ext <;> simp [dir, Rotation2.zero], mul_one]

/-- C56: rotating a pose (about the field's origin) rotates every point fixed to the body; rotating
by `r` then `s` is rotating by `r + s`; the default pose leaves points where they are. -/
theorem C56_pose (p : Pose2 ℝ) (q : Translation2 ℝ) (r s : Rotation2 ℝ) :
    onPose (p.rotateBy r) q = onPose p q * dir r ∧
    (p.rotateBy r).rotateBy s = p.rotateBy (r.add s) ∧ p.rotateBy .zero = p ∧
    onPose .zero q = vec q := by
  have hz : dir Rotation2.zero = 1 := by apply Complex.ext <;> simp [dir, Rotation2.zero]
  have hd : ∀ a b : Rotation2 ℝ, dir (a.rotateBy b) = dir a * dir b := C55_compose
  refine ⟨?_, ?_, ?_, ?_⟩
  · simp only [onPose, Pose2.rotateBy, C56_rotate, hd]
    ring
  · have h1 := C55_assoc p.rotation r s
    have h2 := (C56_action p.translation p.translation r s).2.2.2.1
    simp only [Rotation2.add] at h1 h2
    simp only [Pose2.rotateBy, Rotation2.add, h1, h2]
  · have h1 := (C55_identity p.rotation).1
    have h2 := (C56_action p.translation p.translation r s).2.2.2.2
    simp only [Rotation2.add] at h1
    simp only [Pose2.rotateBy, h1, h2]
  · have h0 : vec Translation2.zero = 0 := by
      apply Complex.ext <;> simp [vec, Translation2.zero]
    simp only [onPose, Pose2.zero, hz, h0, zero_add, mul_one]

theorem dir_ofAngle (x : ℝ) : dir (Rotation2.ofAngle x) = Complex.exp (x * Complex.I) := by
  rw [Complex.exp_mul_I]
  apply Complex.ext <;>
    simp [dir, Rotation2.ofAngle, Complex.cos_ofReal_re, Complex.sin_ofReal_re,
      Complex.cos_ofReal_im, Complex.sin_ofReal_im]

/-- C57: `Rotation2{x}.Radians()` lies in `(-π, π]` and is congruent to `x` modulo `2π`; it is `x`
if `x` is already in range. -/
theorem C57_radians (x : ℝ) :
    -Real.pi < (Rotation2.ofAngle x).radians ∧ (Rotation2.ofAngle x).radians ≤ Real.pi ∧
    (∃ k : ℤ, (Rotation2.ofAngle x).radians = x + k * (2 * Real.pi)) ∧
    (-Real.pi < x → x ≤ Real.pi → (Rotation2.ofAngle x).radians = x) := by
  have h : (Rotation2.ofAngle x).radians = Complex.arg (dir (Rotation2.ofAngle x)) := rfl
  refine ⟨?_, ?_, ?_, ?_⟩
  · rw [h]; exact Complex.neg_pi_lt_arg _
  · rw [h]; exact Complex.arg_le_pi _
  · rw [h, dir_ofAngle, Complex.arg_exp_mul_I]
    refine ⟨-toIocDiv Real.two_pi_pos (-Real.pi) x, ?_⟩
    have := toIocMod_add_toIocDiv_zsmul Real.two_pi_pos (-Real.pi) x
    rw [zsmul_eq_mul] at this
    push_cast
    linarith
  · intro h1 h2
    rw [h, dir_ofAngle, Complex.arg_exp_mul_I, toIocMod_eq_self]
    exact ⟨h1, by linarith⟩

/-- C57: for unit `r`, `Rotation2{r.Radians()}` is `r`; `Degrees` is `Radians · 180/π`. -/
theorem C57_round_trip (r : Rotation2 ℝ) :
    (Spec.IsUnit r → Rotation2.ofAngle r.radians = r) ∧
    (-Real.pi < r.radians ∧ r.radians ≤ Real.pi) ∧
    r.degrees = r.radians * (180 / Real.pi) := by
  refine ⟨fun h => ?_, ⟨Complex.neg_pi_lt_arg _, Complex.arg_le_pi _⟩, ?_⟩
  · have hu := isUnit_iff.mp h
    cases r
    simp only [Rotation2.ofAngle, Rotation2.radians, real_cos, real_sin, real_atan2,
      cos_arg_of_unit hu, sin_arg_of_unit hu]
  · simp only [Rotation2.degrees, Rotation2.radians, real_div, real_mul, real_pi, real_lit]
    push_cast
    ring

/-- C58: `Translation2{d, r}` with unit `r` has norm `|d|`, and for `d > 0` its angle is `r`'s. -/
theorem C58_polar (d : ℝ) (r : Rotation2 ℝ) (hr : Spec.IsUnit r) :
    (Translation2.ofPolar d r).norm = |d| ∧
    (0 < d → (Translation2.ofPolar d r).angle.radians = r.radians) := by
  have h : vec (Translation2.ofPolar d r) = (d : ℂ) * dir r := by
    apply Complex.ext <;> simp [vec, dir, Translation2.ofPolar]
  constructor
  · rw [(C58_norm _ _).1, h, norm_mul, hr, mul_one]; simp
    exact .zero
  · intro hd
    have : (Translation2.ofPolar d r).angle.radians = Complex.arg (vec (Translation2.ofPolar d r)) := rfl
    rw [this, h, Complex.arg_real_mul _ hd]
    rfl

/-- C58: scaling by `k` scales vector and norm; dividing by `k ≠ 0` undoes it. -/
theorem C58_scale (t : Translation2 ℝ) (k : ℝ) :
    vec (t.smul k) = k * vec t ∧ (t.smul k).norm = |k| * t.norm ∧
    (k ≠ 0 → (t.smul k).sdiv k = t ∧ (t.sdiv k).smul k = t ∧ (t.sdiv k).norm = t.norm / |k|) := by
  have h1 : vec (t.smul k) = k * vec t := by
    apply Complex.ext <;> simp [vec, Translation2.smul, mul_comm]
  have h2 : vec (t.sdiv k) = vec t / k := by
    apply Complex.ext <;> simp [vec, Translation2.sdiv]
  refine ⟨h1, ?_, fun hk => ⟨?_, ?_, ?_⟩⟩
  · rw [(C58_norm t _).1, (C58_norm t _).1, h1, norm_mul]; simp
  · simp [Translation2.sdiv, Translation2.smul, hk]
  · simp [Translation2.sdiv, Translation2.smul, hk]
  · rw [(C58_norm t _).1, (C58_norm t _).1, h2, norm_div]; simp

/-- C58: `Distance` is a metric. -/
theorem C58_metric (s t u : Translation2 ℝ) :
    s.distance t = t.distance s ∧ (s.distance t = 0 ↔ s = t) ∧
    s.distance u ≤ s.distance t + t.distance u ∧ s.distance t = (t.sub s).norm := by
  simp only [(C58_norm _ _).2.2]
  refine ⟨dist_comm _ _, ⟨fun h => vec_injective (dist_eq_zero.mp h), fun h => by rw [h, dist_self]⟩,
    dist_triangle _ _ _, ?_⟩
  rw [(C58_norm s _).1, vec_sub, ← dist_eq_norm, dist_comm]

/-- C59 is false: `Translation2{2, 0}.Angle()` is not on the unit circle. -/
theorem C59_refuted : ¬ ∀ t : Translation2 ℝ, t ≠ .zero → Spec.IsUnit t.angle := by
  intro h
  have := isUnit_iff.mp (h ⟨2, 0⟩ (by simp [Translation2.zero]))
  norm_num [Translation2.angle] at this

/-- C59, what holds: `Angle()` is the right rotation exactly for translations of norm 1, and its
`Radians()` is always the translation's angle. Missing: normalisation. -/
theorem C59_partial (t : Translation2 ℝ) :
    (Spec.IsUnit t.angle ↔ t.norm = 1) ∧ t.angle.radians = Complex.arg (vec t) ∧
    (t ≠ .zero → Spec.IsUnit (Rotation2.ofAngle t.angle.radians) ∧
      vec t = (t.norm : ℂ) * dir (Rotation2.ofAngle t.angle.radians)) := by
  refine ⟨?_, rfl, fun _ => ⟨norm_mk_eq_one.mpr (Real.cos_sq_add_sin_sq _), ?_⟩⟩
  · rw [(C58_norm t t).1]; rfl
  · rw [dir_ofAngle, (C58_norm t t).1]
    exact (Complex.norm_mul_exp_arg_mul_I (vec t)).symm

/-- The unit hypotheses above are met by non-trivial rotations. -/
example : Spec.IsUnit (⟨3 / 5, 4 / 5⟩ : Rotation2 ℝ) := isUnit_iff.mpr (by norm_num)

example : ((⟨1, 2⟩ : Translation2 ℝ).rotateBy ⟨3 / 5, 4 / 5⟩) = ⟨-1, 2⟩ := by
  simp only [Translation2.rotateBy, real_sub, real_mul, real_add, Translation2.mk.injEq]
  norm_num

end Trajopt.Props
