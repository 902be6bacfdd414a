import Verif.Lemmas.Wide
import Verif.Props.RoundingPath

/-!
# The ten constraints with infinities and NaN
-/

set_option autoImplicit false

namespace Trajopt.Props
open Spec Wide

theorem not_isFin_div {x y : Wide} (hx : ¬ x.IsFin) (hy : ¬ y.IsFin) : x / y = nan := by
  cases x <;> cases y <;> (simp_all; try rfl)

theorem not_isFin_div_fin {x : Wide} (hx : ¬ x.IsFin) (y : ℝ) : ¬ (x / fin y).IsFin := by
  cases x with
  | nan => simp
  | inf s =>
    have : inf s / fin y = inf (s != below y) := rfl
    simp [this]
  | fin r => simp at hx

theorem bounded_nan {t : Wide} (ht : ¬ t.IsFin) : lpdMax (lpdMin t (Num.lit 1)) (Num.lit 0) = nan := by
  cases t with
  | nan => simp [lpdMax, lpdMin]
  | inf s =>
    cases s with
    | false => simp [lpdMax, lpdMin, sgn, fin_mul_inf]
    | true => norm_num [lpdMax, lpdMin, sgn, fin_mul_inf, inf_add_inf, below]
  | fin r => simp at ht

theorem lpd_nan {a b p : Translation2 Wide}
    (h : ¬ (a.x.IsFin ∧ a.y.IsFin ∧ b.x.IsFin ∧ b.y.IsFin ∧ p.x.IsFin ∧ p.y.IsFin)) :
    linePointDistance a b p = nan := by
  have key : ¬ ((((p.x - a.x) * (b.x - a.x) + (p.y - a.y) * (b.y - a.y)) /
      ((b.x - a.x) * (b.x - a.x) + (b.y - a.y) * (b.y - a.y))).IsFin) := by
    by_cases hl : (b.x - a.x).IsFin ∧ (b.y - a.y).IsFin
    · obtain ⟨⟨lx, hx⟩, ly, hy⟩ := id hl
      have hv : ¬ ((p.x - a.x).IsFin ∧ (p.y - a.y).IsFin) := by
        simp only [isFin_sub] at hl ⊢
        tauto
      rw [hx, hy]
      refine not_isFin_div_fin ?_ _
      simp only [isFin_add, isFin_mul]
      tauto
    · rw [not_isFin_div]
      · simp
      · simp only [isFin_add, isFin_mul]; tauto
      · simp only [isFin_add, isFin_mul]; tauto
  have hb := bounded_nan key
  simp only [linePointDistance, Translation2.dot, Translation2.squaredNorm] at hb ⊢
  rw [hb]
  simp [lpdLerp, Translation2.sub, Translation2.add, Translation2.neg]

theorem lpd_fin (a b p : Translation2 ℝ) : linePointDistance a.wide b.wide p.wide =
    if vec a = vec b then nan else fin (linePointDistance a b p) := by
  have hne : vec a = vec b ↔ (b.x - a.x) * (b.x - a.x) + (b.y - a.y) * (b.y - a.y) = 0 := by
    simp only [vec, Complex.mk.injEq]
    constructor
    · rintro ⟨h1, h2⟩; rw [h1, h2]; ring
    · intro h
      constructor <;> nlinarith [mul_self_nonneg (b.x - a.x), mul_self_nonneg (b.y - a.y)]
  split_ifs with h
  · have e : vec a = vec b := h
    rw [hne] at h
    have h1 : b.x = a.x := by simpa [vec] using (congrArg Complex.re e).symm
    have h2 : b.y = a.y := by simpa [vec] using (congrArg Complex.im e).symm
    simp [linePointDistance, Translation2.dot, Translation2.squaredNorm, Translation2.wide, h1, h2,
      fin_div, lpdMin, lpdMax, lpdLerp, Translation2.sub, Translation2.add, Translation2.neg]
  · rw [hne] at h
    simp [linePointDistance, Translation2.dot, Translation2.squaredNorm, Translation2.wide,
      fin_div, lpdMin, lpdMax, lpdLerp, Translation2.sub, Translation2.add, Translation2.neg, h]

/-- Values of a point's coordinates. -/
noncomputable def valueT (σ : ℕ → Wide) (t : Translation2 (Expr Wide)) : Translation2 Wide :=
  ⟨t.x.value σ, t.y.value σ⟩

theorem lpd_value (σ : ℕ → Wide) (a b p : Translation2 (Expr Wide)) :
    (linePointDistance a b p).value σ = linePointDistance (valueT σ a) (valueT σ b) (valueT σ p) := rfl

/-- A constraint on the line-point distance with some infinite or undefined number does not hold. -/
theorem lpd_con_false (σ : ℕ → Wide) (a b p : Translation2 (Expr Wide)) (d : Wide)
    (h : ¬ ((valueT σ a).x.IsFin ∧ (valueT σ a).y.IsFin ∧ (valueT σ b).x.IsFin ∧
      (valueT σ b).y.IsFin ∧ (valueT σ p).x.IsFin ∧ (valueT σ p).y.IsFin ∧ d.IsFin)) :
    ¬ (Con.ge (linePointDistance a b p * linePointDistance a b p) (.const (d * d))).Test σ := by
  simp only [Con.Test, value_mul, value_const, lpd_value]
  by_cases hd : d.IsFin
  · rw [lpd_nan (by tauto)]
    simp [Nonneg]
  · by_cases hf : (valueT σ a).x.IsFin ∧ (valueT σ a).y.IsFin ∧ (valueT σ b).x.IsFin ∧
      (valueT σ b).y.IsFin ∧ (valueT σ p).x.IsFin ∧ (valueT σ p).y.IsFin
    · obtain ⟨⟨ax, h1⟩, ⟨ay, h2⟩, ⟨bx, h3⟩, ⟨bY, h4⟩, ⟨px, h5⟩, pY, h6⟩ := hf
      have ha : valueT σ a = Translation2.wide ⟨ax, ay⟩ := by
        simp [Translation2.wide, ← h1, ← h2]
      have hb : valueT σ b = Translation2.wide ⟨bx, bY⟩ := by
        simp [Translation2.wide, ← h3, ← h4]
      have hp : valueT σ p = Translation2.wide ⟨px, pY⟩ := by
        simp [Translation2.wide, ← h5, ← h6]
      rw [ha, hb, hp, lpd_fin]
      cases d with
      | nan => simp [Nonneg]
      | inf s => split_ifs <;> simp [Nonneg]
      | fin r => simp at hd
    · rw [lpd_nan hf]
      simp [Nonneg]

/-- With finite numbers the constraint has its real meaning. -/
theorem lpd_con_fin (σ : ℕ → ℝ) (a b p : Translation2 (Expr ℝ)) (d : ℝ)
    (a' b' p' : Translation2 (Expr Wide))
    (ha : valueT (finite σ) a' = (evalT σ a).wide) (hb : valueT (finite σ) b' = (evalT σ b).wide)
    (hp : valueT (finite σ) p' = (evalT σ p).wide)
    (da : a.x.Defined σ ∧ a.y.Defined σ) (db : b.x.Defined σ ∧ b.y.Defined σ)
    (dp : p.x.Defined σ ∧ p.y.Defined σ) :
    (Con.ge (linePointDistance a' b' p' * linePointDistance a' b' p') (.const (fin d * fin d))).Test
      (finite σ) ↔
    (Con.ge (linePointDistance a b p * linePointDistance a b p) (.const (d * d))).Holds σ := by
  simp only [Con.Test, value_mul, value_const, lpd_value, ha, hb, hp, lpd_fin, Con.Holds, defined_mul,
    defined_const, linePointDistance_defined σ a b p da db dp, eval_mul, eval_const,
    linePointDistance_eval]
  split_ifs with h
  · simp [Nonneg, h]
  · simp [Nonneg, h]

/-! ### the ten constraints -/

theorem wide_data (c₀ : Constraint ℝ) : ∀ d ∈ c₀.wide.data, d.IsFin := by
  cases c₀ <;> simp [Constraint.wide, Constraint.data, Translation2.data, Translation2.wide]

theorem meaningW_infinite {c : Constraint Wide} (h : ¬ ∀ d ∈ c.data, d.IsFin) (s : State) :
    MeaningW c s ↔ InfiniteMeaning c s := by
  rw [MeaningW, or_iff_right]
  rintro ⟨c₀, rfl, -⟩
  exact h (wide_data c₀)

theorem wideT_inj {p q : Translation2 ℝ} : p.wide = q.wide ↔ p = q := by
  cases p; cases q; simp [Translation2.wide]

theorem wide_inj {c c' : Constraint ℝ} (h : c.wide = c'.wide) : c = c' := by
  cases c <;> cases c' <;>
    simp_all [Constraint.wide, wideT_inj]

theorem infinite_wide (c₀ : Constraint ℝ) (s : State) : ¬ InfiniteMeaning c₀.wide s := by
  cases c₀ with
  | pointAt p t => exact fun h => h.2.2.2 p rfl
  | pointPoint r p d => exact fun h => h.2.2 p rfl
  | _ => simp [InfiniteMeaning, Constraint.wide]

theorem meaningW_wide (c₀ : Constraint ℝ) (s : State) : MeaningW c₀.wide s ↔ Meaning c₀ s := by
  rw [MeaningW, or_iff_left (infinite_wide c₀ s)]
  constructor
  · rintro ⟨c₁, h, h'⟩
    rwa [wide_inj h]
  · exact fun h => ⟨_, rfl, h⟩

section
variable (σ : ℕ → ℝ) (m n : ℕ)

local notation "S" => decodeSample σ (sampleVars m n)

theorem apply_map {c₀ : Constraint ℝ} (h : ∀ a b p d, c₀ ≠ .linePoint a b p d)
    (h' : ∀ r a b d, c₀ ≠ .pointLine r a b d) :
    c₀.wide.apply (sampleVars m n) = (c₀.apply (sampleVars m n)).map (Con.map fin) := by
  cases c₀ with
  | linePoint a b p d => exact absurd rfl (h a b p d)
  | pointLine r a b d => exact absurd rfl (h' r a b d)
  | angularVelocityMaxMagnitude m =>
    simp only [Constraint.wide, Constraint.apply, fin_lit, fin_eq, real_eq, real_lit]
    split_ifs <;> rfl
  | linearAccelerationMaxMagnitude m =>
    simp only [Constraint.wide, Constraint.apply, fin_lit, fin_eq, real_eq, real_lit]
    split_ifs <;> rfl
  | linearVelocityMaxMagnitude m =>
    simp only [Constraint.wide, Constraint.apply, fin_lit, fin_eq, real_eq, real_lit]
    split_ifs <;> rfl
  | linearVelocityDirection a => rfl
  | pointAt p t => rfl
  | pointPoint r p d => rfl
  | poseEquality x y h => rfl
  | translationEquality p => rfl

theorem apply_defined {c₀ : Constraint ℝ} (h : ∀ a b p d, c₀ ≠ .linePoint a b p d)
    (h' : ∀ r a b d, c₀ ≠ .pointLine r a b d) :
    ∀ k ∈ c₀.apply (sampleVars m n), k.Defined σ := by
  cases c₀ with
  | linePoint a b p d => exact absurd rfl (h a b p d)
  | pointLine r a b d => exact absurd rfl (h' r a b d)
  | angularVelocityMaxMagnitude m =>
    simp only [Constraint.apply]; split_ifs <;> simp [Con.Defined, sampleVars]
  | linearAccelerationMaxMagnitude m =>
    simp only [Constraint.apply]
    split_ifs <;> simp [Con.Defined, sampleVars, Translation2.squaredNorm]
  | linearVelocityMaxMagnitude m =>
    simp only [Constraint.apply]
    split_ifs <;> simp [Con.Defined, sampleVars, Translation2.squaredNorm]
  | linearVelocityDirection a =>
    simp [Constraint.apply, Con.Defined, sampleVars, Translation2.dot, Translation2.squaredNorm]
  | pointAt p t => simp [Constraint.apply, Con.Defined, sampleVars, Pose2.x, Pose2.y]
  | pointPoint r p d =>
    simp [Constraint.apply, Con.Defined, sampleVars, Translation2.add, Translation2.rotateBy,
      Translation2.toV]
  | poseEquality x y h =>
    simp [Constraint.apply, Con.Defined, sampleVars, Pose2.eqCons, Translation2.eqCons,
      Rotation2.eqCons, Translation2.toV, Rotation2.toV, Pose2.ofXYHeading]
  | translationEquality p =>
    simp [Constraint.apply, Con.Defined, sampleVars, Translation2.eqCons, Translation2.toV]

/-- Constraints with finite data have their real meaning. -/
theorem test_fin (c₀ : Constraint ℝ) :
    (∀ k ∈ c₀.wide.apply (sampleVars m n), k.Test (finite σ)) ↔ Meaning c₀ S := by
  rw [← constraint_meaning σ c₀ _ (sampleVars_defined σ m n)]
  by_cases h : ∀ a b p d, c₀ ≠ .linePoint a b p d
  · by_cases h' : ∀ r a b d, c₀ ≠ .pointLine r a b d
    · rw [apply_map m n h h', tests_map σ _ (apply_defined σ m n h h')]
      rfl
    · push Not at h'
      obtain ⟨r, a, b, d, rfl⟩ := h'
      simp only [Constraint.wide, Constraint.apply, List.mem_singleton, forall_eq, Satisfies]
      apply lpd_con_fin <;>
        simp [valueT, evalT, Translation2.wide, sampleVars, Translation2.add, Translation2.rotateBy,
          Translation2.toV, value_add, value_mul, value_sub, value_const, value_var, finite]
  · push Not at h
    obtain ⟨a, b, p, d, rfl⟩ := h
    simp only [Constraint.wide, Constraint.apply, List.mem_singleton, forall_eq, Satisfies]
    apply lpd_con_fin <;>
      simp [valueT, evalT, Translation2.wide, sampleVars, Translation2.add, Translation2.rotateBy,
        Translation2.toV, value_add, value_mul, value_sub, value_const, value_var, finite]

theorem mul_inf_pos {c : ℝ} {s : Bool} (h : 0 < sgn s * c) : fin c * inf s = inf false := by
  rw [fin_mul_inf]
  cases s with
  | false =>
    have h : 0 < c := by simpa [sgn] using h
    simp [h.ne', below, h.le]
  | true =>
    have h : c < 0 := by simpa [sgn] using h
    simp [h.ne, below, h]

theorem mul_inf_neg {c : ℝ} {s : Bool} (h : sgn s * c < 0) : fin c * inf s = inf true := by
  rw [fin_mul_inf]
  cases s with
  | false =>
    have h : c < 0 := by simpa [sgn] using h
    simp [h.ne, below, h]
  | true =>
    have h : 0 < c := by simpa [sgn] using h
    simp [h.ne', below, h.le]

theorem mul_inf_zero {c : ℝ} {s : Bool} (h : sgn s * c = 0) : fin c * inf s = nan := by
  have : c = 0 := by cases s <;> simpa [sgn] using h
  rw [fin_mul_inf, if_pos this]

/-- A number times an infinity. -/
theorem mul_inf_cases (c : ℝ) (s : Bool) :
    (fin c * inf s = inf false ∧ (0 < sgn s * c) = True ∧ (sgn s * c < 0) = False ∧
      (sgn s * c = 0) = False) ∨
    (fin c * inf s = inf true ∧ (0 < sgn s * c) = False ∧ (sgn s * c < 0) = True ∧
      (sgn s * c = 0) = False) ∨
    (fin c * inf s = nan ∧ (0 < sgn s * c) = False ∧ (sgn s * c < 0) = False ∧
      (sgn s * c = 0) = True) := by
  rcases lt_trichotomy (sgn s * c) 0 with h | h | h
  · exact .inr (.inl ⟨mul_inf_neg h, by simp [h.le], by simp [h], by simp [h.ne]⟩)
  · exact .inr (.inr ⟨mul_inf_zero h, by simp [h], by simp [h], by simp [h]⟩)
  · exact .inl ⟨mul_inf_pos h, by simp [h], by simp [h.le], by simp [h.ne']⟩

theorem mul_infinity_cases (c : ℝ) : (fin c * inf false = inf false ∧ (c < 0) = False) ∨
    (fin c * inf false = inf true ∧ (c < 0) = True) ∨ (fin c * inf false = nan ∧ (c < 0) = False) := by
  have e : sgn false * c = c := by simp [sgn]
  have := mul_inf_cases c false
  rw [e] at this
  rcases this with ⟨h, -, h', -⟩ | ⟨h, -, h', -⟩ | ⟨h, -, h', -⟩
  · exact .inl ⟨h, h'⟩
  · exact .inr (.inl ⟨h, h'⟩)
  · exact .inr (.inr ⟨h, h'⟩)

theorem nonneg_nan : nan.Nonneg = False := rfl
theorem nonneg_inf (s : Bool) : (inf s).Nonneg = (s = false) := rfl
theorem nonneg_fin (r : ℝ) : (fin r).Nonneg = (0 ≤ r) := rfl

theorem mulW_comm (x y : Wide) : x * y = y * x := by
  cases x <;> cases y <;> simp [fin_mul_inf, inf_mul_fin, mul_comm, bne_comm]

theorem inf_mul_self (s : Bool) : inf s * inf s = inf false := by simp

theorem not_nonneg_sub_inf (x : Wide) : ¬ (x - inf false).Nonneg := by
  cases x with
  | nan => simp [Nonneg]
  | inf s => cases s <;> simp [Nonneg, inf_sub_inf]
  | fin r => simp [Nonneg]

theorem not_nonneg_sub {x d : Wide} (hd : ¬ d.IsFin) : ¬ (x - d * d).Nonneg := by
  cases d with
  | nan => simp [Nonneg]
  | inf s => rw [inf_mul_self]; exact not_nonneg_sub_inf x
  | fin r => simp at hd

theorem sub_eq_fin {x y : Wide} {r : ℝ} (h : x - y = fin r) : x.IsFin ∧ y.IsFin :=
  isFin_sub.mp ⟨r, h⟩

theorem eq_zero_infinite {x : Wide} (hx : ¬ x.IsFin) : Dbl.eq x (Num.lit 0) = false := by
  cases x with
  | fin r => simp at hx
  | _ => rfl

theorem infinite_angular {x : Wide} (hx : ¬ x.IsFin) :
    (∀ k ∈ (Constraint.angularVelocityMaxMagnitude x).apply (sampleVars m n), k.Test (finite σ)) ↔
      InfiniteMeaning (.angularVelocityMaxMagnitude x) S := by
  simp only [Constraint.apply, eq_zero_infinite hx, InfiniteMeaning]
  cases x with
  | nan => simp [Con.Test, value_const, Nonneg]
  | inf s => cases s <;> simp [Con.Test, value_const, Nonneg, sampleVars, value_var, finite]
  | fin r => simp at hx

theorem infinite_acceleration {x : Wide} (hx : ¬ x.IsFin) :
    (∀ k ∈ (Constraint.linearAccelerationMaxMagnitude x).apply (sampleVars m n),
      k.Test (finite σ)) ↔ InfiniteMeaning (.linearAccelerationMaxMagnitude x) S := by
  simp only [Constraint.apply, eq_zero_infinite hx, InfiniteMeaning]
  cases x with
  | nan => simp [Con.Test, value_const, Nonneg]
  | inf s => simp [Con.Test, value_const, Nonneg, sampleVars, value_var, value_add, value_mul, finite,
      Translation2.squaredNorm]
  | fin r => simp at hx

theorem infinite_velocity {x : Wide} (hx : ¬ x.IsFin) :
    (∀ k ∈ (Constraint.linearVelocityMaxMagnitude x).apply (sampleVars m n),
      k.Test (finite σ)) ↔ InfiniteMeaning (.linearVelocityMaxMagnitude x) S := by
  simp only [Constraint.apply, eq_zero_infinite hx, InfiniteMeaning]
  cases x with
  | nan => simp [Con.Test, value_const, Nonneg]
  | inf s => simp [Con.Test, value_const, Nonneg, sampleVars, value_var, value_add, value_mul, finite,
      Translation2.squaredNorm]
  | fin r => simp at hx

theorem cos_infinite {x : Wide} (hx : ¬ x.IsFin) : Num.cos x = nan ∧ Num.sin x = nan := by
  cases x with
  | fin r => simp at hx
  | _ => exact ⟨rfl, rfl⟩

theorem infinite_direction {x : Wide} (hx : ¬ x.IsFin) :
    (∀ k ∈ (Constraint.linearVelocityDirection x).apply (sampleVars m n),
      k.Test (finite σ)) ↔ InfiniteMeaning (.linearVelocityDirection x) S := by
  obtain ⟨h1, h2⟩ := cos_infinite hx
  simp [Constraint.apply, Rotation2.ofAngle, h1, h2, InfiniteMeaning, Con.Test, value_mul, value_add,
    value_const, Translation2.dot]

theorem infinite_pose {x y h : Wide} (hx : ¬ (x.IsFin ∧ y.IsFin ∧ h.IsFin)) :
    (∀ k ∈ (Constraint.poseEquality x y h).apply (sampleVars m n),
      k.Test (finite σ)) ↔ InfiniteMeaning (.poseEquality x y h) S := by
  simp only [InfiniteMeaning, iff_false]
  intro H
  simp only [Constraint.apply, Pose2.eqCons, Translation2.eqCons, Rotation2.eqCons, Translation2.toV,
    Rotation2.toV, Pose2.ofXYHeading, Rotation2.ofAngle, if_true, List.mem_append, List.mem_cons,
    List.not_mem_nil, or_false, forall_eq, or_imp, forall_and, Con.Test, value_sub,
    value_mul, value_const] at H
  obtain ⟨⟨h1, h2⟩, ⟨h3, -⟩, -⟩ := H
  have hh : h.IsFin := by
    by_contra hh
    obtain ⟨c, s⟩ := cos_infinite hh
    simp [c, s] at h3
  exact hx ⟨(sub_eq_fin h1).2, (sub_eq_fin h2).2, hh⟩

theorem infinite_translation {p : Translation2 Wide} (hx : ¬ (p.x.IsFin ∧ p.y.IsFin)) :
    (∀ k ∈ (Constraint.translationEquality p).apply (sampleVars m n),
      k.Test (finite σ)) ↔ InfiniteMeaning (.translationEquality p) S := by
  simp only [InfiniteMeaning, iff_false]
  intro H
  simp only [Constraint.apply, Translation2.eqCons, Translation2.toV, List.mem_cons,
    List.not_mem_nil, or_false, forall_eq_or_imp, forall_eq, Con.Test, value_const] at H
  exact hx ⟨(sub_eq_fin H.1).2, (sub_eq_fin H.2).2⟩

theorem onRobot_isFin {r : Translation2 Wide} :
    ((valueT (finite σ) ((sampleVars m n).pose.translation.add
      (r.toV.rotateBy (sampleVars m n).pose.rotation))).x.IsFin ↔ r.x.IsFin ∧ r.y.IsFin) ∧
    ((valueT (finite σ) ((sampleVars m n).pose.translation.add
      (r.toV.rotateBy (sampleVars m n).pose.rotation))).y.IsFin ↔ r.x.IsFin ∧ r.y.IsFin) := by
  simp [valueT, sampleVars, Translation2.add, Translation2.rotateBy, Translation2.toV, value_add,
    value_mul, value_sub, value_const, value_var, isFin_add, isFin_mul, isFin_sub, finite]

theorem infinite_linePoint {a b p : Translation2 Wide} {d : Wide}
    (hx : ¬ ∀ x ∈ (Constraint.linePoint a b p d).data, x.IsFin) :
    (∀ k ∈ (Constraint.linePoint a b p d).apply (sampleVars m n),
      k.Test (finite σ)) ↔ InfiniteMeaning (.linePoint a b p d) S := by
  simp only [InfiniteMeaning, iff_false, Constraint.apply, List.mem_singleton, forall_eq]
  apply lpd_con_false
  simp only [onRobot_isFin]
  simp only [Constraint.data, Translation2.data, List.cons_append, List.nil_append, List.mem_cons,
    List.not_mem_nil, or_false, forall_eq_or_imp, forall_eq] at hx
  simp only [valueT, Translation2.toV, value_const]
  tauto

theorem infinite_pointLine {r a b : Translation2 Wide} {d : Wide}
    (hx : ¬ ∀ x ∈ (Constraint.pointLine r a b d).data, x.IsFin) :
    (∀ k ∈ (Constraint.pointLine r a b d).apply (sampleVars m n),
      k.Test (finite σ)) ↔ InfiniteMeaning (.pointLine r a b d) S := by
  simp only [InfiniteMeaning, iff_false, Constraint.apply, List.mem_singleton, forall_eq]
  apply lpd_con_false
  simp only [onRobot_isFin]
  simp only [Constraint.data, Translation2.data, List.cons_append, List.nil_append, List.mem_cons,
    List.not_mem_nil, or_false, forall_eq_or_imp, forall_eq] at hx
  simp only [valueT, Translation2.toV, value_const]
  tauto

/-- The pointing constraint, with numbers for the variables. -/
theorem pointAt_value (p : Translation2 Wide) (t : Wide) :
    (∀ k ∈ (Constraint.pointAt p t).apply (sampleVars m n), k.Test (finite σ)) ↔
      ((fin (S).heading.re * (p.x - fin (S).pos.re) + fin (S).heading.im * (p.y - fin (S).pos.im)) -
        Num.cos t * Num.hypot (p.x - fin (S).pos.re) (p.y - fin (S).pos.im)).Nonneg := by
  simp only [Constraint.apply, List.mem_singleton, forall_eq, Con.Test]
  rfl

theorem hypot_inf_left (s : Bool) (x : Wide) : Num.hypot (inf s) x = inf false := rfl
theorem hypot_inf_right (s : Bool) (x : Wide) : Num.hypot x (inf s) = inf false := by cases x <;> rfl

theorem infinite_pointAt {p : Translation2 Wide} {t : Wide}
    (hx : ¬ ∀ x ∈ (Constraint.pointAt p t).data, x.IsFin) :
    (∀ k ∈ (Constraint.pointAt p t).apply (sampleVars m n), k.Test (finite σ)) ↔
      InfiniteMeaning (.pointAt p t) S := by
  rw [pointAt_value]
  by_cases ht : t.IsFin
  · obtain ⟨t, rfl⟩ := ht
    obtain ⟨px, py⟩ := p
    generalize S = s
    have hne : ∀ q : Translation2 ℝ, (⟨px, py⟩ : Translation2 Wide) ≠ q.wide := by
      rintro q h
      apply hx
      rw [h]
      simp [Constraint.data, Translation2.data, Translation2.wide]
    simp only [InfiniteMeaning, fin_cos]
    rw [and_iff_left hne]
    have hcos := mul_infinity_cases (Real.cos t)
    cases px with
    | nan => simp [Nonneg, Toward]
    | fin x =>
      cases py with
      | nan => simp [Nonneg, Toward]
      | fin y => exact absurd rfl (hne ⟨x, y⟩)
      | inf k =>
        have hk := mul_inf_cases s.heading.im k
        simp only [fin_sub, inf_sub_fin, fin_mul, Toward, hypot_inf_right, true_and]
        rcases hk with ⟨e, h1, -⟩ | ⟨e, h1, -⟩ | ⟨e, h1, -⟩ <;>
          rcases hcos with ⟨e', h2⟩ | ⟨e', h2⟩ | ⟨e', h2⟩ <;>
          simp [e, e', h1, h2, nonneg_nan, nonneg_inf, inf_sub_inf]
    | inf k =>
      have hk := mul_inf_cases s.heading.re k
      cases py with
      | nan => simp [Nonneg, Toward]
      | fin y =>
        simp only [fin_sub, inf_sub_fin, fin_mul, Toward, hypot_inf_left, and_true]
        rcases hk with ⟨e, h1, -⟩ | ⟨e, h1, -⟩ | ⟨e, h1, -⟩ <;>
          rcases hcos with ⟨e', h2⟩ | ⟨e', h2⟩ | ⟨e', h2⟩ <;>
          simp [e, e', h1, h2, nonneg_nan, nonneg_inf, inf_sub_inf]
      | inf j =>
        have hj := mul_inf_cases s.heading.im j
        simp only [inf_sub_fin, Toward, hypot_inf_left]
        rcases hk with ⟨e, h1, -⟩ | ⟨e, h1, -⟩ | ⟨e, h1, -⟩ <;>
          rcases hj with ⟨e'', h3, -⟩ | ⟨e'', h3, -⟩ | ⟨e'', h3, -⟩ <;>
          rcases hcos with ⟨e', h2⟩ | ⟨e', h2⟩ | ⟨e', h2⟩ <;>
          simp [e, e', e'', h1, h2, h3, nonneg_nan, nonneg_inf, inf_sub_inf, inf_add_inf]
  · obtain ⟨h, -⟩ := cos_infinite ht
    rw [h]
    cases t with
    | fin r => simp at ht
    | _ => simp [Nonneg, InfiniteMeaning]

/-- The distance constraint, with numbers for the variables. -/
theorem pointPoint_value (r p : Translation2 Wide) (d : Wide) :
    (∀ k ∈ (Constraint.pointPoint r p d).apply (sampleVars m n), k.Test (finite σ)) ↔
      ((p.x - (fin (S).pos.re + (r.x * fin (S).heading.re - r.y * fin (S).heading.im))) *
        (p.x - (fin (S).pos.re + (r.x * fin (S).heading.re - r.y * fin (S).heading.im))) +
        (p.y - (fin (S).pos.im + (r.x * fin (S).heading.im + r.y * fin (S).heading.re))) *
        (p.y - (fin (S).pos.im + (r.x * fin (S).heading.im + r.y * fin (S).heading.re))) -
        d * d).Nonneg := by
  simp only [Constraint.apply, List.mem_singleton, forall_eq, Con.Test]
  rfl

theorem infinite_square {x y : Wide} (h : ¬ (x.IsFin ∧ y.IsFin)) (d : ℝ) :
    (x * x + y * y - fin d).Nonneg ↔ x ≠ nan ∧ y ≠ nan := by
  cases x <;> cases y <;> simp_all [nonneg_nan, nonneg_inf, inf_add_inf]

/-- A coordinate minus an infinity. -/
theorem away_iff (x : Wide) (c : ℝ) (s : Bool) :
    x - fin c * inf s ≠ nan ↔ Away (sgn s * c) x := by
  have ht : ∀ k : ℝ, (0 < sgn true * -k) = (0 < k) := by intro k; simp [sgn]
  have hf : ∀ k : ℝ, (0 < sgn false * -k) = (k < 0) := by intro k; simp [sgn]
  rcases mul_inf_cases c s with ⟨e, h1, h2, h3⟩ | ⟨e, h1, h2, h3⟩ | ⟨e, h1, h2, h3⟩ <;> rw [e] <;>
    generalize sgn s * c = k at * <;> cases x with
  | nan => simp [Away, Toward]
  | fin r => simp [Away, Toward, h3]
  | inf t => cases t <;> simp [Away, Toward, ht, hf, h1, h2, h3, inf_sub_inf, -mul_neg]

theorem fin_add_not_isFin {x : Wide} (h : ¬ x.IsFin) (a : ℝ) : fin a + x = x := by
  cases x <;> simp_all

theorem sub_fin_not_isFin {x : Wide} (h : ¬ x.IsFin) (a : ℝ) : x - fin a = x := by
  cases x <;> simp_all

theorem add_fin_not_isFin {x : Wide} (h : ¬ x.IsFin) (a : ℝ) : x + fin a = x := by
  cases x <;> simp_all

theorem mul_inf_not_isFin (c : ℝ) (s : Bool) : ¬ (fin c * inf s).IsFin := by
  simp [isFin_mul]

theorem fin_sub_mul_inf (a c : ℝ) (s : Bool) : fin a - fin c * inf s = fin (-c) * inf s := by
  by_cases h : c = 0
  · simp [fin_mul_inf, h]
  · simp only [fin_mul_inf, h, if_false, neg_eq_zero, fin_sub_inf, inf.injEq]
    rcases lt_or_gt_of_ne h with h | h
    · cases s <;> simp [below, h, h.le]
    · cases s <;> simp [below, h, h.le]

theorem infinite_pointPoint {r p : Translation2 Wide} {d : Wide}
    (hx : ¬ ∀ x ∈ (Constraint.pointPoint r p d).data, x.IsFin) :
    (∀ k ∈ (Constraint.pointPoint r p d).apply (sampleVars m n), k.Test (finite σ)) ↔
      InfiniteMeaning (.pointPoint r p d) S := by
  rw [pointPoint_value]
  by_cases hd : d.IsFin
  · obtain ⟨d, rfl⟩ := hd
    obtain ⟨rx, ry⟩ := r
    obtain ⟨px, py⟩ := p
    generalize S = s
    cases rx with
    | nan => simp [Nonneg, InfiniteMeaning]
    | fin x =>
      cases ry with
      | nan => simp [Nonneg, InfiniteMeaning]
      | fin y =>
        have hp : ¬ (px.IsFin ∧ py.IsFin) := by
          simpa [Constraint.data, Translation2.data] using hx
        have hne : ∀ q : Translation2 ℝ, (⟨px, py⟩ : Translation2 Wide) ≠ q.wide := by
          rintro q h
          simp only [Translation2.wide, Translation2.mk.injEq] at h
          exact hp ⟨⟨_, h.1⟩, ⟨_, h.2⟩⟩
        have hn : ∀ (x : Wide) (a : ℝ), x - fin a = nan ↔ x = nan := by
          intro x a; cases x <;> simp
        simp only [fin_mul, fin_sub, fin_add, InfiniteMeaning]
        rw [infinite_square (by simpa [isFin_sub] using hp)]
        simp only [ne_eq, hn]
        tauto
      | inf k =>
        simp only [fin_mul, mulW_comm (inf k), fin_sub_mul_inf, InfiniteMeaning,
          fin_add_not_isFin (mul_inf_not_isFin _ _)]
        rw [infinite_square (by simp [isFin_sub, isFin_mul]), away_iff, away_iff]
        simp
    | inf k =>
      cases ry with
      | nan => simp [Nonneg, InfiniteMeaning]
      | fin y =>
        simp only [fin_mul, mulW_comm (inf k), InfiniteMeaning,
          fin_add_not_isFin (mul_inf_not_isFin _ _), sub_fin_not_isFin (mul_inf_not_isFin _ _),
          add_fin_not_isFin (mul_inf_not_isFin _ _)]
        rw [infinite_square (by simp [isFin_sub, isFin_mul]), away_iff, away_iff]
      | inf j =>
        have hs : ∀ c : ℝ, c = 0 ∨ (c ≠ 0 ∧ below c = true) ∨ (c ≠ 0 ∧ below c = false) := by
          intro c; by_cases c = 0 <;> cases below c <;> tauto
        simp only [InfiniteMeaning, iff_false, fin_mul]
        rw [infinite_square (by simp [isFin_sub, isFin_mul, isFin_add])]
        rcases hs s.heading.re with h1 | ⟨h1, h1'⟩ | ⟨h1, h1'⟩ <;>
          rcases hs s.heading.im with h2 | ⟨h2, h2'⟩ | ⟨h2, h2'⟩ <;>
          cases k <;> cases j <;>
          simp_all [inf_mul_fin, inf_sub_inf, inf_add_inf]
  · simp only [not_nonneg_sub hd, false_iff]
    cases d with
    | fin r => simp at hd
    | _ => simp [InfiniteMeaning]

theorem wide_of_data {p : Translation2 Wide} (h : ∀ d ∈ p.data, d.IsFin) :
    ∃ q : Translation2 ℝ, p = q.wide := by
  obtain ⟨x, y⟩ := p
  obtain ⟨x, rfl⟩ := h x (by simp [Translation2.data])
  obtain ⟨y, rfl⟩ := h y (by simp [Translation2.data])
  exact ⟨⟨x, y⟩, rfl⟩

/-- Every constraint, whatever its data. -/
theorem test_iff (c : Constraint Wide) :
    (∀ k ∈ c.apply (sampleVars m n), k.Test (finite σ)) ↔ MeaningW c S := by
  by_cases h : ∀ d ∈ c.data, d.IsFin
  · obtain ⟨c₀, rfl⟩ : ∃ c₀ : Constraint ℝ, c = c₀.wide := by
      cases c with
      | angularVelocityMaxMagnitude m =>
        obtain ⟨m, rfl⟩ := h m (by simp [Constraint.data])
        exact ⟨.angularVelocityMaxMagnitude m, rfl⟩
      | linearAccelerationMaxMagnitude m =>
        obtain ⟨m, rfl⟩ := h m (by simp [Constraint.data])
        exact ⟨.linearAccelerationMaxMagnitude m, rfl⟩
      | linearVelocityMaxMagnitude m =>
        obtain ⟨m, rfl⟩ := h m (by simp [Constraint.data])
        exact ⟨.linearVelocityMaxMagnitude m, rfl⟩
      | linearVelocityDirection a =>
        obtain ⟨a, rfl⟩ := h a (by simp [Constraint.data])
        exact ⟨.linearVelocityDirection a, rfl⟩
      | poseEquality x y a =>
        obtain ⟨x, rfl⟩ := h x (by simp [Constraint.data])
        obtain ⟨y, rfl⟩ := h y (by simp [Constraint.data])
        obtain ⟨a, rfl⟩ := h a (by simp [Constraint.data])
        exact ⟨.poseEquality x y a, rfl⟩
      | translationEquality p =>
        obtain ⟨p, rfl⟩ := wide_of_data (p := p) fun d hd => h d (by simpa [Constraint.data] using hd)
        exact ⟨.translationEquality p, rfl⟩
      | pointAt p t =>
        obtain ⟨t, rfl⟩ := h t (by simp [Constraint.data])
        obtain ⟨p, rfl⟩ := wide_of_data (p := p) fun d hd => h d (by simp [Constraint.data, hd])
        exact ⟨.pointAt p t, rfl⟩
      | pointPoint r p d =>
        obtain ⟨d, rfl⟩ := h d (by simp [Constraint.data])
        obtain ⟨p, rfl⟩ := wide_of_data (p := p) fun d hd => h d (by simp [Constraint.data, hd])
        obtain ⟨r, rfl⟩ := wide_of_data (p := r) fun d hd => h d (by simp [Constraint.data, hd])
        exact ⟨.pointPoint r p d, rfl⟩
      | linePoint a b p d =>
        obtain ⟨d, rfl⟩ := h d (by simp [Constraint.data])
        obtain ⟨a, rfl⟩ := wide_of_data (p := a) fun d hd => h d (by simp [Constraint.data, hd])
        obtain ⟨b, rfl⟩ := wide_of_data (p := b) fun d hd => h d (by simp [Constraint.data, hd])
        obtain ⟨p, rfl⟩ := wide_of_data (p := p) fun d hd => h d (by simp [Constraint.data, hd])
        exact ⟨.linePoint a b p d, rfl⟩
      | pointLine r a b d =>
        obtain ⟨d, rfl⟩ := h d (by simp [Constraint.data])
        obtain ⟨a, rfl⟩ := wide_of_data (p := a) fun d hd => h d (by simp [Constraint.data, hd])
        obtain ⟨b, rfl⟩ := wide_of_data (p := b) fun d hd => h d (by simp [Constraint.data, hd])
        obtain ⟨r, rfl⟩ := wide_of_data (p := r) fun d hd => h d (by simp [Constraint.data, hd])
        exact ⟨.pointLine r a b d, rfl⟩
    rw [test_fin, meaningW_wide]
  · rw [meaningW_infinite h]
    cases c with
    | angularVelocityMaxMagnitude x => exact infinite_angular σ m n (by simpa [Constraint.data] using h)
    | linearAccelerationMaxMagnitude x =>
      exact infinite_acceleration σ m n (by simpa [Constraint.data] using h)
    | linearVelocityMaxMagnitude x => exact infinite_velocity σ m n (by simpa [Constraint.data] using h)
    | linearVelocityDirection x => exact infinite_direction σ m n (by simpa [Constraint.data] using h)
    | poseEquality x y a => exact infinite_pose σ m n (by simpa [Constraint.data] using h)
    | translationEquality p =>
      exact infinite_translation σ m n (by simpa [Constraint.data, Translation2.data] using h)
    | linePoint a b p d => exact infinite_linePoint σ m n h
    | pointLine a b p d => exact infinite_pointLine σ m n h
    | pointAt p t => exact infinite_pointAt σ m n h
    | pointPoint r p d => exact infinite_pointPoint σ m n h

end

end Trajopt.Props
