import Verif.Lemmas.Refinement
import Verif.Spec.Interior

/-! # What it means to be inside the generated constraints, piece by piece (real arithmetic) -/

set_option autoImplicit false

namespace Trajopt

open Spec Props

variable (σ : ℕ → ℝ)

/-- A strict inequality, if the constraint is one. -/
def Con.Less : Con ℝ → Prop
  | .eq _ _ => True
  | .le a b => a.eval σ < b.eval σ
  | .ge a b => b.eval σ < a.eval σ
  | .leInf _ => True

theorem inside_con_iff (c : Con ℝ) : c.Inside σ ↔ c.Holds σ ∧ c.Less σ := by
  cases c with
  | eq a b => simp [Con.Inside, Con.Holds, Con.Less]
  | le a b =>
    simp only [Con.Inside, Con.Holds, Con.Less]
    exact ⟨fun h => ⟨⟨h.1, h.2.1, h.2.2.le⟩, h.2.2⟩, fun h => ⟨h.1.1, h.1.2.1, h.2⟩⟩
  | ge a b =>
    simp only [Con.Inside, Con.Holds, Con.Less]
    exact ⟨fun h => ⟨⟨h.1, h.2.1, h.2.2.le⟩, h.2.2⟩, fun h => ⟨h.1.1, h.1.2.1, h.2⟩⟩
  | leInf a => simp [Con.Inside, Con.Holds, Con.Less]

theorem norm_lt_iff (x y m : ℝ) : x * x + y * y < m * m ↔ ‖(⟨x, y⟩ : ℂ)‖ < |m| := by
  rw [← not_le, le_norm_iff, not_le]

theorem lt_norm_iff (x y m : ℝ) : m * m < x * x + y * y ↔ |m| < ‖(⟨x, y⟩ : ℂ)‖ := by
  rw [← not_le, norm_le_iff, not_le]

theorem kinCons_less (prev cur : SampleVars ℝ) (dt : Expr ℝ) (c : Con ℝ) (hc : c ∈ kinCons prev cur dt) :
    c.Less σ := by
  simp only [kinCons, Translation2.eqCons, Rotation2.eqCons, List.mem_append, List.mem_cons,
    List.not_mem_nil, or_false, if_true] at hc
  aesop (add simp [Con.Less])

theorem powerCons_less (m n j : ℕ) (md : SwerveModule ℝ) :
    (∀ c ∈ powerCons (sampleVars m n) (forceVars m n j) md, c.Less σ) ↔
      ‖wheelVelocity (decodeSample σ (sampleVars m n)) md‖ < maxSpeed md ∧
      ‖forceOf σ m n j‖ < maxForce md := by
  simp only [powerCons, List.mem_cons, List.not_mem_nil, or_false, forall_eq_or_imp, forall_eq,
    Con.Less, Translation2.squaredNorm, Translation2.rotateBy, Rotation2.neg, sampleVars,
    forceVars, eval_add, eval_sub, eval_mul, eval_neg, eval_var, eval_const, real_mul,
    real_div, norm_lt_iff, maxSpeed, maxForce, forceOf]
  have : ∀ a b : ℂ, a = b → ∀ c : ℝ, ‖a‖ < c ↔ ‖b‖ < c := by rintro a _ rfl c; rfl
  refine and_congr (this _ _ ?_ _) Iff.rfl
  simp only [wheelVelocity, decodeSample, evalVec, vec, eval_var]
  apply Complex.ext <;> simp <;> ring

theorem powerList_less (m n : ℕ) (mods : List (SwerveModule ℝ)) (i : ℕ) :
    (∀ c ∈ powerList m n mods i, c.Less σ) ↔
      ∀ j : Fin mods.length,
        ‖wheelVelocity (decodeSample σ (sampleVars m n)) mods[j]‖ < maxSpeed mods[j] ∧
        ‖forceOf σ m n (i + j)‖ < maxForce mods[j] := by
  induction mods generalizing i with
  | nil => simp [powerList]
  | cons md rest ih =>
    rw [powerList, List.forall_mem_append, powerCons_less, ih]
    simp only [List.length_cons, Fin.forall_fin_succ, Fin.getElem_fin, Fin.val_zero, Fin.val_succ,
      List.getElem_cons_zero, List.getElem_cons_succ, Nat.add_zero, Nat.add_assoc, Nat.add_comm 1]

theorem dynCons_less (dr : SwerveDrivetrain ℝ) (n : ℕ) :
    (∀ c ∈ dynCons dr n, c.Less σ) ↔
      (∀ m ∈ dr.modules, ‖wheelVelocity (decodeSample σ (sampleVars dr.modules.length n)) m‖ < maxSpeed m) ∧
      ∀ j : Fin dr.modules.length, ‖forceOf σ dr.modules.length n j‖ < maxForce dr.modules[j] := by
  simp only [dynCons, List.forall_mem_append]
  rw [powerList_less]
  simp only [List.mem_cons, List.not_mem_nil, or_false, forall_eq_or_imp, forall_eq, Con.Less, and_true, zero_add]
  constructor
  · refine fun h => ⟨fun m hm => ?_, fun j => (h j).2⟩
    obtain ⟨i, hi, rfl⟩ := List.getElem_of_mem hm
    exact (h ⟨i, hi⟩).1
  · exact fun h j => ⟨h.1 _ (List.getElem_mem _), h.2 j⟩

/-- `x` is below the width, infinite for `none`. -/
def Below (x : ℝ) : Option ℝ → Prop
  | none => True
  | some w => x < w

theorem below_step (x : ℝ) (w : Option ℝ) (v : ℝ) :
    Below x (minWidthStep w v) ↔ Below x w ∧ x < v := by
  cases w with
  | none => simp [minWidthStep, Below]
  | some w =>
    simp only [minWidthStep, Below, Dbl.min, real_lt, decide_eq_true_eq]
    split <;> constructor <;> intro h
    · exact ⟨by linarith, h⟩
    · exact h.2
    · exact ⟨h, by linarith⟩
    · exact h.1

theorem below_loop (x : ℝ) (mods : List (SwerveModule ℝ)) (w : Option ℝ) :
    Below x (minWidthLoop w mods) ↔ Below x w ∧ ∀ p ∈ mods.zip mods.tail,
      (|p.1.translation.x - p.2.translation.x| ≠ 0 → x < |p.1.translation.x - p.2.translation.x|) ∧
      (|p.1.translation.y - p.2.translation.y| ≠ 0 →
        x < |p.1.translation.y - p.2.translation.y|) := by
  induction mods generalizing w with
  | nil => simp [minWidthLoop]
  | cons a rest ih =>
    cases rest with
    | nil => simp [minWidthLoop]
    | cons b rest =>
      rw [minWidthLoop, ih]
      simp only [List.tail_cons, List.zip_cons_cons, List.forall_mem_cons, real_abs, real_sub, real_eq,
        real_lit, Rat.cast_zero]
      rw [← and_assoc]
      refine and_congr ?_ Iff.rfl
      by_cases h1 : |a.translation.x - b.translation.x| = 0 <;>
        by_cases h2 : |a.translation.y - b.translation.y| = 0 <;>
        simp [h1, h2, below_step, and_assoc]

theorem below_minWidth (dr : SwerveDrivetrain ℝ) (x : ℝ) :
    Below x (minWidth dr.modules) ↔ ∀ g, Gap dr g → x < g := by
  rw [minWidth, below_loop]
  simp only [Below, true_and, Gap]
  constructor
  · rintro h g ⟨hg, a, b, hab, rfl | rfl⟩
    · exact (h _ hab).1 hg
    · exact (h _ hab).2 hg
  · rintro h ⟨a, b⟩ hab
    exact ⟨fun hg => h _ ⟨hg, a, b, hab, .inl rfl⟩, fun hg => h _ ⟨hg, a, b, hab, .inr rfl⟩⟩

theorem stepCap_less (dr : SwerveDrivetrain ℝ) (dt : ℕ) (m : SwerveModule ℝ) :
    (stepCap (minWidth dr.modules) dt m).Less σ ↔
      ∀ g, Gap dr g → σ dt * m.wheelRadius * m.wheelMaxAngularVelocity < g := by
  rw [← below_minWidth, stepCap.eq_def]
  cases minWidth dr.modules <;> simp [Con.Less, Below]

theorem linePoint_less (a b p : Translation2 (Expr ℝ)) (d : ℝ) (hab : vec (evalT σ a) ≠ vec (evalT σ b)) :
    (Con.ge (linePointDistance a b p * linePointDistance a b p) (.const (d * d))).Less σ ↔
      ∀ q ∈ segment ℝ (vec (evalT σ a)) (vec (evalT σ b)), |d| < dist q (vec (evalT σ p)) ^ 2 := by
  simp only [Con.Less, eval_mul, eval_const, linePointDistance_eval]
  obtain ⟨hmin, q, hq, hat⟩ := linePointDistance_real _ _ (evalT σ p) hab
  have h0 : 0 ≤ linePointDistance (evalT σ a) (evalT σ b) (evalT σ p) := by rw [hat]; positivity
  rw [← sq, ← sq, sq_lt_sq, abs_of_nonneg h0]
  exact ⟨fun h q hq => h.trans_le (hmin q hq), fun h => hat ▸ h q hq⟩

theorem constraint_less (c : Constraint ℝ) (s : SampleVars ℝ) (hm : Meaning c (decodeSample σ s)) :
    (∀ k ∈ c.apply s, k.Less σ) ↔ Room c (decodeSample σ s) := by
  have honR : ∀ r : Translation2 ℝ,
      vec (evalT σ (s.pose.translation.add (r.toV.rotateBy s.pose.rotation))) =
        (decodeSample σ s).onRobot r := by
    intro r
    apply Complex.ext <;>
      simp [vec, evalT, decodeSample, State.onRobot, evalVec, Translation2.add,
        Translation2.rotateBy, Translation2.toV]
  have hcv : ∀ r : Translation2 ℝ, vec (evalT σ r.toV) = vec r := fun r => rfl
  cases c with
  | angularVelocityMaxMagnitude m =>
    simp only [Constraint.apply, Room, real_eq, real_lit, Rat.cast_zero, decide_eq_true_eq, decodeSample]
    split
    next h => simp [Con.Less, h]
    next h =>
      simp only [List.mem_cons, List.not_mem_nil, or_false, forall_eq_or_imp, forall_eq,
        Con.Less, eval_const, real_neg, abs_lt, h, ne_eq, not_false_eq_true, forall_true_left]
  | linePoint a b p d =>
    simp only [Constraint.apply, Room, List.mem_singleton, forall_eq, real_mul]
    rw [linePoint_less _ _ _ _ _ (by rw [honR, honR]; exact hm.1), honR, honR, hcv]
  | linearAccelerationMaxMagnitude m =>
    simp only [Constraint.apply, Room, real_eq, real_lit, Rat.cast_zero,
      decide_eq_true_eq, decodeSample, real_mul]
    split
    next h => simp [Con.Less, h]
    next h =>
      simp only [List.mem_singleton, forall_eq, Con.Less, Translation2.squaredNorm, eval_add, eval_mul,
        eval_const, h, ne_eq, not_false_eq_true, forall_true_left]
      exact norm_lt_iff _ _ _
  | linearVelocityDirection a => simp [Constraint.apply, Room, Con.Less]
  | linearVelocityMaxMagnitude m =>
    simp only [Constraint.apply, Room, real_eq, real_lit, Rat.cast_zero,
      decide_eq_true_eq, decodeSample, real_mul]
    split
    next h => simp [Con.Less, h]
    next h =>
      simp only [List.mem_singleton, forall_eq, Con.Less, Translation2.squaredNorm, eval_add, eval_mul,
        eval_const, h, ne_eq, not_false_eq_true, forall_true_left]
      exact norm_lt_iff _ _ _
  | pointAt p tol =>
    simp only [Constraint.apply, Room, decodeSample, List.mem_singleton, forall_eq,
      Con.Less, Pose2.x, Pose2.y, eval_add, eval_mul, eval_sub, eval_const,
      eval_hypot, real_cos, real_hypot]
    have h1 : dist (evalVec σ s.pose.translation.x s.pose.translation.y) (vec p) =
        Real.sqrt ((p.x - s.pose.translation.x.eval σ) ^ 2 +
          (p.y - s.pose.translation.y.eval σ) ^ 2) := by
      rw [← norm_mk, dist_comm, dist_eq_norm]
      congr 1
    rw [h1]
    have h2 : ((vec p - evalVec σ s.pose.translation.x s.pose.translation.y) *
        (starRingEnd ℂ) (evalVec σ s.pose.rotation.cos s.pose.rotation.sin)).re =
        s.pose.rotation.cos.eval σ * (p.x - s.pose.translation.x.eval σ) +
        s.pose.rotation.sin.eval σ * (p.y - s.pose.translation.y.eval σ) := by
      simp [vec, evalVec]; ring
    rw [h2]
  | pointLine r a b d =>
    simp only [Constraint.apply, Room, List.mem_singleton, forall_eq, real_mul]
    rw [linePoint_less _ _ _ _ _ (by rw [hcv, hcv]; exact hm.1), honR, hcv, hcv]
  | pointPoint r p d =>
    have h := honR r
    simp only [Constraint.apply, Room, List.mem_singleton, forall_eq, Con.Less, eval_add,
      eval_mul, eval_sub, eval_const, real_mul]
    rw [← h, dist_comm, dist_eq_norm]
    have : (vec p - vec (evalT σ (s.pose.translation.add (r.toV.rotateBy s.pose.rotation)))) =
        ⟨p.x - (s.pose.translation.add (r.toV.rotateBy s.pose.rotation)).x.eval σ,
         p.y - (s.pose.translation.add (r.toV.rotateBy s.pose.rotation)).y.eval σ⟩ := by
      apply Complex.ext <;> simp [vec, evalT]
    rw [this]
    exact lt_norm_iff _ _ _
  | poseEquality x y h =>
    simp [Constraint.apply, Pose2.eqCons, Translation2.eqCons, Rotation2.eqCons, Room, Con.Less]
  | translationEquality t =>
    simp [Constraint.apply, Translation2.eqCons, Room, Con.Less]

end Trajopt
