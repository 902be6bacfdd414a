import Verif.Lemmas.Generator
import Verif.Spec.Trajectory
import Verif.Props.Constraint
import Mathlib.Algebra.BigOperators.Intervals

/-! # What the generated constraints mean, piece by piece (real arithmetic) -/

set_option autoImplicit false

namespace Trajopt

open Spec Props

variable (σ : ℕ → ℝ)

theorem sampleVars_defined (m n : ℕ) : DefinedSample σ (sampleVars m n) := by
  simp [DefinedSample, sampleVars]

theorem kinCons_iff (prev cur : SampleVars ℝ) (dt : ℕ) (hp : DefinedSample σ prev)
    (hc : DefinedSample σ cur) :
    (∀ c ∈ kinCons prev cur (.var dt), c.Holds σ) ↔
      Interval (σ dt) (decodeSample σ prev) (decodeSample σ cur) := by
  obtain ⟨hp, hr, hv, -, hw, -⟩ := hp
  obtain ⟨hp', hr', hv', ha', hw', hal'⟩ := hc
  simp only [kinCons, Translation2.eqCons, Rotation2.eqCons, List.mem_append, List.mem_cons,
    List.not_mem_nil, or_false, or_imp, forall_and, forall_eq, Con.Holds, if_true,
    Translation2.add, Translation2.smul, Rotation2.sub, Rotation2.add, Rotation2.neg,
    Rotation2.rotateBy, Rotation2.ofAngle, defined_add, defined_sub, defined_mul, defined_neg,
    defined_var, defined_cos, defined_sin, hp, hr, hv, hw, hp', hr', hv', ha', hw',
    hal', true_and, and_self, defined_lit, eval_add, eval_mul, eval_sub, eval_neg, eval_var,
    eval_lit, eval_sin, eval_cos, Rat.cast_zero, Rat.cast_one]
  have hu := Real.cos_sq_add_sin_sq (cur.angularVelocity.eval σ * σ dt)
  have key := unit_parallel_iff _ _
    (cur.pose.rotation.cos.eval σ * prev.pose.rotation.cos.eval σ -
      cur.pose.rotation.sin.eval σ * -prev.pose.rotation.sin.eval σ)
    (cur.pose.rotation.cos.eval σ * -prev.pose.rotation.sin.eval σ +
      cur.pose.rotation.sin.eval σ * prev.pose.rotation.cos.eval σ) hu
  have turn := Iff.trans (a :=
      ((decodeSample σ cur).heading * (starRingEnd ℂ) (decodeSample σ prev).heading =
      unitVec ((decodeSample σ cur).omega * σ dt) ∨
      (decodeSample σ cur).heading * (starRingEnd ℂ) (decodeSample σ prev).heading =
      -unitVec ((decodeSample σ cur).omega * σ dt))) (by
    rw [unitVec_mk]
    simp only [decodeSample, evalVec, Complex.ext_iff, Complex.mul_re, Complex.mul_im,
      Complex.conj_re, Complex.conj_im, Complex.neg_re, Complex.neg_im]) key.symm
  constructor
  · rintro ⟨⟨⟨⟨h1, h2⟩, ⟨h3, h4⟩, -⟩, h5, h6⟩, h7⟩
    refine ⟨?_, turn.mpr ⟨h3, h4⟩, ?_, ?_⟩
    · simp only [decodeSample, evalVec, Complex.ext_iff, Complex.add_re, Complex.add_im,
        Complex.mul_re, Complex.mul_im, Complex.ofReal_re, Complex.ofReal_im]
      constructor <;> linarith
    · simp only [decodeSample, evalVec, Complex.ext_iff, Complex.add_re, Complex.add_im,
        Complex.mul_re, Complex.mul_im, Complex.ofReal_re, Complex.ofReal_im]
      constructor <;> linarith
    · simp only [decodeSample]; linarith
  · rintro ⟨hp, ht, hv, hw⟩
    obtain ⟨h3, h4⟩ := turn.mp ht
    simp only [decodeSample, evalVec, Complex.ext_iff, Complex.add_re, Complex.add_im,
        Complex.mul_re, Complex.mul_im, Complex.ofReal_re, Complex.ofReal_im] at hp hv hw
    refine ⟨⟨⟨⟨?_, ?_⟩, ⟨h3, h4⟩, ?_⟩, ?_, ?_⟩, ?_⟩ <;> linarith

/-- The force encoded for module `j` at sample `n`. -/
noncomputable def forceOf (m n j : ℕ) : ℂ :=
  ⟨σ (n * stride m + 10 + 2 * j), σ (n * stride m + 11 + 2 * j)⟩

theorem powerCons_iff (m n j : ℕ) (md : SwerveModule ℝ) :
    (∀ c ∈ powerCons (sampleVars m n) (forceVars m n j) md, c.Holds σ) ↔
      ‖wheelVelocity (decodeSample σ (sampleVars m n)) md‖ ≤ maxSpeed md ∧
      ‖forceOf σ m n j‖ ≤ maxForce md := by
  simp only [powerCons, List.mem_cons, List.not_mem_nil, or_false, forall_eq_or_imp, forall_eq,
    Con.Holds, Translation2.squaredNorm, Translation2.rotateBy, Rotation2.neg, sampleVars, forceVars,
    defined_add, defined_sub, defined_mul, defined_neg, defined_var, defined_const, true_and,
    and_self, eval_add, eval_sub, eval_mul, eval_neg, eval_var, eval_const, real_mul, real_div,
    norm_le_iff, maxSpeed, maxForce, forceOf]
  have : ∀ a b : ℂ, a = b → ∀ c : ℝ, ‖a‖ ≤ c ↔ ‖b‖ ≤ c := by rintro a _ rfl c; rfl
  refine and_congr (this _ _ ?_ _) Iff.rfl
  simp only [wheelVelocity, decodeSample, evalVec, vec, eval_var]
  apply Complex.ext <;> simp <;> ring

theorem powerList_iff (m n : ℕ) (mods : List (SwerveModule ℝ)) (i : ℕ) :
    (∀ c ∈ powerList m n mods i, c.Holds σ) ↔
      ∀ j : Fin mods.length,
        ‖wheelVelocity (decodeSample σ (sampleVars m n)) mods[j]‖ ≤ maxSpeed mods[j] ∧
        ‖forceOf σ m n (i + j)‖ ≤ maxForce mods[j] := by
  induction mods generalizing i with
  | nil => simp [powerList]
  | cons md rest ih =>
    rw [powerList, List.forall_mem_append, powerCons_iff, ih]
    simp only [List.length_cons, Fin.forall_fin_succ, Fin.getElem_fin, Fin.val_zero, Fin.val_succ,
      List.getElem_cons_zero, List.getElem_cons_succ, Nat.add_zero, Nat.add_assoc, Nat.add_comm 1]

theorem torqueExpr_eval (m n : ℕ) (mods : List (SwerveModule ℝ)) (i : ℕ) (tau : Expr ℝ)
    (ht : tau.Defined σ) :
    (torqueExpr m n mods i tau).Defined σ ∧
    (torqueExpr m n mods i tau).eval σ = tau.eval σ + ∑ j : Fin mods.length,
      torque (lever (decodeSample σ (sampleVars m n)) mods[j]) (forceOf σ m n (i + j)) := by
  induction mods generalizing i tau with
  | nil => simp [torqueExpr, ht]
  | cons md rest ih =>
    obtain ⟨h1, h2⟩ := ih (i + 1) (tau + (md.translation.toV.rotateBy
      (sampleVars m n).pose.rotation).cross (forceVars m n i)) (by
        simp [Translation2.cross, Translation2.rotateBy, Translation2.toV, sampleVars, forceVars, ht])
    rw [torqueExpr]
    refine ⟨h1, ?_⟩
    simp only [List.length_cons]
    rw [h2, Fin.sum_univ_succ, eval_add, add_assoc]
    simp only [Fin.getElem_fin, Fin.val_zero, Fin.val_succ,
      List.getElem_cons_zero, List.getElem_cons_succ, Nat.add_zero, Nat.add_assoc, Nat.add_comm 1]
    congr 2
    simp only [Translation2.cross, Translation2.rotateBy, Translation2.toV, sampleVars, forceVars,
      eval_sub, eval_mul, eval_add, eval_const, eval_var, torque, lever, decodeSample, evalVec, vec,
      forceOf, Complex.mul_im, Complex.conj_re, Complex.conj_im, Complex.mul_re]
    ring

theorem foldl_add_eval (f : ℕ → ℕ) (m : ℕ) :
    ((((List.range m).map f).foldl (fun acc v => acc + .var v) (Num.lit 0 : Expr ℝ)).Defined σ) ∧
    (((List.range m).map f).foldl (fun acc v => acc + .var v) (Num.lit 0 : Expr ℝ)).eval σ =
      ∑ j : Fin m, σ (f j) := by
  induction m with
  | zero => simp
  | succ m ih =>
    rw [List.range_succ, List.map_append, List.foldl_append, Fin.sum_univ_castSucc]
    simp only [List.map_cons, List.map_nil, List.foldl_cons, List.foldl_nil, defined_add, ih.1,
      defined_var, eval_add, ih.2, eval_var, and_self, Fin.val_castSucc, Fin.val_last]

theorem dynCons_iff (dr : SwerveDrivetrain ℝ) (n : ℕ) :
    (∀ c ∈ dynCons dr n, c.Holds σ) ↔
      Dynamics dr (decodeSample σ (sampleVars dr.modules.length n))
        (forceOf σ dr.modules.length n) := by
  obtain ⟨hx, hx'⟩ := foldl_add_eval σ (fun j => n * stride dr.modules.length + 10 + 2 * j)
    dr.modules.length
  obtain ⟨hy, hy'⟩ := foldl_add_eval σ (fun j => n * stride dr.modules.length + 11 + 2 * j)
    dr.modules.length
  obtain ⟨ht, ht'⟩ := torqueExpr_eval σ dr.modules.length n dr.modules 0 (Num.lit 0) trivial
  simp only [dynCons, List.forall_mem_append]
  rw [powerList_iff]
  simp only [List.mem_cons, List.not_mem_nil,
    or_false, forall_eq_or_imp, forall_eq, Con.Holds, accumulate, hx, hx', hy, hy', ht, ht',
    defined_mul, defined_const, true_and, eval_mul, eval_const, eval_lit, Rat.cast_zero, zero_add]
  have hF : (∑ j : Fin dr.modules.length, forceOf σ dr.modules.length n j =
      dr.mass * (decodeSample σ (sampleVars dr.modules.length n)).acc) ↔
      (∑ j : Fin dr.modules.length, σ (n * stride dr.modules.length + 10 + 2 * j) =
        dr.mass * σ (n * stride dr.modules.length + 7)) ∧
      (∑ j : Fin dr.modules.length, σ (n * stride dr.modules.length + 11 + 2 * j) =
        dr.mass * σ (n * stride dr.modules.length + 8)) := by
    rw [Complex.ext_iff, Complex.re_sum, Complex.im_sum]
    simp [forceOf, decodeSample, evalVec, sampleVars]
  constructor
  · rintro ⟨hp, ⟨-, h1⟩, ⟨-, h2⟩, -, h3⟩
    refine ⟨hF.mpr ⟨h1, h2⟩, h3, ?_, fun j => (hp j).2⟩
    intro m hm
    obtain ⟨i, hi, rfl⟩ := List.getElem_of_mem hm
    exact (hp ⟨i, hi⟩).1
  · rintro ⟨hf, ht, hs, hl⟩
    obtain ⟨h1, h2⟩ := hF.mp hf
    exact ⟨fun j => ⟨hs _ (List.getElem_mem _), hl j⟩, ⟨trivial, h1⟩, ⟨trivial, h2⟩, trivial, ht⟩

/-- `x` is at most the width, infinite for `none`. -/
def Capped (x : ℝ) : Option ℝ → Prop
  | none => True
  | some w => x ≤ w

theorem capped_step (x : ℝ) (w : Option ℝ) (v : ℝ) :
    Capped x (minWidthStep w v) ↔ Capped x w ∧ x ≤ v := by
  cases w with
  | none => simp [minWidthStep, Capped]
  | some w =>
    simp only [minWidthStep, Capped, Dbl.min, real_lt, decide_eq_true_eq]
    split <;> constructor <;> intro h
    · exact ⟨by linarith, h⟩
    · exact h.2
    · exact ⟨h, by linarith⟩
    · exact h.1

theorem capped_loop (x : ℝ) (mods : List (SwerveModule ℝ)) (w : Option ℝ) :
    Capped x (minWidthLoop w mods) ↔ Capped x w ∧ ∀ p ∈ mods.zip mods.tail,
      (|p.1.translation.x - p.2.translation.x| ≠ 0 → x ≤ |p.1.translation.x - p.2.translation.x|) ∧
      (|p.1.translation.y - p.2.translation.y| ≠ 0 →
        x ≤ |p.1.translation.y - p.2.translation.y|) := by
  induction mods generalizing w with
  | nil => simp [minWidthLoop]
  | cons a rest ih =>
    cases rest with
    | nil => simp [minWidthLoop]
    | cons b rest =>
      rw [minWidthLoop, ih]
      simp only [List.tail_cons, List.zip_cons_cons, List.forall_mem_cons, real_abs, real_sub, real_eq,
        real_lit, Rat.cast_zero]
      rw [← and_assoc]
      refine and_congr ?_ Iff.rfl
      by_cases h1 : |a.translation.x - b.translation.x| = 0 <;>
        by_cases h2 : |a.translation.y - b.translation.y| = 0 <;>
        simp [h1, h2, capped_step, and_assoc]

theorem stepCap_iff (dr : SwerveDrivetrain ℝ) (dt : ℕ) (m : SwerveModule ℝ) :
    (stepCap (minWidth dr.modules) dt m).Holds σ ↔
      ∀ g, Gap dr g → σ dt * m.wheelRadius * m.wheelMaxAngularVelocity ≤ g := by
  have h1 : (stepCap (minWidth dr.modules) dt m).Holds σ ↔
      Capped (σ dt * m.wheelRadius * m.wheelMaxAngularVelocity) (minWidth dr.modules) := by
    rw [stepCap.eq_def]
    cases minWidth dr.modules <;> simp [Con.Holds, Capped]
  rw [h1, minWidth, capped_loop]
  simp only [Capped, true_and, Gap]
  constructor
  · rintro h g ⟨hg, a, b, hab, rfl | rfl⟩
    · exact (h _ hab).1 hg
    · exact (h _ hab).2 hg
  · rintro h ⟨a, b⟩ hab
    exact ⟨fun hg => h _ ⟨hg, a, b, hab, .inl rfl⟩, fun hg => h _ ⟨hg, a, b, hab, .inr rfl⟩⟩

end Trajopt
