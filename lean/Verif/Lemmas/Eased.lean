import Verif.Lemmas.FirstOrder
import Verif.Lemmas.Interior
import Verif.Props.Generator
import Verif.Spec.Slow

/-!
# Driving slower, on decision variables
-/

set_option autoImplicit false

namespace Trajopt.Props

open Spec Filter Topology

/-- How the component of a sample changes when the trajectory takes `k` times as long. -/
noncomputable def easing (k : ℝ) (c : ℕ) : ℝ := if c < 4 then 1 else if c < 7 then 1 / k else 1 / k ^ 2

/-- The decision variables of the trajectory that takes `k` times as long. -/
noncomputable def eased (m S : ℕ) (σ : ℕ → ℝ) (k : ℝ) (v : ℕ) : ℝ :=
  if v / stride m < S then σ v * easing k (v % stride m) else k * σ v

theorem eased_at {m S n c : ℕ} (σ : ℕ → ℝ) (k : ℝ) (hc : c < stride m) (hn : n < S) :
    eased m S σ k (n * stride m + c) = σ (n * stride m + c) * easing k c := by
  simp only [eased, var_div_mod hc, hn, if_true]

theorem eased_one (m S : ℕ) (σ : ℕ → ℝ) : eased m S σ 1 = σ := by
  funext v
  simp [eased, easing]

theorem hasDerivAt_eased (m S : ℕ) (σ : ℕ → ℝ) (v : ℕ) :
    ∃ d, HasDerivAt (fun k => eased m S σ k v) d 1 := by
  have h1 : DifferentiableAt ℝ (fun k : ℝ => eased m S σ k v) 1 := by
    unfold eased easing
    split_ifs
    · fun_prop
    · exact ((differentiableAt_const _).div differentiableAt_id (by simp)).const_mul _
    · exact ((differentiableAt_const _).div (differentiableAt_id.pow 2) (by simp)).const_mul _
    · fun_prop
  exact ⟨_, h1.hasDerivAt⟩

theorem eased_decode (m S K : ℕ) (σ : ℕ → ℝ) (k : ℝ) :
    Traj.Agree S m K (decode (closedVars m S (List.range' (S * stride m) K)) (eased m S σ k))
      ((decode (closedVars m S (List.range' (S * stride m) K)) σ).slower k) := by
  have h10 : 10 ≤ stride m := by simp [stride]
  constructor
  · intro n hn
    change _ = State.slower k ((decode (closedVars m S (List.range' (S * stride m) K)) σ).state n)
    rw [decode_state _ _ _ _ hn, decode_state _ _ _ _ hn]
    have h0 := eased_at (n := n) σ k (show 0 < stride m by omega) hn
    rw [Nat.add_zero] at h0
    simp only [decodeSample, evalVec, sampleVars, eval_var, h0, State.slower,
      eased_at σ k (show 1 < stride m by omega) hn, eased_at σ k (show 2 < stride m by omega) hn,
      eased_at σ k (show 3 < stride m by omega) hn, eased_at σ k (show 4 < stride m by omega) hn,
      eased_at σ k (show 5 < stride m by omega) hn, eased_at σ k (show 6 < stride m by omega) hn,
      eased_at σ k (show 7 < stride m by omega) hn, eased_at σ k (show 8 < stride m by omega) hn,
      eased_at σ k (show 9 < stride m by omega) hn, easing]
    norm_num [Complex.ext_iff, div_eq_mul_inv, ← Complex.ofReal_pow, ← Complex.ofReal_inv]
  · intro n hn j hj
    change _ = (decode (closedVars m S (List.range' (S * stride m) K)) σ).force n j / (k : ℂ) ^ 2
    rw [decode_force _ _ _ _ hn hj, decode_force _ _ _ _ hn hj, forceOf, forceOf, Nat.add_assoc, Nat.add_assoc,
      eased_at σ k (by simp only [stride]; omega) hn, eased_at σ k (by simp only [stride]; omega) hn]
    simp only [easing, show ¬ 10 + 2 * j < 4 by omega, show ¬ 10 + 2 * j < 7 by omega, show ¬ 11 + 2 * j < 4 by omega,
      show ¬ 11 + 2 * j < 7 by omega, if_false]
    norm_num [Complex.ext_iff, div_eq_mul_inv, ← Complex.ofReal_pow, ← Complex.ofReal_inv]
  · intro s hs
    have : ¬ (S * stride m + s) / stride m < S := by
      rw [Nat.mul_comm, Nat.mul_add_div (by omega)]
      exact not_lt.mpr (Nat.le_add_right _ _)
    simp only [decode, closedVars, Traj.slower]
    rw [getD_lt (by simpa using hs)]
    simp only [List.getElem_range', eased, Nat.one_mul, this, if_false]

/-- Driving slower moves what the constraint limits away from its limit. -/
def Shrinks (m S : ℕ) (σ : ℕ → ℝ) (c : Con ℝ) : Prop :=
  ∃ B > 0, ∃ p : ℕ, 0 < p ∧ ∀ k ≠ 0,
    conSign c * conFun (eased m S σ k) c + B = (conSign c * conFun σ c + B) / k ^ p

theorem powerCons_shrinks {m S n j : ℕ} (σ : ℕ → ℝ) (hn : n < S) (hj : j < m) (md : SwerveModule ℝ)
    (h1 : 0 < maxSpeed md) (h2 : 0 < maxForce md) :
    ∀ c ∈ powerCons (sampleVars m n) (forceVars m n j) md, Shrinks m S σ c := by
  have h10 : 10 ≤ stride m := by simp [stride]
  have f1 := fun k => eased_at (n := n) σ k (show 10 + 2 * j < stride m by simp only [stride]; omega) hn
  have f2 := fun k => eased_at (n := n) σ k (show 11 + 2 * j < stride m by simp only [stride]; omega) hn
  simp only [easing, show ¬ 10 + 2 * j < 4 by omega, show ¬ 10 + 2 * j < 7 by omega, show ¬ 11 + 2 * j < 4 by omega,
      show ¬ 11 + 2 * j < 7 by omega, if_false, ← Nat.add_assoc] at f1 f2
  have hs : 0 < (md.wheelRadius * md.wheelMaxAngularVelocity) * (md.wheelRadius * md.wheelMaxAngularVelocity) :=
    mul_self_pos.mpr (abs_pos.mp h1)
  have hf : 0 < (md.wheelMaxTorque / md.wheelRadius) * (md.wheelMaxTorque / md.wheelRadius) :=
    mul_self_pos.mpr (abs_pos.mp h2)
  intro c hc
  simp only [powerCons, List.mem_cons, List.not_mem_nil, or_false] at hc
  rcases hc with rfl | rfl
  · refine ⟨_, hs, 2, by norm_num, fun k hk => ?_⟩
    simp only [conSign, conFun, Translation2.squaredNorm, Translation2.rotateBy, Rotation2.neg, sampleVars,
      eval_add, eval_sub, eval_mul, eval_neg, eval_var, eval_const, real_mul,
      eased_at σ k (show 2 < stride m by omega) hn,
      eased_at σ k (show 3 < stride m by omega) hn, eased_at σ k (show 4 < stride m by omega) hn,
      eased_at σ k (show 5 < stride m by omega) hn, eased_at σ k (show 6 < stride m by omega) hn, easing]
    norm_num
    field_simp
  · refine ⟨_, hf, 4, by norm_num, fun k hk => ?_⟩
    simp only [conSign, conFun, Translation2.squaredNorm, forceVars,
      eval_add, eval_mul, eval_var, eval_const, real_mul, real_div, f1, f2]
    norm_num
    field_simp

theorem powerList_shrinks {m S n : ℕ} (σ : ℕ → ℝ) (hn : n < S) (mods : List (SwerveModule ℝ)) (i : ℕ)
    (hi : i + mods.length ≤ m) (hw : ∀ md ∈ mods, 0 < maxSpeed md ∧ 0 < maxForce md) :
    ∀ c ∈ powerList m n mods i, Shrinks m S σ c := by
  induction mods generalizing i with
  | nil => simp [powerList]
  | cons md rest ih =>
    intro c hc
    rw [powerList, List.mem_append] at hc
    rw [List.length_cons] at hi
    rcases hc with hc | hc
    · exact powerCons_shrinks σ hn (by omega) md (hw md (by simp)).1 (hw md (by simp)).2 c hc
    · exact ih (i + 1) (by omega) (fun md hmd => hw md (by simp [hmd])) c hc

theorem apply_shrinks {m S n : ℕ} (σ : ℕ → ℝ) (hn : n < S) (c' : Constraint ℝ)
    (hm : Meaning c' (decodeSample σ (sampleVars m n)))
    (hp : OfPlace c' → Room c' (decodeSample σ (sampleVars m n))) :
    ∀ c ∈ c'.apply (sampleVars m n), Inequality c → c.Less σ ∨ Shrinks m S σ c := by
  have h10 : 10 ≤ stride m := by simp [stride]
  have hplace : OfPlace c' → ∀ c ∈ c'.apply (sampleVars m n), Inequality c → c.Less σ ∨ Shrinks m S σ c :=
    fun h c hc _ => .inl ((constraint_less σ c' _ hm).mpr (hp h) c hc)
  cases c' with
  | pointAt p tol => exact hplace trivial
  | linePoint a b p d => exact hplace trivial
  | pointLine r a b d => exact hplace trivial
  | pointPoint r p d => exact hplace trivial
  | angularVelocityMaxMagnitude v =>
    intro c hc hineq
    simp only [Constraint.apply] at hc
    split at hc
    next h =>
      simp only [List.mem_singleton] at hc
      subst hc
      exact hineq.elim
    next h =>
      have hv : 0 < v := lt_of_le_of_ne ((abs_nonneg _).trans hm) (by simpa [eq_comm] using h)
      simp only [List.mem_cons, List.not_mem_nil, or_false] at hc
      refine .inr ⟨v, hv, 1, one_pos, fun k hk => ?_⟩
      rcases hc with rfl | rfl
      · simp only [conSign, conFun, sampleVars, eval_var, eval_const, real_neg,
          eased_at σ k (show 6 < stride m by omega) hn, easing]
        norm_num
        field_simp
      · simp only [conSign, conFun, sampleVars, eval_var, eval_const,
          eased_at σ k (show 6 < stride m by omega) hn, easing]
        norm_num
        field_simp
  | linearAccelerationMaxMagnitude v =>
    intro c hc hineq
    simp only [Constraint.apply] at hc
    split at hc
    next h =>
      simp only [List.mem_cons, List.not_mem_nil, or_false] at hc
      rcases hc with rfl | rfl <;> exact hineq.elim
    next h =>
      have hv : v ≠ 0 := by simpa using h
      simp only [List.mem_singleton] at hc
      subst hc
      refine .inr ⟨v * v, mul_self_pos.mpr hv, 4, by norm_num, fun k hk => ?_⟩
      simp only [conSign, conFun, Translation2.squaredNorm, sampleVars, eval_add, eval_mul, eval_var, eval_const, real_mul,
        eased_at σ k (show 7 < stride m by omega) hn, eased_at σ k (show 8 < stride m by omega) hn, easing]
      norm_num
      field_simp
  | linearVelocityMaxMagnitude v =>
    intro c hc hineq
    simp only [Constraint.apply] at hc
    split at hc
    next h =>
      simp only [List.mem_cons, List.not_mem_nil, or_false] at hc
      rcases hc with rfl | rfl <;> exact hineq.elim
    next h =>
      have hv : v ≠ 0 := by simpa using h
      simp only [List.mem_singleton] at hc
      subst hc
      refine .inr ⟨v * v, mul_self_pos.mpr hv, 2, by norm_num, fun k hk => ?_⟩
      simp only [conSign, conFun, Translation2.squaredNorm, sampleVars, eval_add, eval_mul, eval_var, eval_const, real_mul,
        eased_at σ k (show 4 < stride m by omega) hn, eased_at σ k (show 5 < stride m by omega) hn, easing]
      norm_num
      field_simp
  | linearVelocityDirection a =>
    intro c hc hineq
    simp only [Constraint.apply, List.mem_singleton] at hc
    subst hc
    exact hineq.elim
  | poseEquality x y θ =>
    intro c hc hineq
    simp only [Constraint.apply, Pose2.eqCons, Translation2.eqCons, Rotation2.eqCons, List.mem_append, List.mem_cons,
      List.not_mem_nil, or_false] at hc
    cases c <;> simp_all [Inequality]
  | translationEquality t =>
    intro c hc hineq
    simp only [Constraint.apply, Translation2.eqCons, List.mem_cons, List.not_mem_nil, or_false] at hc
    cases c <;> simp_all [Inequality]

end Trajopt.Props
