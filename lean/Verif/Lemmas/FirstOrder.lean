import Verif.Lemmas.FritzJohn
import Verif.Lemmas.Smooth
import Verif.Lemmas.Wide
import Verif.Spec.FirstOrder
import Verif.Spec.Locality
import Verif.Spec.Gradient

/-!
# From the conditions of Fritz John to problems
-/

set_option autoImplicit false

namespace Trajopt.Props

open Spec Filter Topology

theorem eventually_defined {n : ℕ} (x : Fin n → ℝ) (e : Expr ℝ) (h : e.Regular (ofVec x)) :
    ∀ᶠ y in 𝓝 x, e.Defined (ofVec y) := by
  induction e with
  | const c => exact .of_forall fun _ => trivial
  | var i => exact .of_forall fun _ => trivial
  | add a b ha hb => exact (ha h.1).and (hb h.2)
  | sub a b ha hb => exact (ha h.1).and (hb h.2)
  | mul a b ha hb => exact (ha h.1).and (hb h.2)
  | div a b ha hb =>
    exact (ha h.1).and ((hb h.2.1).and ((contDiffAt_eval 0 x b h.2.1).continuousAt.eventually_ne h.2.2))
  | neg a ha => exact ha h
  | sin a ha => exact ha h
  | cos a ha => exact ha h
  | atan2 => exact h.elim
  | hypot a b ha hb => exact (ha h.1).and (hb h.2.1)
  | sign a ha => exact ha h.1

theorem eventually_con {n : ℕ} (x : Fin n → ℝ) (c : Con ℝ) (h : RegularCon (ofVec x) c) :
    ∀ᶠ y in 𝓝 x, c.Defined (ofVec y) := by
  cases c with
  | eq a b => exact (eventually_defined x a h.1).and (eventually_defined x b h.2)
  | le a b => exact (eventually_defined x a h.1).and (eventually_defined x b h.2)
  | ge a b => exact (eventually_defined x a h.1).and (eventually_defined x b h.2)
  | leInf a => exact eventually_defined x a h

theorem apply_defined_near {nv : ℕ} (x : Fin nv → ℝ) {m n : ℕ} (c : Constraint ℝ)
    (h : ¬ Corner c (decodeSample (ofVec x) (sampleVars m n))) : ∀ e ∈ c.apply (sampleVars m n),
    ∀ᶠ y in 𝓝 x, e.Defined (ofVec y) := by
  by_cases h0 : ∀ p tol, c = .pointAt p tol → Real.cos tol ≠ 0
  · exact fun e he => eventually_con x e (apply_regular c h h0 e he)
  · push Not at h0
    obtain ⟨p, tol, rfl, ht⟩ := h0
    intro e he
    simp only [Constraint.apply, List.mem_singleton] at he
    subst he
    refine .of_forall fun y => ?_
    simp [Con.Defined, sampleVars, Pose2.x, Pose2.y, Expr.Defined]

/-- The sign with which a constraint is an inequality `≤ 0`. -/
def conSign : Con ℝ → ℝ
  | .ge _ _ => -1
  | _ => 1

/-- Whether the constraint is an equation. -/
def isEq : Con ℝ → Bool
  | .eq _ _ => true
  | _ => false

theorem holds_excess {σ : ℕ → ℝ} {c : Con ℝ} (h : c.Holds σ) (hc : ∀ a, c ≠ .leInf a) :
    excess (isEq c) (conSign c * conFun σ c) = 0 := by
  rw [excess_zero]
  cases c with
  | eq a b => simpa [isEq, conSign, conFun, sub_eq_zero] using h.2.2
  | le a b => simpa [isEq, conSign, conFun, sub_eq_zero] using h.2.2
  | ge a b => simpa [isEq, conSign, conFun, sub_eq_zero] using h.2.2
  | leInf a => exact absurd rfl (hc a)

theorem holds_of_excess {σ : ℕ → ℝ} {c : Con ℝ} (h : c.Defined σ)
    (hc : (∀ a, c ≠ .leInf a) → excess (isEq c) (conSign c * conFun σ c) = 0) : c.Holds σ := by
  simp only [excess_zero] at hc
  cases c with
  | eq a b => exact ⟨h.1, h.2, by simpa [isEq, conSign, conFun, sub_eq_zero] using hc⟩
  | le a b => exact ⟨h.1, h.2, by simpa [isEq, conSign, conFun, sub_eq_zero] using hc⟩
  | ge a b => exact ⟨h.1, h.2, by simpa [isEq, conSign, conFun, sub_eq_zero] using hc⟩
  | leInf a => exact h

open scoped Classical in
/-- The conditions of Fritz John for a problem some of whose constraints (those not in `P`) follow from the others. -/
theorem balanced_of_minimum (p : Problem ℝ) (P : Con ℝ → Prop) (x : Fin p.nvars → ℝ) (e : Expr ℝ) (he : p.cost = some e)
    (hP : ∀ y : Fin p.nvars → ℝ, (∀ c ∈ p.cons, P c → c.Holds (ofVec y)) → p.Feasible (ofVec y))
    (hx : p.Feasible (ofVec x)) (hmin : ∀ y : Fin p.nvars → ℝ, p.Feasible (ofVec y) → e.eval (ofVec x) ≤ e.eval (ofVec y))
    (hs : SmoothAt 1 p x) (hdef : ∀ c ∈ p.cons, ∀ᶠ y in 𝓝 x, c.Defined (ofVec y)) :
    ∃ l m, Balanced p x l m ∧ (∀ c, m c ≠ 0 → P c) ∧ (l ≠ 0 ∨ ∃ c ∈ p.cons, m c ≠ 0) := by
  let K : Finset (Con ℝ) := p.cons.toFinset.filter fun c => P c ∧ ∀ a, c ≠ .leInf a
  have hK : ∀ c, c ∈ K ↔ c ∈ p.cons ∧ P c ∧ ∀ a, c ≠ .leInf a := by simp [K]
  obtain ⟨l, m, hne, hl, hm, hb⟩ := fritz_john (κ := K) (fun j => isEq j.1)
    (fun y : Fin p.nvars → ℝ => e.eval (ofVec y)) (fun j y => conSign j.1 * conFun (ofVec y) j.1) x (hs.1 e he)
    (fun j => contDiffAt_const.mul (hs.2 j.1 ((hK _).mp j.2).1))
    (fun j => holds_excess (hx j.1 ((hK _).mp j.2).1) ((hK _).mp j.2).2.2) (by
      have hall : ∀ᶠ y in 𝓝 x, ∀ c ∈ {c | c ∈ p.cons}, c.Defined (ofVec y) := by
        rw [eventually_all_finite (List.finite_toSet p.cons)]
        exact hdef
      filter_upwards [hall] with y hy hex
      refine hmin y (hP y fun c hc hPc => holds_of_excess (hy c hc) fun hinf => ?_)
      exact hex ⟨c, (hK c).mpr ⟨hc, hPc, hinf⟩⟩)
  have hsq : ∀ c, conSign c ≠ 0 := by intro c; cases c <;> simp [conSign]
  let M : Con ℝ → ℝ := fun c => if h : c ∈ K then conSign c * m ⟨c, h⟩ else 0
  have hM : ∀ j : K, M j.1 = conSign j.1 * m j := fun j => dif_pos j.2
  refine ⟨l, M, ⟨hl, ?_, ?_, ?_, ?_, ?_⟩, ?_, ?_⟩
  · intro a b
    by_cases h : Con.le a b ∈ K
    · rw [hM ⟨_, h⟩]
      simpa [conSign] using (hm ⟨_, h⟩ rfl).1
    · simp only [M, dif_neg h, le_refl]
  · intro a b
    by_cases h : Con.ge a b ∈ K
    · rw [hM ⟨_, h⟩]
      simpa [conSign] using (hm ⟨_, h⟩ rfl).1
    · simp only [M, dif_neg h, le_refl]
  · intro a
    exact dif_neg fun h => ((hK _).mp h).2.2 a rfl
  · intro c hc hne
    have hcK : c ∈ K := by
      by_contra h
      exact hne (dif_neg h)
    have hex := holds_excess (hx c hc) ((hK _).mp hcK).2.2
    rw [excess_zero] at hex
    by_cases hce : isEq c = true
    · rw [if_pos hce] at hex
      exact (mul_eq_zero.mp hex).resolve_left (hsq c)
    · rw [if_neg hce] at hex
      by_contra h0
      have hlt : conSign c * conFun (ofVec x) c < 0 := lt_of_le_of_ne hex (mul_ne_zero (hsq c) h0)
      have := (hm ⟨c, hcK⟩ (by simpa using hce)).2 hlt
      rw [hM ⟨c, hcK⟩, this, mul_zero] at hne
      exact hne rfl
  · intro e' he' d
    obtain rfl : e = e' := Option.some.inj (he.symm.trans he')
    rw [← hb d]
    congr 1
    rw [← Finset.sum_subset (Finset.filter_subset _ _ : K ⊆ p.cons.toFinset) fun c _ h => by
      rw [show M c = 0 from dif_neg h, zero_mul], ← Finset.sum_coe_sort K]
    refine Finset.sum_congr rfl fun j _ => ?_
    have hd : DifferentiableAt ℝ (fun y : Fin p.nvars → ℝ => conFun (ofVec y) j.1) x :=
      (hs.2 j.1 ((hK _).mp j.2).1).differentiableAt (by simp)
    rw [hM, fderiv_const_mul hd]
    simp only [FunLike.coe_smul, Pi.smul_apply, smul_eq_mul]
    ring
  · intro c hne
    have hcK : c ∈ K := by
      by_contra h
      exact hne (dif_neg h)
    exact ((hK c).mp hcK).2.1
  · rcases hne with h | ⟨j, hj⟩
    · exact .inl h
    · refine .inr ⟨j.1, ((hK _).mp j.2).1, ?_⟩
      rw [hM]
      exact mul_ne_zero (hsq _) hj

/-- The value of an expression depends on the variables it mentions only. -/
theorem eval_mentions {σ τ : ℕ → ℝ} (e : Expr ℝ) (h : ∀ i, Mentions i e → σ i = τ i) : e.eval σ = e.eval τ := by
  induction e with
  | const c => rfl
  | var i => exact h i rfl
  | add a b ha hb | sub a b ha hb | mul a b ha hb | div a b ha hb | atan2 a b ha hb | hypot a b ha hb =>
    simp only [Expr.eval, ha fun i hi => h i (.inl hi), hb fun i hi => h i (.inr hi)]
  | neg a ha | sin a ha | cos a ha | sign a ha => simp only [Expr.eval, ha h]

/-- The rate at which an equation in the variables of the problem changes is its derivative. -/
theorem fderiv_of_rate {n : ℕ} {x : Fin n → ℝ} {a b : Expr ℝ} (hs : ∀ i, Involves (.eq a b) i → i < n)
    (hd : DifferentiableAt ℝ (fun y : Fin n → ℝ => conFun (ofVec y) (.eq a b)) x) {d : ℕ → ℝ} {v : ℝ}
    (hr : Rate a b (ofVec x) d v) : fderiv ℝ (fun y : Fin n → ℝ => conFun (ofVec y) (.eq a b)) x (fun i => d i) = v := by
  have hline : HasDerivAt (fun t : ℝ => x + t • fun i : Fin n => d i) (fun i => d i) 0 := by
    simpa using ((hasDerivAt_id (0 : ℝ)).smul_const (fun i : Fin n => d i)).const_add x
  have h1 := HasFDerivAt.comp_hasDerivAt (0 : ℝ) (f := fun t : ℝ => x + t • fun i : Fin n => d i)
    (l := fun y : Fin n → ℝ => conFun (ofVec y) (.eq a b)) (by simpa using hd.hasFDerivAt) hline
  refine HasDerivAt.unique (h1.congr_of_eventuallyEq ?_) hr
  refine .of_forall fun t => ?_
  have hof : ∀ i, i < n → ofVec x i + t * d i = ofVec (x + t • fun i : Fin n => d i) i := by
    intro i hi
    simp [ofVec, hi]
  simp only [Function.comp_apply, conFun]
  rw [eval_mentions a fun i hi => hof i (hs i (.inl hi)), eval_mentions b fun i hi => hof i (hs i (.inr hi))]

end Trajopt.Props
