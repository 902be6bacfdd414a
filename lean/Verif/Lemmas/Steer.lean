import Verif.Lemmas.Gradient
import Verif.Spec.Steer
import Mathlib.Data.List.Perm.Basic

/-!
# Steering the rates of a control interval
-/

set_option autoImplicit false

namespace Trajopt

open Spec

theorem independent_subperm {p : Con ℝ → Prop} {cs cs' : List (Con ℝ)} {σ : ℕ → ℝ} (hs : cs'.Subperm cs)
    (h : Independent p cs σ) : Independent p cs' σ := by
  obtain ⟨l, hperm, hsub⟩ := hs
  have key : ∀ vs' : List ℝ, vs'.length = cs'.length → ∃ vs : List ℝ, vs.length = cs.length ∧
      ∀ d, List.Forall₂ (Row p σ d) cs vs → List.Forall₂ (Row p σ d) cs' vs' := by
    have h1 : ∀ vs' : List ℝ, vs'.length = cs'.length → ∃ vs : List ℝ, vs.length = l.length ∧
        ∀ d, List.Forall₂ (Row p σ d) l vs → List.Forall₂ (Row p σ d) cs' vs' := by
      clear hsub
      induction hperm with
      | nil => exact fun vs' h => ⟨vs', h, fun _ => id⟩
      | cons c _ ih =>
        intro vs' hl
        cases vs' with
        | nil => simp at hl
        | cons v vs' =>
          obtain ⟨vs, h1, h2⟩ := ih vs' (by simpa using hl)
          refine ⟨v :: vs, by simp [h1], fun d hd => ?_⟩
          cases hd
          exact .cons ‹_› (h2 d ‹_›)
      | swap a b l =>
        intro vs' hl
        match vs', hl with
        | v :: v' :: vs', hl =>
          refine ⟨v' :: v :: vs', by simpa using hl, fun d hd => ?_⟩
          cases hd with
          | cons h1 h =>
            cases h with
            | cons h2 h => exact .cons h2 (.cons h1 h)
      | trans _ _ ih1 ih2 =>
        intro vs' hl
        obtain ⟨vs, h1, h2⟩ := ih2 vs' hl
        obtain ⟨vs₂, h3, h4⟩ := ih1 vs h1
        exact ⟨vs₂, h3, fun d hd => h2 d (h4 d hd)⟩
    intro vs' hl
    obtain ⟨vs₁, hl₁, ht₁⟩ := h1 vs' hl
    clear h1 hl hperm h
    have h2 : ∃ vs : List ℝ, vs.length = cs.length ∧
        ∀ d, List.Forall₂ (Row p σ d) cs vs → List.Forall₂ (Row p σ d) l vs₁ := by
      clear ht₁
      induction hsub generalizing vs₁ with
      | slnil => exact ⟨vs₁, hl₁, fun _ => id⟩
      | cons c _ ih =>
        obtain ⟨vs, h1, h2⟩ := ih vs₁ hl₁
        refine ⟨0 :: vs, by simp [h1], fun d hd => ?_⟩
        cases hd
        exact h2 d ‹_›
      | cons_cons c _ ih =>
        cases vs₁ with
        | nil => simp at hl₁
        | cons v vs₁ =>
          obtain ⟨vs, h1, h2⟩ := ih vs₁ (by simpa using hl₁)
          refine ⟨v :: vs, by simp [h1], fun d hd => ?_⟩
          cases hd
          exact .cons ‹_› (h2 d ‹_›)
    obtain ⟨vs, h1, h2⟩ := h2
    exact ⟨vs, h1, fun d hd => ht₁ d (h2 d hd)⟩
  intro vs' hl
  obtain ⟨vs, hv, hd⟩ := key vs' hl
  obtain ⟨d, h⟩ := h vs hv
  exact ⟨d, hd d h⟩

theorem subperm_flatMap {α β : Type} {l l' : List α} (f : α → List β) (h : l.Subperm l') :
    (l.flatMap f).Subperm (l'.flatMap f) := by
  obtain ⟨k, hp, hs⟩ := h
  exact ⟨k.flatMap f, hp.flatMap fun _ _ => .refl _, hs.flatMap f⟩

theorem subperm_flatMap_left {α β : Type} (l : List α) {f g : α → List β} (h : ∀ a ∈ l, (f a).Subperm (g a)) :
    (l.flatMap f).Subperm (l.flatMap g) := by
  induction l with
  | nil => exact List.Subperm.refl _
  | cons a l ih =>
    rw [List.flatMap_cons, List.flatMap_cons]
    exact (h a (by simp)).append (ih fun a ha => h a (by simp [ha]))

theorem limiting_ne {c : Constraint ℝ} (h : Limiting c) (s : SampleVars ℝ) :
    ∀ k ∈ c.apply s, ∀ a b : Expr ℝ, k ≠ .eq a b := by
  intro k hk a b e
  subst e
  cases c <;> simp_all [Limiting, Constraint.apply]

/-- How fast the direction of a heading turns. -/
noncomputable def spin (a da : State) : ℝ := ((starRingEnd ℂ) a.heading * da.heading).im

/-- The heading's direction follows the angular velocity. -/
theorem spin_step {h : ℝ} {a b : State} (hi : Interval h a b) (ha : Complex.normSq a.heading = 1) (v : Fin 8 → ℝ) :
    ∃ c : ℝ, ∀ da db : State, KinRates h a b da db v → spin b db = spin a da + h * db.omega - c := by
  obtain ⟨ε, hε, hl⟩ : ∃ ε : ℝ, ε * ε = 1 ∧ b.heading * (starRingEnd ℂ) a.heading = ε * unitVec (b.omega * h) := by
    rcases hi.turn with h | h
    · exact ⟨1, by norm_num, by simp [h]⟩
    · exact ⟨-1, by norm_num, by simp [h]⟩
  have hu : Complex.normSq (unitVec (b.omega * h)) = 1 := by
    rw [unitVec, Complex.normSq_eq_norm_sq, Complex.norm_exp_ofReal_mul_I]; norm_num
  refine ⟨ε * v 2, fun da db hk => ?_⟩
  have ht := hk.turn
  have hb : b.heading = ε * unitVec (b.omega * h) * a.heading := by
    rw [← hl, mul_assoc, mul_comm ((starRingEnd ℂ) _), Complex.mul_conj, ha]; simp
  rw [hl] at ht
  rw [spin, spin, hb]
  rw [hb] at ht
  revert ht ha hu
  generalize unitVec (b.omega * h) = u
  generalize a.heading = A, da.heading = dA, db.heading = B, db.omega = w
  intro ha hu ht
  have hu' : (starRingEnd ℂ) u * u = 1 := by rw [mul_comm, Complex.mul_conj, hu]; simp
  have e1 : (starRingEnd ℂ) (B * (starRingEnd ℂ) A + ε * u * A * (starRingEnd ℂ) dA) * u =
      (starRingEnd ℂ) B * (A * u) + ε * ((starRingEnd ℂ) A * dA) := by
    simp only [map_add, map_mul, Complex.conj_conj, Complex.conj_ofReal]
    linear_combination ((ε : ℂ) * (starRingEnd ℂ) A * dA) * hu'
  have e2 : (starRingEnd ℂ) ((ε : ℂ) * u) * u = ε := by
    simp only [map_mul, Complex.conj_ofReal]
    linear_combination (ε : ℂ) * hu'
  rw [e1, e2, Complex.add_im, Complex.im_ofReal_mul, Complex.ofReal_re] at ht
  have e3 : (starRingEnd ℂ) ((ε : ℂ) * u * A) * B = ε * (starRingEnd ℂ) ((starRingEnd ℂ) B * (A * u)) := by
    simp only [map_mul, Complex.conj_conj, Complex.conj_ofReal]
    ring
  rw [e3, Complex.im_ofReal_mul, Complex.conj_im]
  linear_combination (-ε) * ht + (((starRingEnd ℂ) A * dA).im + h * w) * hε

/-- With time to spare, one control interval leads to every velocity. -/
theorem vel_step {h : ℝ} {a b : State} (hi : Interval h a b) (hh : h ≠ 0) (da : State) (V : ℂ) (Ω : ℝ)
    (v : Fin 8 → ℝ) : ∃ db : State, db.vel = V ∧ db.omega = Ω ∧ KinRates h a b da db v := by
  have hc : (h : ℂ) ≠ 0 := by exact_mod_cast hh
  obtain ⟨db, h1, h2, h3⟩ : ∃ db : State, db.acc = (V - da.vel + ⟨v 5, v 6⟩) / h ∧
      db.alpha = (Ω - da.omega + v 7) / h ∧ KinRates h a b da db v := kin_step hi da _ _ v
  refine ⟨db, ?_, ?_, h3⟩
  · have := h3.vel
    rw [h1, mul_div_cancel₀ _ hc] at this
    linear_combination -this
  · have := h3.omega
    rw [h2, mul_div_cancel₀ _ hh] at this
    linear_combination -this

/-- The rows of one sample, whatever its accelerations. -/
theorem dyn_rows' {p : Con ℝ → Prop} {σ d : ℕ → ℝ} {dr : SwerveDrivetrain ℝ} {n : ℕ} {vs : List ℝ}
    (hl : vs.length = (powerList dr.modules.length n dr.modules 0).length) (x y t : ℝ)
    (hf : ∑ k : Fin dr.modules.length, forceOf d dr.modules.length n k =
      ⟨x, y⟩ + dr.mass * (decodeSample d (sampleVars dr.modules.length n)).acc)
    (ht : ∑ k : Fin dr.modules.length,
      torque (lever (decodeSample σ (sampleVars dr.modules.length n)) dr.modules[k])
        (forceOf d dr.modules.length n k) = t + dr.moi * (decodeSample d (sampleVars dr.modules.length n)).alpha -
        ∑ k : Fin dr.modules.length,
      torque (lever (decodeSample d (sampleVars dr.modules.length n)) dr.modules[k])
        (forceOf σ dr.modules.length n k)) :
    List.Forall₂ (Row p σ d) (dynCons dr n) (vs ++ [x, y, t]) := by
  have hx := accumulate_tangent σ d (fun j => n * stride dr.modules.length + 10 + 2 * j) dr.modules.length
  have hy := accumulate_tangent σ d (fun j => n * stride dr.modules.length + 11 + 2 * j) dr.modules.length
  have htq := torqueExpr_tangent σ d dr.modules.length n dr.modules 0 (Num.lit 0) trivial
  have hne : ∀ (m n : ℕ) (mods : List (SwerveModule ℝ)) (i : ℕ),
      ∀ c ∈ powerList m n mods i, ∀ a b : Expr ℝ, c ≠ .eq a b := by
    intro m n mods
    induction mods with
    | nil => simp [powerList]
    | cons md rest ih =>
      intro i c hc a b
      rw [powerList, List.mem_append] at hc
      rcases hc with hc | hc
      · simp only [powerCons, List.mem_cons, List.not_mem_nil, or_false] at hc
        rcases hc with rfl | rfl <;> simp
      · exact ih _ c hc a b
  rw [Complex.ext_iff, Complex.re_sum, Complex.im_sum] at hf
  simp only [Complex.add_re, Complex.add_im, Complex.re_ofReal_mul, Complex.im_ofReal_mul] at hf
  simp only [forceOf] at hf
  refine forall₂_append (forall₂_const (hne _ _ _ _) hl) ?_
  refine .cons (row_eq hx.1 ⟨trivial, trivial⟩ ?_) <| .cons (row_eq hy.1 ⟨trivial, trivial⟩ ?_) <|
    .cons (row_eq htq.1 ⟨trivial, trivial⟩ ?_) .nil
  · rw [hx.2, hf.1]
    simp [sampleVars, decodeSample, evalVec]
  · rw [hy.2, hf.2]
    simp [sampleVars, decodeSample, evalVec]
  · have e : (Expr.const dr.moi * (sampleVars dr.modules.length n).angularAcceleration).tangent σ d =
        dr.moi * (decodeSample d (sampleVars dr.modules.length n)).alpha := by
      simp [sampleVars, decodeSample]
    rw [htq.2, e, Finset.sum_add_distrib]
    simp only [Nat.zero_add, tangent_lit]
    rw [ht]
    ring

end Trajopt
