import Verif.Spec.Responds
import Verif.Lemmas.Gradient
import Verif.Props.Constraint
import Verif.Props.Generator

/-!
# Lemmas for C125
-/

set_option autoImplicit false

namespace Trajopt.Props

open Spec Filter Topology

/-- Moving away from the nearest point of a segment leaves it the nearest. -/
theorem nearest_away {A B P q : ℂ} (hq : q ∈ segment ℝ A B)
    (hm : ∀ q' ∈ segment ℝ A B, dist q P ^ 2 ≤ dist q' P ^ 2) {t : ℝ} (ht : -1 ≤ t) {f : ℝ}
    (h1 : ∀ q' ∈ segment ℝ A B, f ≤ dist q' (P + t * (P - q)) ^ 2)
    (h2 : ∃ q' ∈ segment ℝ A B, f = dist q' (P + t * (P - q)) ^ 2) : f = (1 + t) ^ 2 * dist q P ^ 2 := by
  have hsq : ∀ z w : ℂ, dist z w ^ 2 = (z.re - w.re) ^ 2 + (z.im - w.im) ^ 2 := fun z w => by
    rw [Complex.dist_eq, Complex.sq_norm, Complex.normSq_apply, Complex.sub_re, Complex.sub_im]; ring
  have key : ∀ q' ∈ segment ℝ A B, (q'.re - q.re) * (P.re - q.re) + (q'.im - q.im) * (P.im - q.im) ≤ 0 := by
    intro q' hq'
    by_contra hc
    push Not at hc
    set c := (q'.re - q.re) * (P.re - q.re) + (q'.im - q.im) * (P.im - q.im) with hcd
    set D := (q'.re - q.re) ^ 2 + (q'.im - q.im) ^ 2 with hD
    have hD0 : 0 ≤ D := by positivity
    have hs : ∀ s : ℝ, 0 ≤ s → s ≤ 1 → 0 ≤ s * (s * D - 2 * c) := by
      intro s s0 s1
      have := hm (q + s * (q' - q)) (by
        have := (convex_segment (𝕜 := ℝ) A B) hq hq' (sub_nonneg.mpr s1) s0 (by ring)
        refine (congrArg (· ∈ segment ℝ A B) ?_).mp this
        simp only [Complex.real_smul]
        push_cast
        ring)
      rw [hsq, hsq] at this
      simp only [Complex.add_re, Complex.add_im, Complex.re_ofReal_mul, Complex.im_ofReal_mul, Complex.sub_re,
        Complex.sub_im] at this
      rw [hcd, hD]
      linarith
    by_cases hle : D ≤ c
    · have := hs 1 (by norm_num) le_rfl
      linarith
    · have hD1 : 0 < D := by linarith
      have := hs (c / D) (by positivity) ((div_le_one hD1).mpr (by linarith))
      rw [div_mul_cancel₀ _ hD1.ne'] at this
      have : 0 < c / D * c := by positivity
      linarith
  obtain ⟨q', hq', hf⟩ := h2
  refine le_antisymm ?_ ?_
  · refine (h1 q hq).trans (le_of_eq ?_)
    rw [hsq, hsq]
    simp only [Complex.add_re, Complex.add_im, Complex.re_ofReal_mul, Complex.im_ofReal_mul, Complex.sub_re,
      Complex.sub_im]
    ring
  · rw [hf, hsq, hsq]
    simp only [Complex.add_re, Complex.add_im, Complex.re_ofReal_mul, Complex.im_ofReal_mul, Complex.sub_re,
      Complex.sub_im]
    have := mul_nonneg (by linarith : 0 ≤ 1 + t) (neg_nonneg.mpr (key q' hq'))
    nlinarith [sq_nonneg (q'.re - q.re), sq_nonneg (q'.im - q.im)]

/-- The rate of a squared square growing from `f`. -/
theorem rate_away {a b : Expr ℝ} {σ d : ℕ → ℝ} {f : ℝ} {D : ℝ} (hb : b = .const D)
    (ha : ∀ t : ℝ, -1 ≤ t → a.eval (fun i => σ i + t * d i) = (1 + t) ^ 2 * f) :
    Rate (a * a) b σ d (4 * (f * f)) := by
  subst hb
  have hd : HasDerivAt (fun t : ℝ => ((1 + t) ^ 2 * f) * ((1 + t) ^ 2 * f) - D) (4 * (f * f)) 0 := by
    have h1 : HasDerivAt (fun t : ℝ => (1 + t) ^ 2 * f) (2 * f) 0 := by
      refine ((((hasDerivAt_id (0 : ℝ)).const_add 1).pow 2).mul_const f).congr_deriv ?_
      simp
    refine ((h1.mul h1).sub_const D).congr_deriv ?_
    ring
  refine hd.congr_of_eventuallyEq ?_
  filter_upwards [Ioi_mem_nhds (by norm_num : (-1 : ℝ) < 0)] with t ht
  simp only [eval_mul, ha t (le_of_lt ht), eval_const]

theorem rate_plain {a b : Expr ℝ} (σ d : ℕ → ℝ) (ha : a.Plain) (hb : b.Plain) :
    Rate a b σ d (a.tangent σ d - b.tangent σ d) := (rate_iff ha hb _).mpr rfl

/-- Moving the position of sample `n` in direction `u`. -/
noncomputable def nudge (m n : ℕ) (u : ℂ) (i : ℕ) : ℝ :=
  if i = n * stride m then u.re else if i = n * stride m + 1 then u.im else 0

theorem nudge_point (σ : ℕ → ℝ) (m n : ℕ) (u : ℂ) (r : Translation2 ℝ) (t : ℝ) :
    let p : Translation2 (Expr ℝ) := (sampleVars m n).pose.translation.add (r.toV.rotateBy (sampleVars m n).pose.rotation)
    evalVec (fun i => σ i + t * nudge m n u i) p.x p.y = evalVec σ p.x p.y + t * u := by
  apply Complex.ext <;>
  simp [evalVec, sampleVars, Translation2.add, Translation2.rotateBy, Translation2.toV, nudge] <;> ring

theorem nudge_const (σ : ℕ → ℝ) (r : Translation2 ℝ) : evalVec σ r.toV.x r.toV.y = vec r := rfl

theorem point_defined (σ : ℕ → ℝ) (m n : ℕ) (r : Translation2 ℝ) :
    let p : Translation2 (Expr ℝ) := (sampleVars m n).pose.translation.add (r.toV.rotateBy (sampleVars m n).pose.rotation)
    p.x.Defined σ ∧ p.y.Defined σ := by
  simp [sampleVars, Translation2.add, Translation2.rotateBy, Translation2.toV]

theorem apply_responds (σ : ℕ → ℝ) (m n : ℕ) (c : Constraint ℝ)
    (h : ¬ Blunt c (decodeSample σ (sampleVars m n))) :
    ∀ k ∈ c.apply (sampleVars m n), k.Holds σ → Responds σ k := by
  intro k hk hh
  cases c with
  | angularVelocityMaxMagnitude a =>
    simp only [Constraint.apply] at hk
    split_ifs at hk <;> simp only [List.mem_cons, List.not_mem_nil, or_false] at hk
    · subst hk; trivial
    · rcases hk with rfl | rfl <;> intro _ <;>
      exact ⟨fun i => if i = n * stride m + 6 then 1 else 0, _, by simp [sampleVars],
        rate_plain _ _ (by simp [sampleVars]) (by simp)⟩
  | linearAccelerationMaxMagnitude a =>
    simp only [Constraint.apply] at hk
    split_ifs at hk with ha <;> simp only [List.mem_cons, List.not_mem_nil, or_false] at hk
    · rcases hk with rfl | rfl <;> trivial
    · subst hk
      intro he
      have ha : a ≠ 0 := by simpa [Dbl.eq] using ha
      refine ⟨σ, _, ?_, rate_plain _ _ (by simp [Translation2.squaredNorm, sampleVars]) (by simp)⟩
      simp only [Translation2.squaredNorm, sampleVars, eval_add, eval_mul, eval_var, eval_const] at he
      have : 2 * (a * a) ≠ 0 := by positivity
      refine fun h0 => this ?_
      rw [← he, ← h0]
      simp [Translation2.squaredNorm, sampleVars]
      ring
  | linearVelocityMaxMagnitude a =>
    simp only [Constraint.apply] at hk
    split_ifs at hk with ha <;> simp only [List.mem_cons, List.not_mem_nil, or_false] at hk
    · rcases hk with rfl | rfl <;> trivial
    · subst hk
      intro he
      have ha : a ≠ 0 := by simpa [Dbl.eq] using ha
      refine ⟨σ, _, ?_, rate_plain _ _ (by simp [Translation2.squaredNorm, sampleVars]) (by simp)⟩
      simp only [Translation2.squaredNorm, sampleVars, eval_add, eval_mul, eval_var, eval_const] at he
      have : 2 * (a * a) ≠ 0 := by positivity
      refine fun h0 => this ?_
      rw [← he, ← h0]
      simp [Translation2.squaredNorm, sampleVars]
      ring
  | linearVelocityDirection a =>
    simp only [Constraint.apply, List.mem_singleton] at hk
    subst hk; trivial
  | poseEquality x y a =>
    simp [Constraint.apply, Pose2.eqCons, Translation2.eqCons, Rotation2.eqCons] at hk
    rcases hk with rfl | rfl | rfl | rfl <;> trivial
  | translationEquality a =>
    simp only [Constraint.apply, Translation2.eqCons, List.mem_cons, List.not_mem_nil, or_false] at hk
    rcases hk with rfl | rfl <;> trivial
  | pointAt p tol =>
    simp only [Constraint.apply, List.mem_singleton] at hk
    subst hk
    intro _
    have hne : σ (n * stride m) ≠ p.x ∨ σ (n * stride m + 1) ≠ p.y := by
      by_contra hc
      push Not at hc
      exact h (Complex.ext hc.1 hc.2)
    refine ⟨fun i => if i = n * stride m + 2 then p.x - σ (n * stride m) else
      if i = n * stride m + 3 then p.y - σ (n * stride m + 1) else 0,
      (p.x - σ (n * stride m)) ^ 2 + (p.y - σ (n * stride m + 1)) ^ 2, ?_, ?_⟩
    · rcases hne with hne | hne
      · have := sub_ne_zero.mpr hne.symm
        positivity
      · have := sub_ne_zero.mpr hne.symm
        positivity
    · have hf : ∀ A B : ℝ, HasDerivAt (fun t : ℝ => A + t * B) B 0 := fun A B => by
        simpa using ((hasDerivAt_id (0 : ℝ)).mul_const B).const_add A
      refine (hf (σ (n * stride m + 2) * (p.x - σ (n * stride m)) + σ (n * stride m + 3) * (p.y - σ (n * stride m + 1)) -
        Real.cos tol * √((p.x - σ (n * stride m)) ^ 2 + (p.y - σ (n * stride m + 1)) ^ 2)) _).congr_of_eventuallyEq ?_
      refine Filter.Eventually.of_forall fun t => ?_
      simp [sampleVars, Pose2.x, Pose2.y]
      ring
  | pointPoint r p a =>
    simp only [Constraint.apply, List.mem_singleton] at hk
    subst hk
    intro he
    have ha : a ≠ 0 := h
    refine ⟨nudge m n ((decodeSample σ (sampleVars m n)).onRobot r - vec p), _, ?_, rate_plain _ _ ?_ (by simp)⟩
    · have : 2 * (a * a) ≠ 0 := by positivity
      refine fun h0 => this ?_
      simp [Translation2.add, Translation2.rotateBy, Translation2.toV, sampleVars] at he
      rw [← he, ← h0]
      simp [Translation2.add, Translation2.rotateBy, Translation2.toV, sampleVars, nudge, State.onRobot, decodeSample,
        evalVec, vec]
      ring
    · simp [Translation2.add, Translation2.rotateBy, Translation2.toV, sampleVars]
  | linePoint a b p e =>
    simp only [Constraint.apply, List.mem_singleton] at hk
    subst hk
    intro he
    have hAB := (C25_line_point_distance σ _ _ _ (point_defined σ m n a) (point_defined σ m n b)
      (show p.toV.x.Defined σ ∧ p.toV.y.Defined σ from ⟨trivial, trivial⟩) _ _ _ rfl rfl rfl).1.mp hh.1.1
    obtain ⟨hmin, q, hq, hqe⟩ := (C25_line_point_distance σ _ _ _ (point_defined σ m n a) (point_defined σ m n b)
      (show p.toV.x.Defined σ ∧ p.toV.y.Defined σ from ⟨trivial, trivial⟩) _ _ _ rfl rfl rfl).2 hAB
    rw [hqe] at hmin
    rw [nudge_const] at hmin hqe
    refine ⟨nudge m n (-(vec p - q)), _, ?_, rate_away (f := dist q (vec p) ^ 2) rfl fun t ht => ?_⟩
    · have he : dist q (vec p) ^ 2 * dist q (vec p) ^ 2 = e * e := by
        rw [← hqe]; exact he
      rw [he]
      have : e ≠ 0 := h
      positivity
    · have hC := (C25_line_point_distance (fun i => σ i + t * nudge m n (-(vec p - q)) i) _ _ _ (point_defined _ m n a)
        (point_defined _ m n b) (show p.toV.x.Defined _ ∧ p.toV.y.Defined _ from ⟨trivial, trivial⟩) _ _ _
        (nudge_point σ m n _ a t).symm (nudge_point σ m n _ b t).symm rfl).2 (by simpa using hAB)
      obtain ⟨g1, q', hq', g2⟩ := hC
      have hdist : ∀ z : ℂ, dist (z + t * (-(vec p - q))) (vec p) = dist z (vec p + t * (vec p - q)) := fun z => by
        rw [Complex.dist_eq, Complex.dist_eq]
        congr 1
        ring
      have hseg : ∀ {x y z w : ℂ}, z + w ∈ segment ℝ (x + w) (y + w) ↔ z ∈ segment ℝ x y := by
        intro x y z w
        rw [add_comm z, add_comm x, add_comm y]
        exact mem_segment_translate ℝ w
      refine nearest_away hq hmin ht (fun z hz => ?_) ⟨q' - t * (-(vec p - q)), ?_, ?_⟩
      · have := g1 _ (hseg.mpr hz)
        rwa [nudge_const, hdist] at this
      · rw [← hseg (w := t * (-(vec p - q))), sub_add_cancel]
        exact hq'
      · rw [← hdist, sub_add_cancel]
        exact g2
  | pointLine r a b e =>
    simp only [Constraint.apply, List.mem_singleton] at hk
    subst hk
    intro he
    have hAB := (C25_line_point_distance σ a.toV b.toV _ ⟨trivial, trivial⟩ ⟨trivial, trivial⟩ (point_defined σ m n r)
      _ _ _ rfl rfl rfl).1.mp hh.1.1
    obtain ⟨hmin, q, hq, hqe⟩ := (C25_line_point_distance σ a.toV b.toV _ ⟨trivial, trivial⟩ ⟨trivial, trivial⟩
      (point_defined σ m n r) _ _ _ rfl rfl rfl).2 hAB
    rw [hqe] at hmin
    set P := evalVec σ ((sampleVars m n).pose.translation.add (r.toV.rotateBy (sampleVars m n).pose.rotation)).x
      ((sampleVars m n).pose.translation.add (r.toV.rotateBy (sampleVars m n).pose.rotation)).y with hP
    refine ⟨nudge m n (P - q), _, ?_, rate_away (f := dist q P ^ 2) rfl fun t ht => ?_⟩
    · have he : dist q P ^ 2 * dist q P ^ 2 = e * e := by
        rw [← hqe]; exact he
      rw [he]
      have : e ≠ 0 := h
      positivity
    · obtain ⟨g1, g2⟩ := (C25_line_point_distance (fun i => σ i + t * nudge m n (P - q) i) a.toV b.toV _
        ⟨trivial, trivial⟩ ⟨trivial, trivial⟩ (point_defined _ m n r) _ _ _ rfl rfl (nudge_point σ m n _ r t).symm).2 hAB
      exact nearest_away hq hmin ht g1 g2

theorem point_onRobot (σ : ℕ → ℝ) (m n : ℕ) (r : Translation2 ℝ) :
    let p : Translation2 (Expr ℝ) := (sampleVars m n).pose.translation.add (r.toV.rotateBy (sampleVars m n).pose.rotation)
    evalVec σ p.x p.y = (decodeSample σ (sampleVars m n)).onRobot r := by
  apply Complex.ext <;>
  simp [evalVec, sampleVars, Translation2.add, Translation2.rotateBy, Translation2.toV, State.onRobot, decodeSample, vec]

theorem mute_of_least {σ : ℕ → ℝ} {a : Expr ℝ} {v : ℝ} (hv : v = 0) (h0 : a.eval σ = 0) (hn : ∀ σ', 0 ≤ a.eval σ') :
    Mute σ (.ge a (.const v)) := by
  subst hv
  refine ⟨_, _, .inr rfl, h0, fun d w hw => ?_⟩
  refine IsLocalMin.hasDerivAt_eq_zero (Filter.Eventually.of_forall fun t => ?_) hw
  simp only [zero_mul, add_zero, eval_const, sub_zero]
  rw [h0]
  exact hn _

theorem apply_mute (σ : ℕ → ℝ) (m n : ℕ) (c : Constraint ℝ) (hs : ∀ k ∈ c.apply (sampleVars m n), k.Holds σ)
    (h : Touches c (decodeSample σ (sampleVars m n))) : ∃ k ∈ c.apply (sampleVars m n), Mute σ k := by
  cases c with
  | pointPoint r p d =>
    obtain ⟨rfl, h⟩ := h
    refine ⟨_, List.mem_singleton.mpr rfl, mute_of_least (by ring) ?_ fun σ' => ?_⟩
    · rw [← point_onRobot] at h
      have h1 := congrArg Complex.re h
      have h2 := congrArg Complex.im h
      simp only [evalVec, vec] at h1 h2
      simp only [eval_add, eval_mul, eval_sub, eval_const, h1, h2]
      ring
    · simp only [eval_add, eval_mul]
      exact add_nonneg (mul_self_nonneg _) (mul_self_nonneg _)
  | pointLine r a b d =>
    obtain ⟨rfl, h⟩ := h
    refine ⟨_, List.mem_singleton.mpr rfl, mute_of_least (by ring) ?_ fun σ' => ?_⟩
    · have hh := hs _ (List.mem_singleton.mpr rfl)
      have hC := C25_line_point_distance σ a.toV b.toV _ ⟨trivial, trivial⟩ ⟨trivial, trivial⟩ (point_defined σ m n r)
        _ _ _ rfl rfl (point_onRobot σ m n r).symm
      obtain ⟨h1, q, -, h2⟩ := hC.2 (hC.1.mp hh.1.1)
      have h3 := h1 _ h
      rw [dist_self] at h3
      have : (linePointDistance a.toV b.toV ((sampleVars m n).pose.translation.add
          (r.toV.rotateBy (sampleVars m n).pose.rotation))).eval σ = 0 :=
        le_antisymm (by simpa using h3) (by rw [h2]; positivity)
      rw [eval_mul, this, mul_zero]
    · rw [eval_mul]
      exact mul_self_nonneg _
  | linePoint a b p d =>
    obtain ⟨rfl, h⟩ := h
    refine ⟨_, List.mem_singleton.mpr rfl, mute_of_least (by ring) ?_ fun σ' => ?_⟩
    · have hh := hs _ (List.mem_singleton.mpr rfl)
      have hC := C25_line_point_distance σ _ _ p.toV (point_defined σ m n a) (point_defined σ m n b) ⟨trivial, trivial⟩
        _ _ _ (point_onRobot σ m n a).symm (point_onRobot σ m n b).symm rfl
      obtain ⟨h1, q, -, h2⟩ := hC.2 (hC.1.mp hh.1.1)
      have h3 := h1 _ h
      rw [nudge_const, dist_self] at h3
      have : (linePointDistance ((sampleVars m n).pose.translation.add (a.toV.rotateBy (sampleVars m n).pose.rotation))
          ((sampleVars m n).pose.translation.add (b.toV.rotateBy (sampleVars m n).pose.rotation)) p.toV).eval σ = 0 :=
        le_antisymm (by simpa using h3) (by rw [h2]; positivity)
      rw [eval_mul, this, mul_zero]
    · rw [eval_mul]
      exact mul_self_nonneg _
  | _ => exact h.elim

end Trajopt.Props
