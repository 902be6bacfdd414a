import Verif.Lemmas.Smooth
import Verif.Props.Independent
import Mathlib.Analysis.Calculus.Deriv.Abs
import Mathlib.Analysis.Calculus.ContDiff.FTaylorSeries
import Mathlib.Analysis.Calculus.Deriv.Pow

/-!
# C110: is the problem smooth?
-/

set_option autoImplicit false

namespace Trajopt.Props

open Spec

theorem regular_power (σ : ℕ → ℝ) (m n : ℕ) (mods : List (SwerveModule ℝ)) (i : ℕ) :
    ∀ c ∈ powerList m n mods i, RegularCon σ c := by
  induction mods generalizing i with
  | nil => simp [powerList]
  | cons md rest ih =>
    intro c hc
    rw [powerList, List.mem_append] at hc
    rcases hc with hc | hc
    · simp only [powerCons, List.mem_cons, List.not_mem_nil, or_false] at hc
      rcases hc with rfl | rfl <;>
      simp [RegularCon, Translation2.squaredNorm, Translation2.rotateBy, Rotation2.neg, sampleVars, forceVars]
    · exact ih _ c hc

theorem regular_torque (σ : ℕ → ℝ) (m n : ℕ) (mods : List (SwerveModule ℝ)) (i : ℕ) (tau : Expr ℝ)
    (ht : tau.Regular σ) : (torqueExpr m n mods i tau).Regular σ := by
  induction mods generalizing i tau with
  | nil => exact ht
  | cons md rest ih =>
    rw [torqueExpr]
    refine ih _ _ ?_
    simp [Translation2.cross, Translation2.rotateBy, Translation2.toV, sampleVars, forceVars, ht]

theorem regular_accumulate (σ : ℕ → ℝ) (l : List ℕ) : (accumulate l : Expr ℝ).Regular σ := by
  suffices h : ∀ (e : Expr ℝ), e.Regular σ → (l.foldl (fun acc f => acc + .var f) e).Regular σ from
    h _ trivial
  induction l with
  | nil => exact fun e h => h
  | cons i l ih => exact fun e h => ih _ ⟨h, trivial⟩

theorem regular_time (σ : ℕ → ℝ) (l : List (ℕ × ℕ)) : ∀ e : Expr ℝ, e.Regular σ → (totalTimeExpr l e).Regular σ := by
  induction l with
  | nil => exact fun e h => h
  | cons i l ih => exact fun e h => ih _ ⟨h, trivial, trivial⟩

theorem regular_kin (σ : ℕ → ℝ) (m n n' dt : ℕ) :
    ∀ c ∈ kinCons (sampleVars m n) (sampleVars m n') (.var dt), RegularCon σ c := by
  simp [kinCons, Translation2.eqCons, Rotation2.eqCons, RegularCon, Translation2.add, Translation2.smul,
    Rotation2.sub, Rotation2.add, Rotation2.neg, Rotation2.rotateBy, Rotation2.ofAngle, sampleVars]

/-- C110, the positive part: wherever no constraint of the path is at a corner, cost and constraints are
infinitely often differentiable (even analytic).  Missing: corners, where the claim is false. -/
theorem C110_smooth_partial (b : Builder ℝ) (hb : Reachable b) (dr : SwerveDrivetrain ℝ) (hr : Ready b dr)
    (handle : ℤ) (g : Generator ℝ) (hg : Generator.construct b handle = .ok g)
    (x : Fin g.problem.nvars → ℝ)
    (hi : ∀ w ≤ (table b).counts.length, ∀ c ∈ (table b).instant w,
      ¬ Corner c ((decode g.vars (ofVec x)).state (waypointSample (table b).counts w)))
    (hc : ∀ s < (table b).counts.length, ∀ c ∈ (table b).continuous s, ∀ n ∈ segmentSamples (table b).counts s,
      ¬ Corner c ((decode g.vars (ofVec x)).state n)) (k : WithTop ℕ∞) : SmoothAt k g.problem x := by
  obtain ⟨sol, -, -, hcl⟩ := construct_closed hb hr handle
  rw [hg] at hcl
  cases hcl
  have hst : ∀ n < 1 + (table b).counts.sum, (decode (closedGenerator b.path dr b.controlIntervalCounts sol handle).vars
      (ofVec x)).state n = decodeSample (ofVec x) (sampleVars dr.modules.length n) :=
    fun n hn => decode_state _ _ _ _ hn
  refine ⟨fun e he => contDiffAt_eval k x e ?_, fun c hcm => ?_⟩
  · obtain rfl : _ = e := Option.some.inj he
    exact regular_time _ _ _ trivial
  · change c ∈ allCons b.path dr (table b).counts at hcm
    simp only [allCons, List.mem_append] at hcm
    rcases hcm with ((((h | h) | h) | h) | h) | h
    · simp only [List.mem_flatMap, List.mem_map] at h
      obtain ⟨_, _, _, _, rfl⟩ := h
      simp only [stepCap]
      refine contDiffAt_con k x _ ?_
      split <;> simp [RegularCon]
    · simp only [List.mem_map] at h
      obtain ⟨_, _, rfl⟩ := h
      exact contDiffAt_con k x _ (by simp [RegularCon])
    · simp only [kinList, List.mem_flatMap] at h
      obtain ⟨_, _, _, _, h⟩ := h
      exact contDiffAt_con k x _ (regular_kin _ _ _ _ _ _ h)
    · simp only [List.mem_flatMap, dynCons, List.mem_append, List.mem_cons, List.not_mem_nil, or_false] at h
      obtain ⟨n, _, h | rfl | rfl | rfl⟩ := h
      · exact contDiffAt_con k x _ (regular_power _ _ _ _ _ _ h)
      · exact contDiffAt_con k x _ ⟨regular_accumulate _ _, trivial, trivial⟩
      · exact contDiffAt_con k x _ ⟨regular_accumulate _ _, trivial, trivial⟩
      · exact contDiffAt_con k x _ ⟨regular_torque _ _ _ _ _ _ trivial, trivial, trivial⟩
    · simp only [wptList, List.mem_flatMap, List.mem_range] at h
      obtain ⟨w, hw, c', hc', h⟩ := h
      refine apply_smooth k x c' ?_ c h
      have := hi w (by omega) c' hc'
      rw [hst _ (by
        have := sum_take_le (table b).counts w
        rw [waypointSample]; omega)] at this
      exact this
    · simp only [sgmtList, List.mem_flatMap, List.mem_range] at h
      obtain ⟨s, hs, c', hc', n, hn, h⟩ := h
      rw [List.mem_range'_1, getD_lt hs] at hn
      refine apply_smooth k x c' ?_ c h
      have := hc s hs c' hc' n ((mem_segmentSamples hs).mpr ⟨n - 1 - ((table b).counts.take s).sum, by omega, by omega⟩)
      rw [hst _ (by
        have := sum_take_le (table b).counts (s + 1)
        rw [List.sum_take_succ _ _ hs] at this
        omega)] at this
      exact this

/-- A waypoint's constraint is in the problem. -/
theorem wpt_mem {b : Builder ℝ} {dr : SwerveDrivetrain ℝ} {sol : SwerveSolution ℝ} {handle : ℤ} {w : ℕ}
    (hw : w ≤ (table b).counts.length) {c' : Constraint ℝ} (hc : c' ∈ (table b).instant w) {c : Con ℝ}
    (h : c ∈ c'.apply (sampleVars dr.modules.length (waypointSample (table b).counts w))) :
    c ∈ (closedGenerator b.path dr b.controlIntervalCounts sol handle).problem.cons := by
  change _ ∈ allCons b.path dr (table b).counts
  rw [allCons]
  simp only [List.mem_append]
  refine .inl <| .inr ?_
  rw [wptList]
  simp only [List.mem_flatMap, List.mem_range]
  exact ⟨w, by omega, c', hc, h⟩

/-- Moving two variables along a line. -/
noncomputable def slide {n : ℕ} (x : Fin n → ℝ) (i j : Fin n) (u v s : ℝ) : Fin n → ℝ :=
  fun k => x k + s * (if k = i then u else if k = j then v else 0)

theorem slide_smooth {n : ℕ} (x : Fin n → ℝ) (i j : Fin n) (u v : ℝ) (k : WithTop ℕ∞) :
    ContDiff ℝ k (slide x i j u v) := by
  rw [contDiff_pi]
  intro a
  exact contDiff_const.add (contDiff_id.mul contDiff_const)

theorem slide_zero {n : ℕ} (x : Fin n → ℝ) (i j : Fin n) (u v : ℝ) : slide x i j u v 0 = x := by
  funext k; simp [slide]

theorem slide_at {n : ℕ} (x : Fin n → ℝ) (i j : Fin n) (u v s : ℝ) (a : ℕ) :
    ofVec (slide x i j u v s) a = ofVec x a + s * (if a = i then u else if a = j then v else 0) := by
  by_cases h : a < n
  · have e1 : ((⟨a, h⟩ : Fin n) = i) = (a = i) := by rw [Fin.ext_iff]
    have e2 : ((⟨a, h⟩ : Fin n) = j) = (a = j) := by rw [Fin.ext_iff]
    simp only [ofVec, h, dif_pos, slide, e1, e2]
  · have e1 : ¬ a = i := fun e => h (e ▸ i.2)
    have e2 : ¬ a = j := fun e => h (e ▸ j.2)
    simp [ofVec, h, e1, e2]

/-- A constraint whose function is not smooth along a line of assignments is not smooth. -/
theorem rough_of_line {nv : ℕ} {x : Fin nv → ℝ} {k : WithTop ℕ∞} {c : Con ℝ}
    {i j : ℕ} (hi : i < nv) (hj : j < nv) (u v : ℝ)
    (h : ¬ ContDiffAt ℝ k (fun s : ℝ => conFun (fun a => ofVec x a + s * (if a = i then u else if a = j then v else 0)) c) 0) :
    ¬ ContDiffAt ℝ k (fun y : Fin nv → ℝ => conFun (ofVec y) c) x := by
  intro hd
  apply h
  rw [← slide_zero x ⟨i, hi⟩ ⟨j, hj⟩ u v] at hd
  have := hd.comp (0 : ℝ) (slide_smooth x ⟨i, hi⟩ ⟨j, hj⟩ u v k).contDiffAt
  have e : (fun y : Fin nv → ℝ => conFun (ofVec y) c) ∘ slide x ⟨i, hi⟩ ⟨j, hj⟩ u v = fun s : ℝ =>
      conFun (fun a => ofVec x a + s * (if a = i then u else if a = j then v else 0)) c := by
    funext s
    change conFun (fun a => ofVec (slide x ⟨i, hi⟩ ⟨j, hj⟩ u v s) a) c = _
    simp only [slide_at]
  rwa [e] at this

theorem index_lt {m n N S k : ℕ} (hn : n < 1 + N) (hk : k < 10) :
    n * stride m + k < (1 + N) * stride m + S := by
  have h1 : (n + 1) * stride m ≤ (1 + N) * stride m := Nat.mul_le_mul_right _ (by omega)
  have h2 : 10 ≤ stride m := by simp [stride]
  rw [Nat.add_mul] at h1
  omega

theorem facing_kink (σ : ℕ → ℝ) (m n : ℕ) (p : Translation2 ℝ) (tol : ℝ) (htol : Real.cos tol ≠ 0)
    (hx : (decodeSample σ (sampleVars m n)).pos = vec p) :
    ∃ c ∈ (Constraint.pointAt p tol).apply (sampleVars m n), ¬ ContDiffAt ℝ 1 (fun s : ℝ =>
      conFun (fun a => σ a + s * (if a = n * stride m + 0 then 1 else if a = n * stride m + 1 then 0 else 0)) c) 0 := by
  refine ⟨_, List.mem_singleton.mpr rfl, fun h => ?_⟩
  have hd := h.differentiableAt one_ne_zero
  simp only [decodeSample, evalVec, sampleVars, eval_var, vec, Complex.ext_iff] at hx
  simp only [conFun, sampleVars, Pose2.x, Pose2.y, eval_add, eval_sub, eval_mul, eval_var, eval_const,
    eval_hypot, add_zero, hx.1, hx.2, real_hypot, real_cos, if_true, Nat.add_eq_left, one_ne_zero, if_false, mul_zero,
    OfNat.ofNat_ne_zero, Nat.add_left_cancel_iff, mul_one, sub_self, Nat.reduceEqDiff] at hd
  have hf : ∀ s : ℝ, Real.sqrt ((p.x - (p.x + s)) ^ 2 + 0 ^ 2) = |s| := by
    intro s
    rw [show p.x - (p.x + s) = -s by ring, neg_sq, zero_pow two_ne_zero, add_zero, Real.sqrt_sq_eq_abs]
  simp only [hf] at hd
  have hl : DifferentiableAt ℝ (fun s : ℝ => -σ (n * stride m + 2) * s) 0 :=
    (differentiableAt_const _).mul differentiableAt_id
  have := (hl.sub hd).const_mul (Real.cos tol)⁻¹
  refine not_differentiableAt_abs_zero (this.congr_of_eventuallyEq (Filter.Eventually.of_forall fun s => ?_))
  simp only [Pi.sub_apply]
  field_simp
  ring

/-- C110 fails on the point that the robot has to face: there the constraint's function, which
contains the distance to the point, is not differentiable. -/
theorem C110_facing_refuted (b : Builder ℝ) (hb : Reachable b) (dr : SwerveDrivetrain ℝ) (hr : Ready b dr)
    (handle : ℤ) (g : Generator ℝ) (hg : Generator.construct b handle = .ok g)
    (w : ℕ) (hw : w ≤ (table b).counts.length) (p : Translation2 ℝ) (tol : ℝ) (htol : Real.cos tol ≠ 0)
    (hc : .pointAt p tol ∈ (table b).instant w) (x : Fin g.problem.nvars → ℝ)
    (hx : ((decode g.vars (ofVec x)).state (waypointSample (table b).counts w)).pos = vec p) :
    ¬ SmoothAt 1 g.problem x := by
  obtain ⟨sol, -, -, hcl⟩ := construct_closed hb hr handle
  rw [hg] at hcl
  cases hcl
  have hlt : waypointSample (table b).counts w < 1 + (table b).counts.sum := by
    have := sum_take_le (table b).counts w
    rw [waypointSample]; omega
  rw [show (decode (closedGenerator b.path dr b.controlIntervalCounts sol handle).vars (ofVec x)).state _ =
    decodeSample (ofVec x) (sampleVars dr.modules.length _) from decode_state _ _ _ _ hlt] at hx
  obtain ⟨c, hcm, h⟩ := facing_kink _ _ _ p tol htol hx
  exact fun hs => rough_of_line (index_lt hlt (by norm_num)) (index_lt hlt (by norm_num)) 1 0 h (hs.2 c (wpt_mem hw hc hcm))

/-- A function that is constant up to zero and bends upwards from there. -/
theorem kink {f : ℝ → ℝ} {h L d : ℝ} (hL : h * L ≠ 0)
    (hf : ∀ s, |s| < 1 → f s = (h + max s 0 ^ 2 * L) ^ 2 - d) : ¬ ContDiffAt ℝ 2 f 0 := by
  intro hC
  have hG : DifferentiableAt ℝ (deriv f) 0 := by
    have := (hC.fderiv_right (m := 1) (by norm_num)).differentiableAt one_ne_zero
    exact this.clm_apply (differentiableAt_const 1)
  have hball : ∀ᶠ s : ℝ in nhds 0, |s| < 1 := by
    have : Filter.Tendsto (fun s : ℝ => |s|) (nhds 0) (nhds |0|) := continuous_abs.continuousAt
    rw [abs_zero] at this
    exact this.eventually (gt_mem_nhds one_pos)
  have hneg : ∀ s, s < 0 → |s| < 1 → deriv f s = 0 := by
    intro s hs hs1
    have : f =ᶠ[nhds s] fun _ => h ^ 2 - d := by
      have h1 : ∀ᶠ t : ℝ in nhds s, |t| < 1 := continuous_abs.continuousAt.eventually (gt_mem_nhds hs1)
      filter_upwards [h1, gt_mem_nhds hs] with t ht ht'
      rw [hf t ht, max_eq_right ht'.le]; ring
    rw [this.deriv_eq, deriv_const]
  have hpos : ∀ s, 0 < s → |s| < 1 → deriv f s = 4 * L * s * (h + s ^ 2 * L) := by
    intro s hs hs1
    have : f =ᶠ[nhds s] fun t => (h + t ^ 2 * L) ^ 2 - d := by
      have h1 : ∀ᶠ t : ℝ in nhds s, |t| < 1 := continuous_abs.continuousAt.eventually (gt_mem_nhds hs1)
      filter_upwards [h1, lt_mem_nhds hs] with t ht ht'
      rw [hf t ht, max_eq_left ht'.le]
    rw [this.deriv_eq]
    have := ((((hasDerivAt_pow 2 s).mul_const L).const_add h).pow 2).sub_const d
    convert this.deriv using 1
    norm_num
    ring
  have h0 : deriv f 0 = 0 := by
    have h1 := (hC.differentiableAt (by norm_num)).hasDerivAt.hasDerivWithinAt (s := Set.Iic 0)
    have h2 : HasDerivWithinAt f 0 (Set.Iic 0) 0 := by
      refine (hasDerivWithinAt_const (0 : ℝ) (Set.Iic 0) (h ^ 2 - d)).congr_of_eventuallyEq ?_ ?_
      · filter_upwards [self_mem_nhdsWithin, nhdsWithin_le_nhds hball] with t ht ht'
        rw [hf t ht', max_eq_right ht]; ring
      · rw [hf 0 (by simp)]; simp
    exact (uniqueDiffWithinAt_Iic 0).eq_deriv _ h1 h2
  have hl : HasDerivWithinAt (deriv f) 0 (Set.Iic 0) 0 := by
    refine (hasDerivWithinAt_const (0 : ℝ) (Set.Iic 0) (0 : ℝ)).congr_of_eventuallyEq ?_ h0
    filter_upwards [self_mem_nhdsWithin, nhdsWithin_le_nhds hball] with t ht ht'
    rcases lt_or_eq_of_le (show t ≤ 0 from ht) with ht | rfl
    · exact hneg t ht ht'
    · exact h0
  have hr : HasDerivWithinAt (deriv f) (4 * L * h) (Set.Ici 0) 0 := by
    have hp : HasDerivAt (fun s : ℝ => 4 * L * s * (h + s ^ 2 * L)) (4 * L * h) 0 := by
      have := ((hasDerivAt_id (0 : ℝ)).const_mul (4 * L)).mul (((hasDerivAt_pow 2 (0 : ℝ)).mul_const L).const_add h)
      refine (this.congr_deriv ?_).congr_of_eventuallyEq (Filter.Eventually.of_forall fun s => rfl)
      norm_num
    refine hp.hasDerivWithinAt.congr_of_eventuallyEq ?_ (by rw [h0]; ring)
    filter_upwards [self_mem_nhdsWithin, nhdsWithin_le_nhds hball] with t ht ht'
    rcases lt_or_eq_of_le (show 0 ≤ t from ht) with ht | rfl
    · exact hpos t ht ht'
    · rw [h0]; ring
  have e1 := (uniqueDiffWithinAt_Iic 0).eq_deriv _ hG.hasDerivAt.hasDerivWithinAt hl
  have e2 := (uniqueDiffWithinAt_Ici 0).eq_deriv _ hG.hasDerivAt.hasDerivWithinAt hr
  rw [e1] at e2
  apply hL
  linarith

/-- The distance to an edge near a point whose nearest point of the line is the edge's end: going one way
it does not change, going the other way it grows. -/
theorem end_profile {A B P : Translation2 ℝ} (hAB : vec A ≠ vec B) (h : AtEnd (vec A) (vec B) (vec P)) :
    ∃ (E : Translation2 ℝ) (ux uy : ℝ), ux * ux + uy * uy ≠ 0 ∧ (P.x - E.x) * ux + (P.y - E.y) * uy = 0 ∧
      ∀ Q : Translation2 ℝ, (Q.x - E.x) * ux + (Q.y - E.y) * uy = 0 → ∀ s : ℝ, |s| < 1 →
        linePointDistance A B ⟨Q.x + s * ux, Q.y + s * uy⟩ =
          (E.x - Q.x) ^ 2 + (E.y - Q.y) ^ 2 + max s 0 ^ 2 * (ux * ux + uy * uy) := by
  simp only [AtEnd, vec, Complex.mul_re, Complex.sub_re, Complex.sub_im, Complex.conj_re, Complex.conj_im, ne_eq,
    Complex.mk.injEq] at hAB h
  obtain ⟨lx, hlx⟩ : ∃ lx, lx = B.x - A.x := ⟨_, rfl⟩
  obtain ⟨ly, hly⟩ : ∃ ly, ly = B.y - A.y := ⟨_, rfl⟩
  rw [← hlx, ← hly] at h
  have hL : lx * lx + ly * ly ≠ 0 := by
    intro h
    apply hAB
    constructor <;> nlinarith [mul_self_nonneg lx, mul_self_nonneg ly]
  have hval : ∀ Q : Translation2 ℝ, linePointDistance A B Q =
      (A.x + max (min (((Q.x - A.x) * lx + (Q.y - A.y) * ly) / (lx * lx + ly * ly)) 1) 0 * lx - Q.x) ^ 2 +
      (A.y + max (min (((Q.x - A.x) * lx + (Q.y - A.y) * ly) / (lx * lx + ly * ly)) 1) 0 * ly - Q.y) ^ 2 := by
    intro Q
    simp only [linePointDistance, lpdLerp, lpdMin_real, lpdMax_real, Translation2.dot,
      Translation2.squaredNorm, Translation2.sub, Translation2.add, Translation2.neg, real_add,
      real_mul, real_sub, real_div, real_neg, real_lit, Rat.cast_one, Rat.cast_zero]
    rw [← hlx, ← hly]
    ring
  rcases h with h | h
  · refine ⟨A, -lx, -ly, by simpa using hL, by linarith, ?_⟩
    intro Q hQ s hs
    obtain ⟨hs1, hs2⟩ := abs_lt.mp hs
    have ht : ((Q.x + s * -lx - A.x) * lx + (Q.y + s * -ly - A.y) * ly) / (lx * lx + ly * ly) = -s := by
      rw [div_eq_iff hL]
      linear_combination -hQ
    have hb : max (min (-s) 1) 0 = max s 0 - s := by
      rcases le_total s 0 with h | h
      · rw [min_eq_left (by linarith), max_eq_left (by linarith), max_eq_right h]; ring
      · rw [min_eq_left (by linarith), max_eq_right (by linarith), max_eq_left h]; ring
    rw [hval, ht, hb]
    generalize max s 0 = q
    linear_combination 2 * q * hQ
  · refine ⟨B, lx, ly, hL, by linarith, ?_⟩
    intro Q hQ s hs
    obtain ⟨hs1, hs2⟩ := abs_lt.mp hs
    have ht : ((Q.x + s * lx - A.x) * lx + (Q.y + s * ly - A.y) * ly) / (lx * lx + ly * ly) = 1 + s := by
      rw [div_eq_iff hL, show A.x = B.x - lx by rw [hlx]; ring, show A.y = B.y - ly by rw [hly]; ring]
      linear_combination hQ
    have hb : max (min (1 + s) 1) 0 = 1 + s - max s 0 := by
      rcases le_total s 0 with h | h
      · rw [min_eq_left (by linarith), max_eq_left (by linarith), max_eq_right h]; ring
      · rw [min_eq_right (by linarith), max_eq_left (by norm_num), max_eq_left h]; ring
    rw [hval, ht, hb]
    generalize max s 0 = q
    rw [show A.x = B.x - lx by rw [hlx]; ring, show A.y = B.y - ly by rw [hly]; ring]
    linear_combination 2 * q * hQ

/-- Moving the edge is moving the point the other way. -/
theorem lpd_shift (A B P : Translation2 ℝ) (u v : ℝ) :
    linePointDistance (⟨A.x + u, A.y + v⟩ : Translation2 ℝ) ⟨B.x + u, B.y + v⟩ P =
      linePointDistance A B ⟨P.x - u, P.y - v⟩ := by
  simp only [linePointDistance, lpdLerp, lpdMin_real, lpdMax_real, Translation2.dot,
    Translation2.squaredNorm, Translation2.sub, Translation2.add, Translation2.neg, real_add,
    real_mul, real_sub, real_div, real_neg, real_lit, Rat.cast_one, Rat.cast_zero]
  rw [show B.x + u - (A.x + u) = B.x - A.x by ring, show B.y + v - (A.y + v) = B.y - A.y by ring,
    show P.x - (A.x + u) = P.x - u - A.x by ring, show P.y - (A.y + v) = P.y - v - A.y by ring]
  ring

/-- Moving two variables. -/
noncomputable def shift {n : ℕ} (x : Fin n → ℝ) (i j : Fin n) (u v : ℝ) : Fin n → ℝ :=
  fun k => x k + (if k = i then u else if k = j then v else 0)

theorem shift_at {n : ℕ} (x : Fin n → ℝ) (i j : Fin n) (u v : ℝ) (a : ℕ) :
    ofVec (shift x i j u v) a = ofVec x a + (if a = i then u else if a = j then v else 0) := by
  have := slide_at x i j u v 1 a
  rwa [show slide x i j u v 1 = shift x i j u v by funext k; simp [slide, shift], one_mul] at this

theorem shift_zero {n : ℕ} (x : Fin n → ℝ) (i j : Fin n) : shift x i j 0 0 = x := by
  funext k; simp [shift]

theorem shift_smooth {n : ℕ} (x : Fin n → ℝ) (i j : Fin n) (a b c d : ℝ) (k : WithTop ℕ∞) :
    ContDiff ℝ k (fun s : ℝ => shift x i j (a + s * b) (c + s * d)) := by
  rw [contDiff_pi]
  intro e
  simp only [shift]
  split_ifs
  · exact contDiff_const.add (contDiff_const.add (contDiff_id.mul contDiff_const))
  · exact contDiff_const.add (contDiff_const.add (contDiff_id.mul contDiff_const))
  · exact contDiff_const

/-- A function that depends on a position through its distance from an edge is not twice continuously
differentiable where the nearest point is about to leave the edge's end. -/
theorem edge_rough {n : ℕ} {f : (Fin n → ℝ) → ℝ} {x : Fin n → ℝ} (i j : Fin n) {A B P : Translation2 ℝ} {d ε : ℝ}
    (hε : ε * ε = 1) (hAB : vec A ≠ vec B) (h : AtEnd (vec A) (vec B) (vec P))
    (hf : ∀ u v, f (shift x i j u v) = linePointDistance A B ⟨P.x + ε * u, P.y + ε * v⟩ ^ 2 - d) :
    ¬ ContDiffAt ℝ 2 f x := by
  intro hC
  obtain ⟨E, ux, uy, hu, hP, hprof⟩ := end_profile hAB h
  have key : ∀ τ : ℝ, (E.x - (P.x + τ * -uy)) ^ 2 + (E.y - (P.y + τ * ux)) ^ 2 ≠ 0 →
      ¬ ContDiffAt ℝ 2 f (shift x i j (ε * (τ * -uy)) (ε * (τ * ux))) := by
    intro τ hτ hc
    have hx : shift x i j (ε * (τ * -uy)) (ε * (τ * ux)) =
        (fun s : ℝ => shift x i j (ε * (τ * -uy) + s * (ε * ux)) (ε * (τ * ux) + s * (ε * uy))) 0 := by
      simp
    rw [hx] at hc
    have := hc.comp (0 : ℝ) (shift_smooth x i j (ε * (τ * -uy)) (ε * ux) (ε * (τ * ux)) (ε * uy) 2).contDiffAt
    refine kink (d := d) (mul_ne_zero hτ hu) ?_ this
    intro s hs
    rw [Function.comp, hf, show P.x + ε * (ε * (τ * -uy) + s * (ε * ux)) = P.x + τ * -uy + s * ux by
      linear_combination (τ * -uy + s * ux) * hε, show P.y + ε * (ε * (τ * ux) + s * (ε * uy)) = P.y + τ * ux + s * uy by
      linear_combination (τ * ux + s * uy) * hε]
    have := hprof ⟨P.x + τ * -uy, P.y + τ * ux⟩ (by simp only; linear_combination hP) s hs
    simp only at this
    rw [this]
  by_cases h0 : (E.x - P.x) ^ 2 + (E.y - P.y) ^ 2 = 0
  · have hev := hC.eventually (by norm_num)
    have hcont : Filter.Tendsto (fun τ : ℝ => shift x i j (0 + τ * (ε * -uy)) (0 + τ * (ε * ux))) (nhds 0) (nhds x) := by
      have := (shift_smooth x i j 0 (ε * -uy) 0 (ε * ux) 0).continuous.tendsto (0 : ℝ)
      rwa [zero_mul, zero_mul, add_zero, shift_zero] at this
    have h1 : ∀ᶠ τ : ℝ in nhdsWithin 0 {0}ᶜ, ContDiffAt ℝ 2 f (shift x i j (0 + τ * (ε * -uy)) (0 + τ * (ε * ux))) :=
      nhdsWithin_le_nhds (hcont.eventually hev)
    obtain ⟨τ, hτ, hτ0⟩ := (h1.and self_mem_nhdsWithin).exists
    have hτ0 : τ ≠ 0 := hτ0
    refine key τ ?_ ?_
    · have e1 : E.x = P.x := by nlinarith [sq_nonneg (E.x - P.x), sq_nonneg (E.y - P.y)]
      have e2 : E.y = P.y := by nlinarith [sq_nonneg (E.x - P.x), sq_nonneg (E.y - P.y)]
      rw [e1, e2, show (P.x - (P.x + τ * -uy)) ^ 2 + (P.y - (P.y + τ * ux)) ^ 2 = τ ^ 2 * (ux * ux + uy * uy) by ring]
      exact mul_ne_zero (pow_ne_zero _ hτ0) hu
    · rw [show ε * (τ * -uy) = 0 + τ * (ε * -uy) by ring, show ε * (τ * ux) = 0 + τ * (ε * ux) by ring]
      exact hτ
  · refine key 0 (by simpa using h0) ?_
    rwa [zero_mul, zero_mul, mul_zero, shift_zero]

/-- A trajectory that obeys the path is a feasible vector of decision variables. -/
theorem vector_of {b : Builder ℝ} (hb : Reachable b) {dr : SwerveDrivetrain ℝ} (hr : Ready b dr) {handle : ℤ}
    {g : Generator ℝ} (hg : Generator.construct b handle = .ok g) {T : Traj} (hT : Obeys (table b) dr T) :
    ∃ x : Fin g.problem.nvars → ℝ, g.problem.Feasible (ofVec x) ∧
      Traj.Agree (sampleCount (table b).counts) dr.modules.length (table b).counts.length (decode g.vars (ofVec x)) T := by
  obtain ⟨sol, -, -, hcl⟩ := construct_closed hb hr handle
  rw [hg] at hcl
  cases hcl
  have key : Traj.Agree (sampleCount (table b).counts) dr.modules.length (table b).counts.length
      (decode (closedGenerator b.path dr b.controlIntervalCounts sol handle).vars
        (ofVec fun i : Fin (closedGenerator b.path dr b.controlIntervalCounts sol handle).problem.nvars =>
          encode dr.modules.length (1 + (table b).counts.sum) T i)) T := by
    have hE := encode_decode dr.modules.length (1 + (table b).counts.sum) (table b).counts.length T
    have hv : ∀ i < (1 + (table b).counts.sum) * stride dr.modules.length + (table b).counts.length,
        ofVec (fun i : Fin (closedGenerator b.path dr b.controlIntervalCounts sol handle).problem.nvars =>
          encode dr.modules.length (1 + (table b).counts.sum) T i) i =
          encode dr.modules.length (1 + (table b).counts.sum) T i := fun i hi => dif_pos hi
    generalize ofVec (fun i : Fin (closedGenerator b.path dr b.controlIntervalCounts sol handle).problem.nvars =>
          encode dr.modules.length (1 + (table b).counts.sum) T i) = σ at hv
    have hle : ∀ n < 1 + (table b).counts.sum, ∀ k < stride dr.modules.length, n * stride dr.modules.length + k <
        (1 + (table b).counts.sum) * stride dr.modules.length + (table b).counts.length := by
      intro n hn k hk
      have h1 : (n + 1) * stride dr.modules.length ≤ (1 + (table b).counts.sum) * stride dr.modules.length :=
        Nat.mul_le_mul_right _ (by omega)
      rw [Nat.add_mul] at h1
      omega
    constructor
    · intro n hn
      have hn : n < 1 + (table b).counts.sum := by simpa [sampleCount, add_comm] using hn
      rw [← hE.state n hn, decode_state _ _ _ _ hn,
        show (decode (closedGenerator b.path dr b.controlIntervalCounts sol handle).vars σ).state _ =
          decodeSample σ (sampleVars dr.modules.length _) from decode_state _ _ _ _ hn]
      have h10 : 10 ≤ stride dr.modules.length := by simp [stride]
      have h0 := hv _ (hle n hn 0 (by omega))
      rw [Nat.add_zero] at h0
      simp only [decodeSample, evalVec, sampleVars, eval_var, h0, hv _ (hle n hn 1 (by omega)), hv _ (hle n hn 2 (by omega)),
        hv _ (hle n hn 3 (by omega)), hv _ (hle n hn 4 (by omega)), hv _ (hle n hn 5 (by omega)),
        hv _ (hle n hn 6 (by omega)), hv _ (hle n hn 7 (by omega)), hv _ (hle n hn 8 (by omega)),
        hv _ (hle n hn 9 (by omega))]
    · intro n hn j hj
      have hn : n < 1 + (table b).counts.sum := by simpa [sampleCount, add_comm] using hn
      rw [← hE.force n hn j hj, decode_force _ _ _ _ hn hj,
        show (decode (closedGenerator b.path dr b.controlIntervalCounts sol handle).vars σ).force _ _ =
          forceOf σ dr.modules.length _ _ from decode_force _ _ _ _ hn hj]
      have hs : stride dr.modules.length = 10 + 2 * dr.modules.length := rfl
      have h1 := hv _ (hle n hn (10 + 2 * j) (by omega))
      have h2 := hv _ (hle n hn (11 + 2 * j) (by omega))
      rw [← Nat.add_assoc] at h1 h2
      rw [forceOf, forceOf, h1, h2]
    · intro s hs
      rw [← hE.dt s hs]
      have hd : (List.range' ((1 + (table b).counts.sum) * stride dr.modules.length) (table b).counts.length).getD s 0 =
          (1 + (table b).counts.sum) * stride dr.modules.length + s := by
        rw [getD_lt (by simpa using hs)]; simp
      change σ ((List.range' ((1 + (table b).counts.sum) * stride dr.modules.length) (table b).counts.length).getD s 0) =
        encode _ _ T ((List.range' _ _).getD s 0)
      rw [hd, hv _ (by omega)]
  exact ⟨_, (feasible_closed b dr sol handle _).mpr ((obeys_congr key).mpr hT), key⟩

/-- From a pose, one more requirement there, and on to the next waypoint. -/
noncomputable def standOps (c : Constraint ℝ) : List (Op ℝ) :=
  [.setDrivetrain demoRobot, .poseWpt 0 0 0 0, .wptConstraint 0 c, .wptInitialGuessPoint 1 originPose,
    .controlIntervalCounts [1]]

theorem stand_table (c : Constraint ℝ) :
    let b := run true (standOps c) Builder.new
    Ready b demoRobot ∧ (table b).counts = [1] ∧ (table b).continuous 0 = [] ∧
    (table b).instant 0 = [.poseEquality 0 0 0, c] ∧ (table b).instant 1 = [] := by
  intro b
  obtain ⟨e, hr⟩ : table b = PathTable.empty.afterAll (standOps c) ∧ Ready b demoRobot := by
    refine ready_of ?_ _ rfl ?_ ?_ ?_ <;>
    simp [standOps, PathTable.AcceptsAll, PathTable.Accepts, PathTable.afterAll, PathTable.after,
      PathTable.empty, PathTable.reach, PathTable.requireAt, PathTable.guessAt, sampleCount]
  refine ⟨hr, ?_⟩
  rw [e]
  simp [standOps, PathTable.afterAll, PathTable.after,
    PathTable.empty, PathTable.reach, PathTable.requireAt, PathTable.guessAt]

/-- Standing still at the origin. -/
noncomputable def standTraj : Traj :=
  ⟨fun _ => ⟨0, unitVec 0, ((0 : ℝ) : ℂ), ((0 : ℝ) : ℂ), 0, 0⟩, fun _ _ => 0, fun _ => 0⟩

theorem stand_obeys (c : Constraint ℝ) (h : Meaning c (standTraj.state 0)) :
    Obeys (table (run true (standOps c) Builder.new)) demoRobot standTraj := by
  obtain ⟨hr, hc, hco, hi0, hi1⟩ := stand_table c
  refine ⟨?_, ?_, ?_, ?_, ?_, ?_⟩
  · intro s _ n _
    exact ⟨by simp [standTraj], .inl (by simp [standTraj, unitVec]), by simp [standTraj], by simp [standTraj]⟩
  · intro n _
    have := demo_dynamics 0 0 0 0 0 0 (by norm_num) (by norm_num)
    simpa [standTraj] using this
  · intro s _; exact le_rfl
  · intro s _ m _ g hg
    rw [demo_gap g hg]
    norm_num [standTraj]
  · rw [hc]
    intro w hw c' hcm
    have hw : w ≤ 1 := hw
    interval_cases w
    · rw [hi0] at hcm
      simp only [List.mem_cons, List.not_mem_nil, or_false] at hcm
      rcases hcm with rfl | rfl
      · exact ⟨by apply Complex.ext <;> simp [vec, standTraj], .inl rfl⟩
      · exact h
    · rw [hi1] at hcm; simp at hcm
  · rw [hc]
    intro s hs c' hcm
    obtain rfl : s = 0 := by simpa using hs
    rw [hco] at hcm
    simp at hcm

/-- At a corner some function of the constraint is not twice continuously differentiable. -/
theorem corner_rough {nv : ℕ} {x : Fin nv → ℝ} {m n : ℕ} (hn : n * stride m + 1 < nv) {c : Constraint ℝ}
    (hM : Meaning c (decodeSample (ofVec x) (sampleVars m n)))
    (h : Corner c (decodeSample (ofVec x) (sampleVars m n))) : ∃ e ∈ c.apply (sampleVars m n),
    ¬ ContDiffAt ℝ 2 (fun y : Fin nv → ℝ => conFun (ofVec y) e) x := by
  have hon : ∀ (r : Translation2 ℝ) (σ : ℕ → ℝ), vec (evalT σ ((sampleVars m n).pose.translation.add
      (r.toV.rotateBy (sampleVars m n).pose.rotation))) = (decodeSample σ (sampleVars m n)).onRobot r := by
    intro r σ
    rw [State.onRobot, Complex.ext_iff]
    simp [vec, evalT, decodeSample, evalVec, Translation2.add, Translation2.rotateBy, Translation2.toV]
  have hmv : ∀ (r : Translation2 ℝ) (u v : ℝ), evalT (ofVec (shift x ⟨n * stride m, by omega⟩ ⟨n * stride m + 1, hn⟩ u v))
      ((sampleVars m n).pose.translation.add (r.toV.rotateBy (sampleVars m n).pose.rotation)) =
      ⟨(evalT (ofVec x) ((sampleVars m n).pose.translation.add (r.toV.rotateBy (sampleVars m n).pose.rotation))).x + u,
       (evalT (ofVec x) ((sampleVars m n).pose.translation.add (r.toV.rotateBy (sampleVars m n).pose.rotation))).y + v⟩ := by
    intro r u v
    simp only [evalT, Translation2.add, Translation2.rotateBy, Translation2.toV, sampleVars, eval_add, eval_sub, eval_mul,
      eval_var, eval_const, shift_at, if_true, Nat.add_eq_left, one_ne_zero, if_false,
      OfNat.ofNat_ne_zero, Nat.add_left_cancel_iff, Nat.reduceEqDiff, Translation2.mk.injEq]
    constructor <;> ring
  cases c with
  | pointAt p tol =>
    obtain ⟨e, he, hk⟩ := facing_kink _ m n p tol h.2 h.1
    exact ⟨e, he, fun hs => rough_of_line (by omega) hn 1 0 hk (hs.of_le (by norm_num))⟩
  | linePoint a b p d =>
    refine ⟨_, List.mem_singleton.mpr rfl, ?_⟩
    refine edge_rough ⟨n * stride m, by omega⟩ ⟨n * stride m + 1, hn⟩ (d := d * d) (ε := -1) (by norm_num)
      (A := evalT (ofVec x) ((sampleVars m n).pose.translation.add (a.toV.rotateBy (sampleVars m n).pose.rotation)))
      (B := evalT (ofVec x) ((sampleVars m n).pose.translation.add (b.toV.rotateBy (sampleVars m n).pose.rotation)))
      (P := p) ?_ ?_ ?_
    · rw [hon, hon]; exact hM.1
    · rw [hon, hon]; exact h
    · intro u v
      simp only [conFun, eval_mul, eval_const, linePointDistance_eval, hmv]
      rw [show evalT _ p.toV = p from rfl, lpd_shift, real_mul, neg_one_mul, neg_one_mul, ← sub_eq_add_neg, ← sub_eq_add_neg]
      ring
  | pointLine r a b d =>
    refine ⟨_, List.mem_singleton.mpr rfl, ?_⟩
    refine edge_rough ⟨n * stride m, by omega⟩ ⟨n * stride m + 1, hn⟩ (d := d * d) (ε := 1) (by norm_num) (A := a) (B := b)
      (P := evalT (ofVec x) ((sampleVars m n).pose.translation.add (r.toV.rotateBy (sampleVars m n).pose.rotation)))
      hM.1 ?_ ?_
    · rw [hon]; exact h
    · intro u v
      simp only [conFun, eval_mul, eval_const, linePointDistance_eval, hmv]
      rw [show evalT _ a.toV = a from rfl, show evalT _ b.toV = b from rfl, real_mul, one_mul, one_mul]
      ring
  | _ => exact h.elim

/-- A segment's constraint is in the problem. -/
theorem sgmt_mem {b : Builder ℝ} {dr : SwerveDrivetrain ℝ} {sol : SwerveSolution ℝ} {handle : ℤ} {s : ℕ}
    (hs : s < (table b).counts.length) {c' : Constraint ℝ} (hc : c' ∈ (table b).continuous s) {n : ℕ}
    (hn : n ∈ segmentSamples (table b).counts s) {c : Con ℝ} (h : c ∈ c'.apply (sampleVars dr.modules.length n)) :
    c ∈ (closedGenerator b.path dr b.controlIntervalCounts sol handle).problem.cons := by
  change _ ∈ allCons b.path dr (table b).counts
  rw [allCons]
  simp only [List.mem_append]
  refine .inr ?_
  rw [sgmtList]
  simp only [List.mem_flatMap, List.mem_range]
  refine ⟨s, hs, c', hc, n, ?_, h⟩
  obtain ⟨k, hk, rfl⟩ := (mem_segmentSamples hs).mp hn
  rw [List.mem_range'_1, getD_lt hs]
  omega

/-- C110 decided: at a feasible assignment everything is twice continuously differentiable exactly if no
constraint of the path is at a corner. -/
theorem C110_exact (b : Builder ℝ) (hb : Reachable b) (dr : SwerveDrivetrain ℝ) (hr : Ready b dr)
    (handle : ℤ) (g : Generator ℝ) (hg : Generator.construct b handle = .ok g)
    (x : Fin g.problem.nvars → ℝ) (hx : g.problem.Feasible (ofVec x)) :
    SmoothAt 2 g.problem x ↔
    (∀ w ≤ (table b).counts.length, ∀ c ∈ (table b).instant w,
      ¬ Corner c ((decode g.vars (ofVec x)).state (waypointSample (table b).counts w))) ∧
    ∀ s < (table b).counts.length, ∀ c ∈ (table b).continuous s, ∀ n ∈ segmentSamples (table b).counts s,
      ¬ Corner c ((decode g.vars (ofVec x)).state n) := by
  refine ⟨fun h => ?_, fun h => C110_smooth_partial b hb dr hr handle g hg x h.1 h.2 2⟩
  obtain ⟨sol, -, -, hcl⟩ := construct_closed hb hr handle
  rw [hg] at hcl
  cases hcl
  have ho := (feasible_closed b dr sol handle _).mp hx
  have hst : ∀ n < 1 + (table b).counts.sum, (decode (closedGenerator b.path dr b.controlIntervalCounts sol handle).vars
      (ofVec x)).state n = decodeSample (ofVec x) (sampleVars dr.modules.length n) :=
    fun n hn => decode_state _ _ _ _ hn
  constructor
  · intro w hw c hc hk
    have hlt : waypointSample (table b).counts w < 1 + (table b).counts.sum := by
      have := sum_take_le (table b).counts w
      rw [waypointSample]; omega
    have hM := ho.instant w hw c hc
    rw [hst _ hlt] at hk hM
    obtain ⟨e, he, hne⟩ := corner_rough (index_lt hlt (by norm_num)) hM hk
    exact hne (h.2 e (wpt_mem hw hc he))
  · intro s hs c hc n hn hk
    have hlt : n < 1 + (table b).counts.sum := by
      obtain ⟨k, hk, rfl⟩ := (mem_segmentSamples hs).mp hn
      have := sum_take_le (table b).counts (s + 1)
      rw [List.sum_take_succ _ _ hs] at this
      omega
    have hM := ho.continuous s hs c hc n hn
    rw [hst _ hlt] at hk hM
    obtain ⟨e, he, hne⟩ := corner_rough (index_lt hlt (by norm_num)) hM hk
    exact hne (h.2 e (sgmt_mem hs hc hn he))

/-- C110 fails at feasible assignments: one path whose problem is not differentiable at a feasible
assignment, and one, with an obstacle's edge, whose problem is not twice differentiable there. -/
theorem C110_refuted :
    (∃ ops g, Generator.construct (run true ops Builder.new) 0 = .ok g ∧
      ∃ x : Fin g.problem.nvars → ℝ, g.problem.Feasible (ofVec x) ∧ ¬ SmoothAt 1 g.problem x) ∧
    ∃ ops g, Generator.construct (run true ops Builder.new) 0 = .ok g ∧
      ∃ x : Fin g.problem.nvars → ℝ, g.problem.Feasible (ofVec x) ∧ ¬ SmoothAt 2 g.problem x ∧
        ∀ op ∈ ops, ∀ w p tol, op ≠ .wptConstraint w (.pointAt p tol) := by
  constructor
  · set c : Constraint ℝ := .pointAt ⟨0, 0⟩ (1 / 10) with hcdef
    obtain ⟨hr, hc, hco, hi0, hi1⟩ := stand_table c
    obtain ⟨g, hg, -, -, -⟩ := C29_problem _ ⟨true, _, rfl⟩ demoRobot hr demo_radius 0
    obtain ⟨x, hx, ha⟩ := vector_of ⟨true, _, rfl⟩ hr hg (stand_obeys c (by
      simp [hcdef, Meaning, standTraj, vec, show (⟨0, 0⟩ : ℂ) = 0 from rfl]))
    refine ⟨_, g, hg, x, hx, C110_facing_refuted _ ⟨true, _, rfl⟩ demoRobot hr 0 g hg 0 (Nat.zero_le _) ⟨0, 0⟩ (1 / 10)
      (Real.cos_pos_of_mem_Ioo ⟨?_, ?_⟩).ne' (by rw [hi0]; simp [hcdef]) x ?_⟩
    · linarith [Real.pi_gt_three]
    · linarith [Real.pi_gt_three]
    · rw [ha.state _ (by simp [sampleCount, waypointSample])]; rfl
  · set c : Constraint ℝ := .pointLine ⟨0, 0⟩ ⟨-1, 1⟩ ⟨0, 1⟩ (1 / 2) with hcdef
    obtain ⟨hr, hc, hco, hi0, hi1⟩ := stand_table c
    obtain ⟨g, hg, -, -, -⟩ := C29_problem _ ⟨true, _, rfl⟩ demoRobot hr demo_radius 0
    have hon : ∀ k, (standTraj.state k).onRobot ⟨0, 0⟩ = 0 := by
      intro k
      simp [standTraj, State.onRobot, vec, show (⟨0, 0⟩ : ℂ) = 0 from rfl]
    obtain ⟨x, hx, ha⟩ := vector_of ⟨true, _, rfl⟩ hr hg (stand_obeys c (by
      refine ⟨by simp [vec], ?_⟩
      intro q hq
      rw [hon]
      obtain ⟨s, -, -, rfl⟩ := mem_segment_mk.mp hq
      rw [dist_zero_right, ← Complex.normSq_eq_norm_sq, Complex.normSq_mk]
      norm_num [vec]
      nlinarith [mul_self_nonneg (-1 + s)]))
    refine ⟨_, g, hg, x, hx, fun hs => ?_, ?_⟩
    · refine ((C110_exact _ ⟨true, _, rfl⟩ demoRobot hr 0 g hg x hx).mp hs).1 0 (Nat.zero_le _) c (by rw [hi0]; simp) ?_
      rw [ha.state _ (by simp [sampleCount, waypointSample]), hcdef]
      refine .inr ?_
      rw [hon]
      simp [vec]
    · simp [standOps, hcdef]

/-- A path with a point to face, and a feasible assignment away from it: there everything is smooth. -/
example : ∃ g, Generator.construct (run true (standOps (.pointAt ⟨1, 0⟩ (1 / 10))) Builder.new) 0 = .ok g ∧
    ∃ x : Fin g.problem.nvars → ℝ, g.problem.Feasible (ofVec x) ∧ SmoothAt 2 g.problem x := by
  obtain ⟨hr, hc, hco, hi0, hi1⟩ := stand_table (.pointAt ⟨1, 0⟩ (1 / 10))
  obtain ⟨g, hg, -, -, -⟩ := C29_problem _ ⟨true, _, rfl⟩ demoRobot hr demo_radius 0
  obtain ⟨x, hx, ha⟩ := vector_of ⟨true, _, rfl⟩ hr hg (stand_obeys (.pointAt ⟨1, 0⟩ (1 / 10)) (by
    simp [Meaning, standTraj, vec, unitVec, show (⟨1, 0⟩ : ℂ) = 1 from rfl, Real.cos_le_one]))
  refine ⟨g, hg, x, hx, C110_smooth_partial _ ⟨true, _, rfl⟩ demoRobot hr 0 g hg x ?_ ?_ 2⟩
  · intro w hw c hcm
    have hw : w ≤ 1 := by rw [hc] at hw; simpa using hw
    interval_cases w
    · rw [hi0] at hcm
      simp only [List.mem_cons, List.not_mem_nil, or_false] at hcm
      rcases hcm with rfl | rfl
      · exact fun h => h
      · rw [ha.state _ (by simp [sampleCount, waypointSample])]
        simp [Corner, standTraj, vec, Complex.ext_iff]
    · rw [hi1] at hcm; simp at hcm
  · intro s hs c hcm
    obtain rfl : s = 0 := by rw [hc] at hs; simpa using hs
    rw [hco] at hcm
    simp at hcm

end Trajopt.Props
