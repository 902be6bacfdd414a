import Verif.Lemmas.Gradient
import Verif.Props.Backwards

/-!
# C109: are the equality constraints independent?
-/

set_option autoImplicit false

namespace Trajopt.Props

open Spec

theorem independent_mem {p : Con ℝ → Prop} {cs : List (Con ℝ)} {σ : ℕ → ℝ}
    (h : Independent p cs σ) (f : Con ℝ → ℝ) : ∃ d, ∀ c ∈ cs, Row p σ d c (f c) := by
  obtain ⟨d, hd⟩ := h (cs.map f) (by simp)
  rw [List.forall₂_map_right_iff, List.forall₂_same] at hd
  exact ⟨d, hd⟩

theorem independent_sublist {p : Con ℝ → Prop} {cs cs' : List (Con ℝ)} {σ : ℕ → ℝ} (hs : cs'.Sublist cs)
    (h : Independent p cs σ) : Independent p cs' σ := by
  intro vs' hl
  obtain ⟨vs, hv, hd⟩ : ∃ vs : List ℝ, vs.length = cs.length ∧ ∀ d,
      List.Forall₂ (Row p σ d) cs vs → List.Forall₂ (Row p σ d) cs' vs' := by
    clear h
    induction hs generalizing vs' with
    | slnil => exact ⟨vs', hl, fun _ => id⟩
    | cons c _ ih =>
      obtain ⟨vs, h1, h2⟩ := ih vs' hl
      refine ⟨0 :: vs, by simp [h1], fun d hd => ?_⟩
      cases hd
      exact h2 d ‹_›
    | cons_cons c _ ih =>
      cases vs' with
      | nil => simp at hl
      | cons v vs' =>
        obtain ⟨vs, h1, h2⟩ := ih vs' (by simpa using hl)
        refine ⟨v :: vs, by simp [h1], fun d hd => ?_⟩
        cases hd
        exact .cons ‹_› (h2 d ‹_›)
  obtain ⟨d, h⟩ := h vs hv
  exact ⟨d, hd d h⟩

/-- The generated constraints, in closed form. -/
theorem cons_closed {b : Builder ℝ} {dr : SwerveDrivetrain ℝ} (hb : Reachable b) (hr : Ready b dr)
    {handle : ℤ} {g : Generator ℝ} (hg : Generator.construct b handle = .ok g) :
    g.problem.cons = allCons b.path dr (table b).counts := by
  obtain ⟨sol, -, -, hc⟩ := construct_closed hb hr handle
  rw [hg] at hc
  cases hc
  rfl

theorem kin_mem {path : SwervePath ℝ} {dr : SwerveDrivetrain ℝ} {N : List ℕ} {n : ℕ}
    (h1 : 1 ≤ n) (h2 : n ≤ N.sum) : ∃ dt, ∀ c ∈ kinCons (sampleVars dr.modules.length (n - 1))
      (sampleVars dr.modules.length n) (.var dt), c ∈ allCons path dr N := by
  rcases sample_between N 0 N.length n (Nat.zero_le _) (by
    simpa [waypointSample] using h2) with e | ⟨s, -, -, hs, hn⟩
  · have : waypointSample N 0 = 0 := rfl
    omega
  · obtain ⟨k, hk, rfl⟩ := (mem_segmentSamples hs).mp hn
    refine ⟨(List.range' ((1 + N.sum) * stride dr.modules.length) N.length).getD s 0, fun c hc => ?_⟩
    rw [allCons]
    simp only [List.mem_append]
    refine .inl <| .inl <| .inl <| .inr ?_
    rw [kinList]
    simp only [List.mem_flatMap, List.mem_range]
    refine ⟨s, hs, k, by rwa [getD_lt hs], ?_⟩
    rw [show (N.take s).sum + 1 + k - 1 = (N.take s).sum + k by omega] at hc
    exact hc

/-- C109 fails wherever there is a control interval: `operator==` for rotations demands unit length of
both operands, and the right-hand operand there is `Rotation2v{ω dt}`, so
`cos²(ω dt) + sin²(ω dt) = 1` is among the constraints; its gradient is zero. -/
theorem C109_refuted (b : Builder ℝ) (hb : Reachable b) (dr : SwerveDrivetrain ℝ) (hr : Ready b dr)
    (handle : ℤ) (g : Generator ℝ) (hg : Generator.construct b handle = .ok g)
    (hN : 0 < (table b).counts.sum) (σ : ℕ → ℝ) :
    ¬ Independent (fun _ => True) g.problem.cons σ := by
  rw [cons_closed hb hr hg]
  intro h
  obtain ⟨d, hd⟩ := independent_mem h fun _ => 1
  obtain ⟨dt, hm⟩ := kin_mem (path := b.path) (dr := dr) (le_refl 1) hN
  have := row_of (hd _ (hm (.eq _ _) (by
    simp only [kinCons, Rotation2.eqCons, List.mem_append]
    exact .inl <| .inl <| .inr <| .inr (by
      simp only [if_true, List.mem_singleton]; rfl)))) trivial ?_ ?_
  · simp only [Rotation2.ofAngle, tangent_add, tangent_mul, tangent_sin, tangent_cos, tangent_lit,
      eval_sin, eval_cos] at this
    linarith
  · exact ⟨⟨⟨trivial, trivial⟩, trivial, trivial⟩, ⟨trivial, trivial⟩, trivial, trivial⟩
  · exact trivial

/-- Unit length of the heading at a sample. -/
noncomputable def headRow (m n : ℕ) : Con ℝ :=
  .eq ((sampleVars m n).pose.rotation.cos * (sampleVars m n).pose.rotation.cos +
    (sampleVars m n).pose.rotation.sin * (sampleVars m n).pose.rotation.sin) (Num.lit 1)

/-- Unit length of the turn between two samples. -/
noncomputable def turnRow (m n : ℕ) : Con ℝ :=
  .eq (((sampleVars m n).pose.rotation.sub (sampleVars m (n - 1)).pose.rotation).cos *
      ((sampleVars m n).pose.rotation.sub (sampleVars m (n - 1)).pose.rotation).cos +
    ((sampleVars m n).pose.rotation.sub (sampleVars m (n - 1)).pose.rotation).sin *
      ((sampleVars m n).pose.rotation.sub (sampleVars m (n - 1)).pose.rotation).sin) (Num.lit 1)

theorem headRow_mem {b : Builder ℝ} {dr : SwerveDrivetrain ℝ} {w : ℕ} (hw : w ≤ (table b).counts.length)
    {x y θ : ℝ} (h : .poseEquality x y θ ∈ (table b).instant w) :
    headRow dr.modules.length (waypointSample (table b).counts w) ∈ allCons b.path dr (table b).counts := by
  rw [allCons]
  simp only [List.mem_append]
  refine .inl <| .inr ?_
  rw [wptList]
  simp only [List.mem_flatMap, List.mem_range]
  refine ⟨w, by omega, _, h, ?_⟩
  simp only [Constraint.apply, Pose2.eqCons, Rotation2.eqCons, List.mem_append]
  exact .inr <| .inl <| .inr (by simp only [if_true, List.mem_singleton]; rfl)

theorem turnRow_mem {path : SwervePath ℝ} {dr : SwerveDrivetrain ℝ} {N : List ℕ} {n : ℕ}
    (h1 : 1 ≤ n) (h2 : n ≤ N.sum) : turnRow dr.modules.length n ∈ allCons path dr N := by
  obtain ⟨dt, hm⟩ := kin_mem (path := path) (dr := dr) h1 h2
  refine hm _ ?_
  simp only [kinCons, Rotation2.eqCons, List.mem_append]
  exact .inl <| .inl <| .inr <| .inl <| .inr (by simp only [if_true, List.mem_singleton]; rfl)

theorem headRow_ne (m n : ℕ) : ¬ Identity (headRow m n) := by
  intro h
  have := (h fun _ => 0).2.2
  simp [sampleVars] at this

theorem turnRow_ne (m n : ℕ) : ¬ Identity (turnRow m n) := by
  intro h
  have := (h fun _ => 0).2.2
  simp [sampleVars, Rotation2.sub, Rotation2.add, Rotation2.neg, Rotation2.rotateBy] at this

/-- C109 fails also apart from the identities, and in the most common use: when two waypoints
prescribe a pose, the unit length of the later heading is implied by that of the earlier one and of
the turns in between. -/
theorem C109_poses_refuted (b : Builder ℝ) (hb : Reachable b) (dr : SwerveDrivetrain ℝ) (hr : Ready b dr)
    (handle : ℤ) (g : Generator ℝ) (hg : Generator.construct b handle = .ok g)
    (i j : ℕ) (hj : j ≤ (table b).counts.length) (x y θ x' y' θ' : ℝ)
    (hi : .poseEquality x y θ ∈ (table b).instant i) (hi' : .poseEquality x' y' θ' ∈ (table b).instant j)
    (hij : waypointSample (table b).counts i < waypointSample (table b).counts j)
    (σ : ℕ → ℝ) (hσ : g.problem.Feasible σ) :
    ¬ Independent (fun c => ¬ Identity c) g.problem.cons σ := by
  rw [Problem.Feasible] at hσ
  rw [cons_closed hb hr hg] at hσ ⊢
  set N := (table b).counts with hN
  set m := dr.modules.length with hm
  have hile : i ≤ N.length := by
    by_contra hc
    have e : waypointSample N i = N.sum := by
      rw [waypointSample, List.take_of_length_le (by omega)]
    have := sum_take_le N j
    rw [waypointSample, waypointSample] at hij
    rw [waypointSample] at e
    omega
  intro h
  obtain ⟨d, hd⟩ := independent_mem h fun c => if c = headRow m (waypointSample N j) then 1 else 0
  -- lengths of the headings
  let q : ℕ → ℝ := fun n => σ (n * stride m + 2) * σ (n * stride m + 2) + σ (n * stride m + 3) * σ (n * stride m + 3)
  let r : ℕ → ℝ := fun n => σ (n * stride m + 2) * d (n * stride m + 2) + σ (n * stride m + 3) * d (n * stride m + 3)
  have hq0 : q (waypointSample N i) = 1 := by
    have := (hσ _ (headRow_mem (dr := dr) hile hi)).2.2
    simpa [sampleVars, q] using this
  have hr0 : r (waypointSample N i) = 0 := by
    have := hd _ (headRow_mem (dr := dr) hile hi)
    rw [if_neg (by
      intro e
      simp only [headRow, sampleVars] at e
      injection e with e _
      injection e with e _
      injection e with e _
      injection e with e
      have := Nat.eq_of_mul_eq_mul_right (by simp [stride]) (Nat.add_right_cancel e)
      change waypointSample N i = waypointSample N j at this
      omega)] at this
    have := row_of this (headRow_ne _ _) ⟨⟨trivial, trivial⟩, trivial, trivial⟩ trivial
    simp only [sampleVars, tangent_add, tangent_mul, tangent_var, tangent_lit, eval_var] at this
    simp only [r]
    linarith
  have hstep : ∀ n, waypointSample N i ≤ n → n ≤ waypointSample N j → q n = 1 ∧ r n = 0 := by
    intro n hn
    induction n, hn using Nat.le_induction with
    | base => exact fun _ => ⟨hq0, hr0⟩
    | succ n hn ih =>
      intro hle
      obtain ⟨ih1, ih2⟩ := ih (by omega)
      have hmem := turnRow_mem (path := b.path) (dr := dr) (N := N) (n := n + 1) (by omega) (by
        have := sum_take_le N j
        rw [waypointSample] at hle
        omega)
      have h1 := (hσ _ hmem).2.2
      have h2 := hd _ hmem
      rw [if_neg (by
        intro e
        simp only [turnRow, headRow, sampleVars] at e
        injection e with e _
        injection e with e _
        injection e with e _
        cases e)] at h2
      have h2 := row_of h2 (turnRow_ne _ _) ⟨⟨⟨⟨trivial, trivial⟩, trivial, trivial⟩, ⟨trivial, trivial⟩, trivial, trivial⟩,
        ⟨⟨trivial, trivial⟩, trivial, trivial⟩, ⟨trivial, trivial⟩, trivial, trivial⟩ trivial
      simp only [sampleVars, Rotation2.sub, Rotation2.add, Rotation2.neg, Rotation2.rotateBy,
        tangent_add, tangent_sub, tangent_mul, tangent_neg, tangent_var, tangent_lit, eval_add,
        eval_sub, eval_mul, eval_neg, eval_var, eval_lit, Rat.cast_one, Nat.add_sub_cancel] at h1 h2
      have e1 : q (n + 1) * q n = 1 := by
        simp only [q]
        linear_combination h1
      rw [ih1, mul_one] at e1
      refine ⟨e1, ?_⟩
      have e2 : r (n + 1) * q n + q (n + 1) * r n = 0 := by
        simp only [q, r]
        linear_combination h2 / 2
      rw [ih1, ih2] at e2
      linarith
  have := hd _ (headRow_mem (dr := dr) hj hi')
  rw [if_pos rfl] at this
  have := row_of this (headRow_ne _ _) ⟨⟨trivial, trivial⟩, trivial, trivial⟩ trivial
  simp only [sampleVars, tangent_add, tangent_mul, tangent_var, tangent_lit, eval_var] at this
  have h0 := (hstep _ hij.le le_rfl).2
  simp only [r, hm] at h0
  linarith

/-- Nor does it hold where a direction of travel is prescribed: the constraint says `(v · u)² = |v|²`,
a square that vanishes, so wherever it is satisfied its gradient is zero. -/
theorem C109_direction_refuted (b : Builder ℝ) (hb : Reachable b) (dr : SwerveDrivetrain ℝ)
    (hr : Ready b dr) (handle : ℤ) (g : Generator ℝ) (hg : Generator.construct b handle = .ok g)
    (angle : ℝ)
    (h : (∃ w ≤ (table b).counts.length, .linearVelocityDirection angle ∈ (table b).instant w) ∨
      ∃ s, ∃ hs : s < (table b).counts.length, 0 < (table b).counts[s] ∧
        .linearVelocityDirection angle ∈ (table b).continuous s)
    (σ : ℕ → ℝ) (hσ : g.problem.Feasible σ) :
    ¬ Independent (fun c => ¬ Identity c) g.problem.cons σ := by
  rw [Problem.Feasible] at hσ
  rw [cons_closed hb hr hg] at hσ ⊢
  obtain ⟨n, hn⟩ : ∃ n, ∀ c ∈ (Constraint.linearVelocityDirection angle).apply
      (sampleVars dr.modules.length n), c ∈ allCons b.path dr (table b).counts := by
    rcases h with ⟨w, hw, h⟩ | ⟨s, hs, h0, h⟩
    · refine ⟨((table b).counts.take w).sum, fun c hc => ?_⟩
      rw [allCons]
      simp only [List.mem_append]
      refine .inl <| .inr ?_
      rw [wptList]
      simp only [List.mem_flatMap, List.mem_range]
      exact ⟨w, by omega, _, h, hc⟩
    · refine ⟨1 + ((table b).counts.take s).sum, fun c hc => ?_⟩
      rw [allCons]
      simp only [List.mem_append]
      refine .inr ?_
      rw [sgmtList]
      simp only [List.mem_flatMap, List.mem_range]
      refine ⟨s, hs, _, h, _, ?_, hc⟩
      rw [List.mem_range'_1, getD_lt hs]
      omega
  intro hI
  obtain ⟨d, hd⟩ := independent_mem hI fun _ => 1
  have hmem := hn _ (List.mem_singleton.mpr rfl)
  have h1 := (hσ _ hmem).2.2
  have h2 := row_of (hd _ hmem) ?_ ?_ ?_
  · simp only [Translation2.dot, Translation2.squaredNorm, Rotation2.ofAngle, sampleVars, eval_add, eval_mul,
      eval_var, eval_const, tangent_add, tangent_mul, tangent_var, tangent_const, real_sin, real_cos] at h1 h2
    generalize σ (n * stride dr.modules.length + 4) = x at *
    generalize σ (n * stride dr.modules.length + 5) = y at *
    generalize d (n * stride dr.modules.length + 4) = x' at *
    generalize d (n * stride dr.modules.length + 5) = y' at *
    have hu := Real.cos_sq_add_sin_sq angle
    generalize Real.cos angle = c at *
    generalize Real.sin angle = s at *
    have hz : x * s - y * c = 0 := by
      have : (x * s - y * c) ^ 2 = 0 := by linear_combination (x ^ 2 + y ^ 2) * hu - h1
      exact pow_eq_zero_iff (two_ne_zero) |>.mp this
    have : (0 : ℝ) = 1 := by
      linear_combination h2 - 2 * (x * x' + y * y') * hu + 2 * (x' * s - y' * c) * hz
    norm_num at this
  · intro hid
    have := (hid fun i => if i = n * stride dr.modules.length + 4 then -Real.sin angle else
      if i = n * stride dr.modules.length + 5 then Real.cos angle else 0).2.2
    simp [Translation2.dot, Translation2.squaredNorm, Rotation2.ofAngle, sampleVars] at this
    have hu := Real.cos_sq_add_sin_sq angle
    nlinarith
  · exact ⟨⟨⟨trivial, trivial⟩, trivial, trivial⟩, ⟨trivial, trivial⟩, trivial, trivial⟩
  · exact ⟨⟨trivial, trivial⟩, trivial, trivial⟩

theorem samples_unique {N : List ℕ} {s k s' k' : ℕ} (hs : s < N.length) (hk : k < N.getD s 0)
    (hs' : s' < N.length) (hk' : k' < N.getD s' 0) (h : (N.take s).sum + k = (N.take s').sum + k') :
    s = s' ∧ k = k' := by
  have mono : ∀ a b, a < b → a < N.length → (N.take a).sum + N.getD a 0 ≤ (N.take b).sum := by
    intro a b hab ha
    rw [getD_lt ha, ← List.sum_take_succ _ _ ha]
    have := sum_take_le (N.take b) (a + 1)
    rwa [List.take_take, min_eq_left (by omega)] at this
  rcases lt_trichotomy s s' with hlt | rfl | hlt
  · have := mono s s' hlt hs; omega
  · exact ⟨rfl, by omega⟩
  · have := mono s' s hlt hs'; omega

theorem length_eight {l : List ℝ} (h : l.length = 8) :
    l = [l.getD 0 0, l.getD 1 0, l.getD 2 0, l.getD 3 0, l.getD 4 0, l.getD 5 0, l.getD 6 0, l.getD 7 0] := by
  match l, h with
  | [_, _, _, _, _, _, _, _], _ => rfl

theorem powerList_ne (m n : ℕ) (mods : List (SwerveModule ℝ)) (i : ℕ) :
    ∀ c ∈ powerList m n mods i, ∀ a b : Expr ℝ, c ≠ .eq a b := by
  induction mods generalizing i with
  | nil => simp [powerList]
  | cons md rest ih =>
    intro c hc a b
    rw [powerList, List.mem_append] at hc
    rcases hc with hc | hc
    · simp only [powerCons, List.mem_cons, List.not_mem_nil, or_false] at hc
      rcases hc with rfl | rfl <;> simp
    · exact ih _ c hc a b

/-- The rows of one sample. -/
theorem dyn_rows {p : Con ℝ → Prop} {σ d : ℕ → ℝ} {dr : SwerveDrivetrain ℝ} {n : ℕ} {vs : List ℝ}
    (hl : vs.length = (powerList dr.modules.length n dr.modules 0).length) (x y t : ℝ)
    (hacc : (decodeSample d (sampleVars dr.modules.length n)).acc = 0)
    (hal : (decodeSample d (sampleVars dr.modules.length n)).alpha = 0)
    (hf : ∑ k : Fin dr.modules.length, forceOf d dr.modules.length n k = ⟨x, y⟩)
    (ht : ∑ k : Fin dr.modules.length,
      torque (lever (decodeSample σ (sampleVars dr.modules.length n)) dr.modules[k])
        (forceOf d dr.modules.length n k) = t - ∑ k : Fin dr.modules.length,
      torque (lever (decodeSample d (sampleVars dr.modules.length n)) dr.modules[k])
        (forceOf σ dr.modules.length n k)) :
    List.Forall₂ (Row p σ d) (dynCons dr n) (vs ++ [x, y, t]) := by
  have hx := accumulate_tangent σ d (fun j => n * stride dr.modules.length + 10 + 2 * j) dr.modules.length
  have hy := accumulate_tangent σ d (fun j => n * stride dr.modules.length + 11 + 2 * j) dr.modules.length
  have htq := torqueExpr_tangent σ d dr.modules.length n dr.modules 0 (Num.lit 0) trivial
  rw [Complex.ext_iff, Complex.re_sum, Complex.im_sum] at hf
  simp only [decodeSample, evalVec, sampleVars, eval_var, Complex.ext_iff, Complex.zero_re,
    Complex.zero_im] at hacc hal
  simp only [forceOf] at hf
  refine forall₂_append (forall₂_const (powerList_ne _ _ _ _) hl) ?_
  refine .cons (row_eq hx.1 ⟨trivial, trivial⟩ ?_) <| .cons (row_eq hy.1 ⟨trivial, trivial⟩ ?_) <|
    .cons (row_eq htq.1 ⟨trivial, trivial⟩ ?_) .nil
  · rw [hx.2, hf.1]
    simp [sampleVars, hacc.1]
  · rw [hy.2, hf.2]
    simp [sampleVars, hacc.2]
  · have e : (Expr.const dr.moi * (sampleVars dr.modules.length n).angularAcceleration).tangent σ d = 0 := by
      simp [sampleVars, hal]
    rw [htq.2, e, Finset.sum_add_distrib]
    simp only [Nat.zero_add, tangent_lit]
    rw [ht]
    ring

/-- C109, the positive part: apart from identities, the equations of motion are independent of one
another and of the prescribed start (a pose, and possibly standing still), at every feasible
assignment, if two modules are at different places.  Later waypoints: `C109_stops_partial` (two poses are
dependent, `C109_poses_refuted`). -/
theorem C109_start_partial (b : Builder ℝ) (hb : Reachable b) (dr : SwerveDrivetrain ℝ) (hr : Ready b dr)
    (handle : ℤ) (g : Generator ℝ) (hg : Generator.construct b handle = .ok g)
    (x y θ : ℝ) (cs : List (Constraint ℝ)) (h0 : (table b).instant 0 = .poseEquality x y θ :: cs)
    (hcs : cs.Sublist [.linearVelocityMaxMagnitude 0, .angularVelocityMaxMagnitude 0])
    (hi : ∀ w, 0 < w → w ≤ (table b).counts.length → (table b).instant w = [])
    (hc : ∀ s < (table b).counts.length, (table b).continuous s = [])
    (i j : Fin dr.modules.length) (hij : dr.modules[i].translation ≠ dr.modules[j].translation)
    (σ : ℕ → ℝ) (hσ : g.problem.Feasible σ) :
    Independent (fun c => ¬ Identity c) g.problem.cons σ := by
  have hob : Obeys (table b) dr (decode g.vars σ) := by
    obtain ⟨sol, -, -, hcl⟩ := construct_closed hb hr handle
    rw [hg] at hcl
    cases hcl
    exact (feasible_closed b dr sol handle σ).mp hσ
  have hvars : g.vars = closedVars dr.modules.length (1 + (table b).counts.sum)
      (List.range' ((1 + (table b).counts.sum) * stride dr.modules.length) (table b).counts.length) := by
    obtain ⟨sol, -, -, hcl⟩ := construct_closed hb hr handle
    rw [hg] at hcl
    cases hcl
    rfl
  have hforce := fun s hs f t => force_step dr hij s hs f t
  clear hij i j
  rw [cons_closed hb hr hg]
  rw [hvars] at hob
  set N := (table b).counts with hN
  set m := dr.modules.length with hm
  set dts := List.range' ((1 + N.sum) * stride m) N.length with hdts
  -- the states at the samples
  have hst : ∀ n < 1 + N.sum, (decode (closedVars m (1 + N.sum) dts) σ).state n =
      decodeSample σ (sampleVars m n) := fun n hn => decode_state _ _ _ _ hn
  let st : ℕ → State := fun n => decodeSample σ (sampleVars m n)
  have hlt : ∀ {s k}, s < N.length → k < N.getD s 0 → (N.take s).sum + 1 + k < 1 + N.sum := by
    intro s k hs hk
    rw [getD_lt hs] at hk
    have := sum_take_le N (s + 1)
    rw [List.sum_take_succ _ _ hs] at this
    omega
  have hint : ∀ s k, s < N.length → k < N.getD s 0 →
      Interval (σ (dts.getD s 0)) (st ((N.take s).sum + k)) (st ((N.take s).sum + 1 + k)) := by
    intro s k hs hk
    have := hob.interval s hs ((N.take s).sum + 1 + k) ((mem_segmentSamples hs).mpr
      ⟨k, by rwa [getD_lt hs] at hk, rfl⟩)
    rw [hst _ (hlt hs hk), show (N.take s).sum + 1 + k - 1 = (N.take s).sum + k by omega,
      hst _ (by have := hlt hs hk; omega)] at this
    exact this
  have hpose : (st 0).heading = unitVec θ ∨ (st 0).heading = -unitVec θ := by
    have := hob.instant 0 (Nat.zero_le _) (.poseEquality x y θ) (by rw [h0]; simp)
    rw [show waypointSample (table b).counts 0 = 0 from rfl, hst 0 (by omega)] at this
    exact this.2
  have hhead : ∀ n < 1 + N.sum, (st n).heading ≠ 0 := by
    intro n hn
    rcases sample_between N 0 N.length n (Nat.zero_le _) (by
      have : waypointSample N N.length = N.sum := by simp [waypointSample]
      omega) with e | ⟨s, -, -, hs, hns⟩
    · have : waypointSample N 0 = 0 := rfl
      rw [e, this]
      rcases hpose with h | h <;> rw [h] <;> simp [unitVec]
    · obtain ⟨k, hk, rfl⟩ := (mem_segmentSamples hs).mp hns
      have := (hint s k hs (by rwa [getD_lt hs])).turn
      intro h
      rw [h, zero_mul] at this
      rcases this with h | h
      · exact Complex.exp_ne_zero _ h.symm
      · exact Complex.exp_ne_zero _ (neg_eq_zero.mp h.symm)
  -- the list of constraints, with the full start
  have hsub : (allCons b.path dr N).Sublist (dts.flatMap (fun dt => dr.modules.map (stepCap (minWidth dr.modules) dt))
      ++ (dts.zip N).map (fun x => .ge (.var x.1) (Num.lit 0)) ++ kinList m N dts
      ++ (List.range (1 + N.sum)).flatMap (dynCons dr)
      ++ ([.poseEquality x y θ, .linearVelocityMaxMagnitude 0, .angularVelocityMaxMagnitude 0] :
          List (Constraint ℝ)).flatMap fun c => c.apply (sampleVars m 0)) := by
    have e1 : sgmtList m b.path N = [] := by
      rw [sgmtList, List.flatMap_eq_nil_iff]
      intro s hs
      rw [List.mem_range] at hs
      have := hc s hs
      change (b.path.waypoints.getD (s + 1) {}).segmentConstraints = [] at this
      rw [this]; rfl
    have e2 : wptList m b.path N = (Constraint.poseEquality x y θ :: cs).flatMap
        fun c => c.apply (sampleVars m 0) := by
      rw [wptList, Nat.add_comm, List.range_succ_eq_map, List.flatMap_cons]
      have h0' : (b.path.waypoints.getD 0 {}).waypointConstraints = .poseEquality x y θ :: cs := h0
      rw [h0', List.flatMap_eq_nil_iff (l := List.map Nat.succ _) |>.mpr, List.append_nil]
      · rfl
      · intro w hw
        rw [List.mem_map] at hw
        obtain ⟨w, hw, rfl⟩ := hw
        rw [List.mem_range] at hw
        have := hi (w + 1) (by omega) (by omega)
        change (b.path.waypoints.getD (w + 1) {}).waypointConstraints = [] at this
        rw [this]; rfl
    rw [allCons, ← hm, e1, e2, List.append_nil]
    refine List.Sublist.append (List.Sublist.refl _) ?_
    exact (List.Sublist.cons_cons _ hcs).flatMap _
  refine independent_sublist hsub ?_
  intro vs hvs
  obtain ⟨vs₁, wv, hvs₁, hwv, rfl⟩ := split_append hvs
  obtain ⟨vs₂, dv, hvs₂, hdv, rfl⟩ := split_append hvs₁
  obtain ⟨av, kv, hav, hkv, rfl⟩ := split_append hvs₂
  obtain ⟨gs, hgs, rfl⟩ := split_flatMap _ hkv
  obtain ⟨gd, hgd, rfl⟩ := split_flatMap _ hdv
  have hgk : ∀ s, ∃ gk : ℕ → List ℝ, s < N.length → (∀ k < N.getD s 0, (gk k).length = 8) ∧
      gs s = (List.range (N.getD s 0)).flatMap gk := by
    intro s
    by_cases hs : s < N.length
    · obtain ⟨gk, h1, h2⟩ := split_flatMap _ (hgs s hs)
      exact ⟨gk, fun _ => ⟨h1, h2⟩⟩
    · exact ⟨fun _ => [], fun h => (hs h).elim⟩
  choose gk hgk using hgk
  have hgd' : ∀ n, ∃ (pre : List ℝ) (x y t : ℝ), n < 1 + N.sum →
      pre.length = (powerList m n dr.modules 0).length ∧ gd n = pre ++ [x, y, t] := by
    intro n
    by_cases hn : n < 1 + N.sum
    · have := hgd n hn
      rw [dynCons] at this
      obtain ⟨pre, post, h1, h2, h3⟩ := split_append this
      match post, h2 with
      | [x, y, t], _ => exact ⟨pre, x, y, t, fun _ => ⟨h1, h3⟩⟩
    · exact ⟨[], 0, 0, 0, fun h => (hn h).elim⟩
  choose pre fx fy ft hgd' using hgd'
  -- the start
  have hz : Dbl.eq (0 : ℝ) (Num.lit 0) = true := by simp
  obtain ⟨w0, w1, w2, w3, w4, w5, w6, rfl⟩ : ∃ w0 w1 w2 w3 w4 w5 w6, wv = [w0, w1, w2, w3, w4, w5, w6] := by
    have : wv.length = 7 := by
      rw [hwv]
      simp only [List.flatMap_cons, List.flatMap_nil, Constraint.apply, hz, if_true]
      rfl
    match wv, this with
    | [w0, w1, w2, w3, w4, w5, w6], _ => exact ⟨w0, w1, w2, w3, w4, w5, w6, rfl⟩
  obtain ⟨dh, hd1, hd2⟩ := turn_step (a := 1) (b := (st 0).heading) (r := unitVec θ)
    (by simpa using hpose) (by
      rw [unitVec, Complex.normSq_eq_norm_sq, Complex.norm_exp_ofReal_mul_I]; norm_num) 0 0 w2 w3
  -- the later samples
  have hnext : ∀ (n : ℕ) (p : State), ∃ q : State, q.acc = 0 ∧ q.alpha = 0 ∧
      ∀ s k, s < N.length → k < N.getD s 0 → n = (N.take s).sum + k →
        KinRates (σ (dts.getD s 0)) (st n) (st (n + 1)) p q fun i => (gk s k).getD i 0 := by
    intro n p
    by_cases h : ∃ s k, s < N.length ∧ k < N.getD s 0 ∧ n = (N.take s).sum + k
    · obtain ⟨s, k, hs, hk, rfl⟩ := h
      have hI := hint s k hs hk
      rw [Nat.add_right_comm] at hI
      obtain ⟨q, h1, h2, h3⟩ := kin_step hI p 0 0 fun i => (gk s k).getD i 0
      refine ⟨q, h1, h2, fun s' k' hs' hk' e => ?_⟩
      obtain ⟨rfl, rfl⟩ := samples_unique hs hk hs' hk' e
      exact h3
    · exact ⟨⟨0, 0, 0, 0, 0, 0⟩, rfl, rfl, fun s k hs hk e => (h ⟨s, k, hs, hk, e⟩).elim⟩
  choose next hna hnal hnk using hnext
  let D : ℕ → State := fun n => Nat.rec ⟨⟨w0, w1⟩, dh, ⟨w4, w5⟩, 0, w6, 0⟩ (fun n p => next n p) n
  have hDacc : ∀ n, (D n).acc = 0 ∧ (D n).alpha = 0 := by
    intro n
    cases n with
    | zero => exact ⟨rfl, rfl⟩
    | succ n => exact ⟨hna _ _, hnal _ _⟩
  have hF : ∀ n, ∃ F : ℕ → ℂ, n < 1 + N.sum → ∑ k : Fin m, F k = ⟨fx n, fy n⟩ ∧
      ∑ k : Fin m, torque (lever (st n) dr.modules[k]) (F k) = ft n -
        ∑ k : Fin m, torque (lever (D n) dr.modules[k]) (forceOf σ m n k) := by
    intro n
    by_cases hn : n < 1 + N.sum
    · obtain ⟨F, h⟩ := hforce (st n) (hhead n hn) ⟨fx n, fy n⟩ (ft n -
        ∑ k : Fin m, torque (lever (D n) dr.modules[k]) (forceOf σ m n k))
      exact ⟨F, fun _ => h⟩
    · exact ⟨fun _ => 0, fun h => (hn h).elim⟩
  choose F hF using hF
  have hag := encode_decode m (1 + N.sum) N.length ⟨D, F, fun _ => 0⟩
  refine ⟨encode m (1 + N.sum) ⟨D, F, fun _ => 0⟩, ?_⟩
  generalize encode m (1 + N.sum) ⟨D, F, fun _ => 0⟩ = d at hag
  have hdst : ∀ n < 1 + N.sum, decodeSample d (sampleVars m n) = D n := by
    intro n hn
    rw [← decode_state m (1 + N.sum) (List.range' ((1 + N.sum) * stride m) N.length) d hn]
    exact hag.state n hn
  have hdf : ∀ n < 1 + N.sum, ∀ k < m, forceOf d m n k = F n k := by
    intro n hn k hk
    rw [← decode_force m (1 + N.sum) (List.range' ((1 + N.sum) * stride m) N.length) d hn hk]
    exact hag.force n hn k hk
  have hddt : ∀ s < N.length, d (dts.getD s 0) = 0 := fun s hs => hag.dt s hs
  change List.Forall₂ (Row (fun c => ¬ Identity c) σ d) _ _
  refine forall₂_append (forall₂_append (forall₂_append (forall₂_const ?_ hav) ?_) ?_) ?_
  · intro c hc a b e
    subst e
    simp only [List.mem_append, List.mem_flatMap, List.mem_map] at hc
    rcases hc with ⟨_, _, _, _, e⟩ | ⟨_, _, e⟩
    · simp only [stepCap] at e
      split at e <;> cases e
    · cases e
  · rw [kinList]
    refine forall₂_flatMap _ fun s hs => ?_
    rw [List.mem_range] at hs
    obtain ⟨h8, e⟩ := hgk s hs
    rw [e]
    refine forall₂_flatMap _ fun k hk => ?_
    rw [List.mem_range] at hk
    rw [length_eight (h8 k hk)]
    have := hnk ((N.take s).sum + k) (D ((N.take s).sum + k)) s k hs hk rfl
    have hl := hlt hs hk
    refine kinCons_rows (hddt s hs) (fun i => (gk s k).getD i 0) ?_
    rw [hdst _ (by omega), hdst _ hl, show (N.take s).sum + 1 + k = (N.take s).sum + k + 1 by omega]
    exact this
  · refine forall₂_flatMap _ fun n hn => ?_
    rw [List.mem_range] at hn
    obtain ⟨h1, h2⟩ := hgd' n hn
    obtain ⟨h3, h4⟩ := hF n hn
    rw [h2]
    have e : ∀ k : Fin m, forceOf d m n k = F n k := fun k => hdf n hn k k.2
    refine dyn_rows h1 _ _ _ ?_ ?_ ?_ ?_
    · rw [hdst n hn]; exact (hDacc n).1
    · rw [hdst n hn]; exact (hDacc n).2
    · rw [← h3]; exact Finset.sum_congr rfl fun k _ => e k
    · rw [hdst n hn, ← h4]; exact Finset.sum_congr rfl fun k _ => by rw [e k]
  · have hD0 : decodeSample d (sampleVars m 0) = ⟨⟨w0, w1⟩, dh, ⟨w4, w5⟩, 0, w6, 0⟩ := hdst 0 (by omega)
    simp only [decodeSample, evalVec, sampleVars, eval_var, State.mk.injEq, Complex.ext_iff] at hD0
    obtain ⟨⟨p1, p2⟩, ⟨p3, p4⟩, ⟨p5, p6⟩, -, p7, -⟩ := hD0
    rw [Nat.zero_mul] at p1 p2 p3 p4 p5 p6 p7
    rw [unitVec_mk] at hd1
    simp only [st, decodeSample, evalVec, sampleVars, eval_var, map_one, mul_one, map_zero, mul_zero,
      add_zero, zero_mul, Complex.mul_re, Complex.mul_im, Complex.conj_re, Complex.conj_im,
      ← p3, ← p4] at hd1 hd2
    simp only [List.flatMap_cons, List.flatMap_nil, Constraint.apply, hz, if_true, Pose2.eqCons,
      Translation2.eqCons, Rotation2.eqCons, List.cons_append, List.nil_append, Bool.false_eq_true,
      if_false]
    refine .cons (row_eq ?_ ?_ ?_) <| .cons (row_eq ?_ ?_ ?_) <| .cons (row_eq ?_ ?_ ?_) <|
      .cons (row_eq ?_ ?_ ?_) <| .cons (row_eq ?_ ?_ ?_) <| .cons (row_eq ?_ ?_ ?_) <|
      .cons (row_eq ?_ ?_ ?_) .nil
    all_goals simp only [sampleVars, Pose2.ofXYHeading, Rotation2.ofAngle, Rotation2.toV,
      Translation2.toV, tangent_add, tangent_sub, tangent_mul, tangent_var, tangent_const,
      tangent_lit, eval_var, eval_const, sub_zero, plain_add, plain_sub, plain_mul, plain_var,
      plain_const, plain_lit, and_self, Nat.zero_mul, real_sin, real_cos]
    · exact p1
    · exact p2
    · linear_combination hd1
    · linear_combination hd2
    · exact p5
    · exact p6
    · exact p7

/-- From rest at a pose, two segments, nothing else. -/
noncomputable def openOps : List (Op ℝ) :=
  [.setDrivetrain demoRobot, .poseWpt 0 0 0 0, .wptConstraint 0 (.linearVelocityMaxMagnitude 0),
    .wptInitialGuessPoint 2 originPose, .controlIntervalCounts [1, 2]]

theorem open_table :
    let b := run true openOps Builder.new
    Ready b demoRobot ∧ (table b).counts = [1, 2] ∧ (∀ s < 2, (table b).continuous s = []) ∧
    (table b).instant 0 = [.poseEquality 0 0 0, .linearVelocityMaxMagnitude 0] ∧
    (table b).instant 1 = [] ∧ (table b).instant 2 = [] := by
  intro b
  obtain ⟨e, hr⟩ : table b = PathTable.empty.afterAll openOps ∧ Ready b demoRobot := by
    refine ready_of ?_ _ rfl ?_ ?_ ?_ <;>
    simp [openOps, PathTable.AcceptsAll, PathTable.Accepts, PathTable.afterAll, PathTable.after,
      PathTable.empty, PathTable.reach, PathTable.requireAt, PathTable.guessAt, sampleCount]
  refine ⟨hr, ?_⟩
  rw [e]
  simp [openOps, PathTable.afterAll, PathTable.after,
    PathTable.empty, PathTable.reach, PathTable.requireAt, PathTable.guessAt]

/-- Both parts have cases: feasible assignments of a problem whose motion equations are independent,
and of one with three poses whose equations are not. -/
example : (∃ g σ, Generator.construct (run true openOps Builder.new) 0 = .ok g ∧ g.problem.Feasible σ ∧
      Independent (fun c => ¬ Identity c) g.problem.cons σ) ∧
    ∃ g σ, Generator.construct (run true (dashOps 0 0 (1 / 10) 0 (1 / 10) (1 / 10)) Builder.new) 0 = .ok g ∧
      g.problem.Feasible σ ∧ ¬ Independent (fun c => ¬ Identity c) g.problem.cons σ := by
  constructor
  · obtain ⟨hr, hc, hco, hi0, hi1, hi2⟩ := open_table
    obtain ⟨g, hg, -, -, hf⟩ := C29_problem _ ⟨true, _, rfl⟩ demoRobot hr demo_radius 0
    have hob : Obeys (table (run true openOps Builder.new)) demoRobot
        ⟨fun _ => ⟨0, unitVec 0, ((0 : ℝ) : ℂ), ((0 : ℝ) : ℂ), 0, 0⟩, fun _ _ => 0, fun _ => 0⟩ := by
      refine ⟨?_, ?_, ?_, ?_, ?_, ?_⟩
      · intro s _ n _
        exact ⟨by simp, .inl (by simp [unitVec]), by simp, by simp⟩
      · intro n _
        have := demo_dynamics 0 0 0 0 0 0 (by norm_num) (by norm_num)
        simpa using this
      · intro s _; exact le_rfl
      · intro s _ m _ g hg
        rw [demo_gap g hg]
        norm_num
      · rw [hc]
        intro w hw c hcm
        have hw : w ≤ 2 := hw
        interval_cases w
        · rw [hi0] at hcm
          simp only [List.mem_cons, List.not_mem_nil, or_false] at hcm
          rcases hcm with rfl | rfl
          · exact ⟨by apply Complex.ext <;> simp [vec], .inl rfl⟩
          · simp [Meaning]
        · rw [hi1] at hcm; simp at hcm
        · rw [hi2] at hcm; simp at hcm
      · rw [hc]
        intro s hs c hcm
        rw [hco s hs] at hcm
        simp at hcm
    obtain ⟨σ, hσ, -⟩ := (hf _).mp hob
    refine ⟨g, σ, hg, hσ, ?_⟩
    refine C109_start_partial _ ⟨true, _, rfl⟩ demoRobot hr 0 g hg 0 0 0 _ hi0 (by simp) ?_ ?_
      ⟨0, by simp [demoRobot]⟩ ⟨1, by simp [demoRobot]⟩ ?_ σ hσ
    · rw [hc]
      intro w h1 h2
      have h2 : w ≤ 2 := h2
      interval_cases w
      · exact hi1
      · exact hi2
    · rw [hc]; exact hco
    · norm_num [demoRobot]
  · obtain ⟨hr, hc, hco, hi0, hi1, hi2⟩ := dash_table 0 0 (1 / 10) 0 (1 / 10) (1 / 10)
    obtain ⟨-, -, -, -, g, σ, hg, hσ, -⟩ := dash_solves
    obtain ⟨g, hg, -, -, hf⟩ := C29_problem _ ⟨true, _, rfl⟩ demoRobot hr demo_radius 0
    obtain ⟨σ, hσ, -⟩ := (hf _).mp ((solves_iff ⟨true, _, rfl⟩ hr demo_radius).mp dash_solves)
    refine ⟨g, σ, hg, hσ, C109_poses_refuted _ ⟨true, _, rfl⟩ demoRobot hr 0 g hg 0 2 ?_ 0 0 0 (1 / 10) 0 (1 / 10)
      (by rw [hi0]; simp) (by rw [hi2]; simp) ?_ σ hσ⟩
    · rw [hc]; simp
    · rw [hc]; decide

end Trajopt.Props
