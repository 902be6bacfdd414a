import Verif.Lemmas.Steer
import Verif.Props.Independent
import Verif.Props.Unique

/-!
# C109: independence of the equations at all waypoints
-/

set_option autoImplicit false

namespace Trajopt.Props

open Spec

theorem pose_rows {p : Con ℝ → Prop} {σ d : ℕ → ℝ} {m n : ℕ} {x y θ : ℝ} (r : ℕ → ℝ)
    (hpos : (decodeSample d (sampleVars m n)).pos = ⟨r 0, r 1⟩)
    (hturn : ((starRingEnd ℂ) (decodeSample d (sampleVars m n)).heading * unitVec θ).im = r 2)
    (hnorm : p (headRow m n) → 2 * ((starRingEnd ℂ) (decodeSample σ (sampleVars m n)).heading *
      (decodeSample d (sampleVars m n)).heading).re = r 3)
    (hvel : (decodeSample d (sampleVars m n)).vel = ⟨r 4, r 5⟩)
    (homega : (decodeSample d (sampleVars m n)).omega = r 6) :
    List.Forall₂ (Row p σ d)
      (([.poseEquality x y θ, .linearVelocityMaxMagnitude 0, .angularVelocityMaxMagnitude 0] :
        List (Constraint ℝ)).flatMap fun c => c.apply (sampleVars m n))
      [r 0, r 1, r 2, r 3, r 4, r 5, r 6] := by
  have hz : Dbl.eq (0 : ℝ) (Num.lit 0) = true := by simp
  rw [unitVec_mk] at hturn
  simp only [decodeSample, evalVec, sampleVars, eval_var, Complex.ext_iff, Complex.mul_re, Complex.mul_im,
    Complex.conj_re, Complex.conj_im] at hpos hturn hnorm hvel homega
  simp only [List.flatMap_cons, List.flatMap_nil, Constraint.apply, hz, if_true, Pose2.eqCons,
    Translation2.eqCons, Rotation2.eqCons, List.cons_append, List.nil_append, Bool.false_eq_true,
    if_false]
  refine .cons (row_eq ?_ ?_ ?_) <| .cons (row_eq ?_ ?_ ?_) <| .cons (row_eq ?_ ?_ ?_) <|
    .cons (fun hp => row_eq (p := p) ?_ ?_ ?_ hp) <| .cons (row_eq ?_ ?_ ?_) <| .cons (row_eq ?_ ?_ ?_) <|
    .cons (row_eq ?_ ?_ ?_) .nil
  all_goals simp only [sampleVars, Pose2.ofXYHeading, Rotation2.ofAngle, Rotation2.toV,
    Translation2.toV, tangent_add, tangent_sub, tangent_mul, tangent_var, tangent_const,
    tangent_lit, eval_var, eval_const, sub_zero, plain_add, plain_sub, plain_mul, plain_var,
    plain_const, plain_lit, and_self, real_sin, real_cos]
  · exact hpos.1
  · exact hpos.2
  · linear_combination hturn
  · linear_combination hnorm hp
  · exact hvel.1
  · exact hvel.2
  · exact homega

theorem place_rows {p : Con ℝ → Prop} {σ d : ℕ → ℝ} {m n : ℕ} {t : Translation2 ℝ} (r : ℕ → ℝ)
    (hpos : (decodeSample d (sampleVars m n)).pos = ⟨r 0, r 1⟩)
    (hvel : (decodeSample d (sampleVars m n)).vel = ⟨r 2, r 3⟩)
    (homega : (decodeSample d (sampleVars m n)).omega = r 4) :
    List.Forall₂ (Row p σ d)
      (([.translationEquality t, .linearVelocityMaxMagnitude 0, .angularVelocityMaxMagnitude 0] :
        List (Constraint ℝ)).flatMap fun c => c.apply (sampleVars m n))
      [r 0, r 1, r 2, r 3, r 4] := by
  have hz : Dbl.eq (0 : ℝ) (Num.lit 0) = true := by simp
  simp only [decodeSample, evalVec, sampleVars, eval_var, Complex.ext_iff] at hpos hvel homega
  simp only [List.flatMap_cons, List.flatMap_nil, Constraint.apply, hz, if_true,
    Translation2.eqCons, List.cons_append, List.nil_append]
  refine .cons (row_eq ?_ ?_ ?_) <| .cons (row_eq ?_ ?_ ?_) <| .cons (row_eq ?_ ?_ ?_) <|
    .cons (row_eq ?_ ?_ ?_) <| .cons (row_eq ?_ ?_ ?_) .nil
  all_goals simp only [sampleVars, Translation2.toV, tangent_var, tangent_const,
    tangent_lit, sub_zero, plain_var, plain_const, plain_lit]
  · exact hpos.1
  · exact hpos.2
  · exact hvel.1
  · exact hvel.2
  · exact homega

theorem headRow_ne_headRow {m n : ℕ} (hn : 0 < n) : headRow m 0 ≠ headRow m n := by
  intro h
  simp only [headRow, sampleVars, Con.eq.injEq] at h
  obtain ⟨h, -⟩ := h
  have h10 : 10 ≤ n * stride m := by
    rw [stride]; nlinarith
  have := congrArg (fun e => e.eval fun k => if k < 10 then (1 : ℝ) else 0) h
  simp only [eval_add, eval_mul, eval_var] at this
  rw [if_pos (by omega), if_pos (by omega), if_neg (by omega), if_neg (by omega)] at this
  norm_num at this

theorem turnRow_ne_headRow {m n k : ℕ} (hn : 0 < n) : turnRow m n ≠ headRow m k := by
  intro h
  simp only [turnRow, headRow, sampleVars, Con.eq.injEq] at h
  obtain ⟨h, -⟩ := h
  have h10 : (n - 1) * stride m < n * stride m := by
    rw [stride]; exact Nat.mul_lt_mul_of_pos_right (by omega) (by omega)
  have := congrArg (fun e => e.eval fun _ => (2 : ℝ)) h
  simp [Rotation2.sub, Rotation2.add, Rotation2.neg, Rotation2.rotateBy] at this
  norm_num at this

/-- C109: the equations left out in `C109_stops_partial` are implied by the others: an assignment that satisfies all
constraints but them satisfies them too. -/
theorem C109_norms (b : Builder ℝ) (hb : Reachable b) (dr : SwerveDrivetrain ℝ) (hr : Ready b dr)
    (handle : ℤ) (g : Generator ℝ) (hg : Generator.construct b handle = .ok g)
    (x y θ : ℝ) (hstart : .poseEquality x y θ ∈ (table b).instant 0) (σ : ℕ → ℝ)
    (hσ : ∀ c ∈ g.problem.cons, (∀ n, 0 < n → n < sampleCount (table b).counts → c ≠ headRow dr.modules.length n) →
      c.Holds σ) :
    g.problem.Feasible σ := by
  have hcons := cons_closed hb hr hg
  have hone : ∀ n < sampleCount (table b).counts, (headRow dr.modules.length n).Holds σ := by
    intro n
    induction n with
    | zero =>
      intro _
      refine hσ _ ?_ fun n hn _ => headRow_ne_headRow hn
      rw [hcons]
      exact headRow_mem (Nat.zero_le _) hstart
    | succ n ih =>
      intro hn
      have h1 := (ih (by omega)).2.2
      have h2 := (hσ (turnRow dr.modules.length (n + 1)) (by
        rw [hcons]
        refine turnRow_mem (by omega) ?_
        simp only [sampleCount] at hn
        omega) fun k _ _ => turnRow_ne_headRow (by omega)).2.2
      refine ⟨⟨⟨trivial, trivial⟩, trivial, trivial⟩, trivial, ?_⟩
      simp only [sampleVars, Rotation2.sub, Rotation2.add, Rotation2.neg, Rotation2.rotateBy, Nat.add_sub_cancel,
        eval_add, eval_sub, eval_mul, eval_neg, eval_var, eval_lit, Rat.cast_one] at h1 h2 ⊢
      linear_combination h2 - (σ ((n + 1) * stride dr.modules.length + 2) * σ ((n + 1) * stride dr.modules.length + 2) +
        σ ((n + 1) * stride dr.modules.length + 3) * σ ((n + 1) * stride dr.modules.length + 3)) * h1
  intro c hc
  by_cases h : ∀ n, 0 < n → n < sampleCount (table b).counts → c ≠ headRow dr.modules.length n
  · exact hσ c hc h
  · push Not at h
    obtain ⟨n, -, hn, rfl⟩ := h
    exact hone n hn

/-- C109, the positive part for whole paths: apart from identities, and from the equations that a later waypoint's heading
is a unit vector (which the others imply, `C109_norms`), the equations of motion, a prescribed start and the poses, places
and stops at later waypoints are independent of one another at every feasible assignment, among any limits, if two modules
are at different places and every segment that leads to such a waypoint has two control intervals and takes time.
Missing: prescribed directions and accelerations, and equations on segments. -/
theorem C109_stops_partial (b : Builder ℝ) (hb : Reachable b) (dr : SwerveDrivetrain ℝ) (hr : Ready b dr)
    (handle : ℤ) (g : Generator ℝ) (hg : Generator.construct b handle = .ok g)
    (σ : ℕ → ℝ) (hσ : g.problem.Feasible σ)
    (x y θ : ℝ) (hstart : .poseEquality x y θ ∈ (table b).instant 0) (h0 : Stop (.poseEquality x y θ) ((table b).instant 0))
    (hi : ∀ w, 0 < w → w ≤ (table b).counts.length → (∀ c ∈ (table b).instant w, Limiting c) ∨
      2 ≤ (table b).counts.getD (w - 1) 0 ∧ 0 < (decode g.vars σ).dt (w - 1) ∧
      ((∃ x y θ, .poseEquality x y θ ∈ (table b).instant w ∧ Stop (.poseEquality x y θ) ((table b).instant w)) ∨
        ∃ t, Stop (.translationEquality t) ((table b).instant w)))
    (hc : ∀ s < (table b).counts.length, ∀ c ∈ (table b).continuous s, Limiting c)
    (i j : Fin dr.modules.length) (hij : dr.modules[i].translation ≠ dr.modules[j].translation) :
    Independent (fun c => ¬ Identity c ∧ ∀ n, 0 < n → n < sampleCount (table b).counts →
      c ≠ headRow dr.modules.length n) g.problem.cons σ := by
  have hob : Obeys (table b) dr (decode g.vars σ) := by
    obtain ⟨sol, -, -, hcl⟩ := construct_closed hb hr handle
    rw [hg] at hcl
    cases hcl
    exact (feasible_closed b dr sol handle σ).mp hσ
  have hvars : g.vars = closedVars dr.modules.length (1 + (table b).counts.sum)
      (List.range' ((1 + (table b).counts.sum) * stride dr.modules.length) (table b).counts.length) := by
    obtain ⟨sol, -, -, hcl⟩ := construct_closed hb hr handle
    rw [hg] at hcl
    cases hcl
    rfl
  have hforce := fun s hs f t => force_step dr hij s hs f t
  clear hij i j
  rw [cons_closed hb hr hg]
  rw [hvars] at hob hi
  set N := (table b).counts with hN
  set m := dr.modules.length with hm
  set dts := List.range' ((1 + N.sum) * stride m) N.length with hdts
  -- the states at the samples
  have hst : ∀ n < 1 + N.sum, (decode (closedVars m (1 + N.sum) dts) σ).state n =
      decodeSample σ (sampleVars m n) := fun n hn => decode_state _ _ _ _ hn
  let st : ℕ → State := fun n => decodeSample σ (sampleVars m n)
  have hlt : ∀ {s k}, s < N.length → k < N.getD s 0 → (N.take s).sum + 1 + k < 1 + N.sum := by
    intro s k hs hk
    rw [getD_lt hs] at hk
    have := sum_take_le N (s + 1)
    rw [List.sum_take_succ _ _ hs] at this
    omega
  have hint : ∀ s k, s < N.length → k < N.getD s 0 →
      Interval (σ (dts.getD s 0)) (st ((N.take s).sum + k)) (st ((N.take s).sum + k + 1)) := by
    intro s k hs hk
    have := hob.interval s hs ((N.take s).sum + 1 + k) ((mem_segmentSamples hs).mpr
      ⟨k, by rwa [getD_lt hs] at hk, rfl⟩)
    rw [hst _ (hlt hs hk), show (N.take s).sum + 1 + k - 1 = (N.take s).sum + k by omega,
      hst _ (by have := hlt hs hk; omega), Nat.add_right_comm] at this
    exact this
  have hposeAt : ∀ w ≤ N.length, ∀ x y θ : ℝ, .poseEquality x y θ ∈ (table b).instant w →
      (st (N.take w).sum).heading = unitVec θ ∨ (st (N.take w).sum).heading = -unitVec θ := by
    intro w hw x y θ h
    have := hob.instant w hw (.poseEquality x y θ) h
    have hle := sum_take_le N w
    rw [show waypointSample (table b).counts w = (N.take w).sum from rfl, hst _ (by omega)] at this
    exact this.2
  have huv : ∀ a, Complex.normSq (unitVec a) = 1 := fun a => by
    rw [unitVec, Complex.normSq_eq_norm_sq, Complex.norm_exp_ofReal_mul_I]; norm_num
  have hunit : ∀ n < 1 + N.sum, Complex.normSq (st n).heading = 1 := by
    intro n
    induction n with
    | zero =>
      intro _
      rcases hposeAt 0 (Nat.zero_le _) x y θ hstart with h | h
      · rw [List.take_zero, List.sum_nil] at h; rw [h, huv]
      · rw [List.take_zero, List.sum_nil] at h; rw [h, Complex.normSq_neg, huv]
    | succ n ih =>
      intro hn
      rcases sample_between N 0 N.length (n + 1) (Nat.zero_le _) (by
        have : waypointSample N N.length = N.sum := by simp [waypointSample]
        omega) with e | ⟨s, -, -, hs, hns⟩
      · have : waypointSample N 0 = 0 := rfl
        omega
      · obtain ⟨k, hk, e⟩ := (mem_segmentSamples hs).mp hns
        have e' : n = (N.take s).sum + k := by omega
        have := (hint s k hs (by rwa [getD_lt hs])).turn
        rw [← e'] at this
        have h2 : Complex.normSq ((st (n + 1)).heading * (starRingEnd ℂ) (st n).heading) = 1 := by
          rcases this with h | h
          · rw [h, huv]
          · rw [h, Complex.normSq_neg, huv]
        rwa [Complex.normSq_mul, Complex.normSq_conj, ih (by omega), mul_one] at h2
  have hhead : ∀ n < 1 + N.sum, (st n).heading ≠ 0 := by
    intro n hn h
    have := hunit n hn
    rw [h] at this
    simp at this
  have hdt : ∀ s < N.length, (decode (closedVars m (1 + N.sum) dts) σ).dt s = σ (dts.getD s 0) := fun _ _ => rfl
  -- the equations asked for at each waypoint
  have hplan : ∀ w, ∃ L E : List (Constraint ℝ), w ≤ N.length → (∀ c ∈ L, Limiting c) ∧
      ((table b).instant w).Subperm (L ++ E) ∧
      (w = 0 → E = [.poseEquality x y θ, .linearVelocityMaxMagnitude 0, .angularVelocityMaxMagnitude 0]) ∧
      (0 < w → E = [] ∨ (2 ≤ N.getD (w - 1) 0 ∧ 0 < σ (dts.getD (w - 1) 0)) ∧
        ((∃ x y θ : ℝ, ((st (N.take w).sum).heading = unitVec θ ∨ (st (N.take w).sum).heading = -unitVec θ) ∧
          E = [.poseEquality x y θ, .linearVelocityMaxMagnitude 0, .angularVelocityMaxMagnitude 0]) ∨
        ∃ t, E = [.translationEquality t, .linearVelocityMaxMagnitude 0, .angularVelocityMaxMagnitude 0])) := by
    intro w
    by_cases hw : w ≤ N.length
    · rcases Nat.eq_zero_or_pos w with rfl | hpos
      · obtain ⟨L, h1, h2⟩ := h0
        exact ⟨L, _, fun _ => ⟨h1, h2, fun _ => rfl, fun h => (Nat.lt_irrefl _ h).elim⟩⟩
      · rcases hi w hpos hw with h | ⟨h1, h2, ⟨x, y, θ, hp, L, h3, h4⟩ | ⟨t, L, h3, h4⟩⟩
        · exact ⟨_, [], fun _ => ⟨h, by rw [List.append_nil], fun h => by omega, fun _ => .inl rfl⟩⟩
        · exact ⟨L, _, fun _ => ⟨h3, h4, fun h => by omega, fun _ => .inr ⟨⟨h1, h2⟩,
            .inl ⟨x, y, θ, hposeAt w hw x y θ hp, rfl⟩⟩⟩⟩
        · exact ⟨L, _, fun _ => ⟨h3, h4, fun h => by omega, fun _ => .inr ⟨⟨h1, h2⟩, .inr ⟨t, rfl⟩⟩⟩⟩
    · exact ⟨[], [], fun h => (hw h).elim⟩
  choose L E hplan using hplan
  have hsub : (allCons b.path dr N).Subperm (dts.flatMap (fun dt => dr.modules.map (stepCap (minWidth dr.modules) dt))
      ++ (dts.zip N).map (fun x => .ge (.var x.1) (Num.lit 0)) ++ kinList m N dts
      ++ (List.range (1 + N.sum)).flatMap (dynCons dr)
      ++ (List.range (1 + N.length)).flatMap (fun w =>
          (L w).flatMap (fun c => c.apply (sampleVars m (N.take w).sum)) ++
          (E w).flatMap (fun c => c.apply (sampleVars m (N.take w).sum)))
      ++ sgmtList m b.path N) := by
    rw [allCons]
    refine List.Subperm.append (List.Subperm.append (List.Subperm.refl _) ?_) (List.Subperm.refl _)
    rw [wptList]
    refine subperm_flatMap_left _ fun w hw => ?_
    rw [List.mem_range] at hw
    rw [← List.flatMap_append]
    exact subperm_flatMap _ (hplan w (by omega)).2.1
  refine independent_subperm hsub ?_
  intro vs hvs
  obtain ⟨vs₀, sv, hvs₀, hsv, rfl⟩ := split_append hvs
  obtain ⟨vs₁, wv, hvs₁, hwv, rfl⟩ := split_append hvs₀
  obtain ⟨vs₂, dv, hvs₂, hdv, rfl⟩ := split_append hvs₁
  obtain ⟨av, kv, hav, hkv, rfl⟩ := split_append hvs₂
  obtain ⟨gs, hgs, rfl⟩ := split_flatMap _ hkv
  obtain ⟨gd, hgd, rfl⟩ := split_flatMap _ hdv
  obtain ⟨gw, hgw, rfl⟩ := split_flatMap _ hwv
  have hgk : ∀ s, ∃ gk : ℕ → List ℝ, s < N.length → (∀ k < N.getD s 0, (gk k).length = 8) ∧
      gs s = (List.range (N.getD s 0)).flatMap gk := by
    intro s
    by_cases hs : s < N.length
    · obtain ⟨gk, h1, h2⟩ := split_flatMap _ (hgs s hs)
      exact ⟨gk, fun _ => ⟨h1, h2⟩⟩
    · exact ⟨fun _ => [], fun h => (hs h).elim⟩
  choose gk hgk using hgk
  have hgd' : ∀ n, ∃ (pre : List ℝ) (x y t : ℝ), n < 1 + N.sum →
      pre.length = (powerList m n dr.modules 0).length ∧ gd n = pre ++ [x, y, t] := by
    intro n
    by_cases hn : n < 1 + N.sum
    · have := hgd n hn
      rw [dynCons] at this
      obtain ⟨pre, post, h1, h2, h3⟩ := split_append this
      match post, h2 with
      | [x, y, t], _ => exact ⟨pre, x, y, t, fun _ => ⟨h1, h3⟩⟩
    · exact ⟨[], 0, 0, 0, fun h => (hn h).elim⟩
  choose pre fx fy ft hgd' using hgd'
  have hgw' : ∀ w, ∃ lv ev : List ℝ, w < 1 + N.length →
      lv.length = ((L w).flatMap fun c => c.apply (sampleVars m (N.take w).sum)).length ∧
      ev.length = ((E w).flatMap fun c => c.apply (sampleVars m (N.take w).sum)).length ∧ gw w = lv ++ ev := by
    intro w
    by_cases hw : w < 1 + N.length
    · obtain ⟨lv, ev, h1, h2, h3⟩ := split_append (hgw w hw)
      exact ⟨lv, ev, fun _ => ⟨h1, h2, h3⟩⟩
    · exact ⟨[], [], fun h => (hw h).elim⟩
  choose lv ev hgw' using hgw'
  have hz : Dbl.eq (0 : ℝ) (Num.lit 0) = true := by simp
  have hseven : ∀ {x y θ : ℝ} {n : ℕ} {l : List ℝ}, l.length = (([.poseEquality x y θ, .linearVelocityMaxMagnitude 0,
      .angularVelocityMaxMagnitude 0] : List (Constraint ℝ)).flatMap fun c => c.apply (sampleVars m n)).length →
      l = [l.getD 0 0, l.getD 1 0, l.getD 2 0, l.getD 3 0, l.getD 4 0, l.getD 5 0, l.getD 6 0] := by
    intro x y θ n l hl
    have : l.length = 7 := by
      rw [hl]
      simp only [List.flatMap_cons, List.flatMap_nil, Constraint.apply, hz, if_true]
      rfl
    match l, this with
    | [_, _, _, _, _, _, _], _ => rfl
  have hfive : ∀ {t : Translation2 ℝ} {n : ℕ} {l : List ℝ}, l.length = (([.translationEquality t,
      .linearVelocityMaxMagnitude 0, .angularVelocityMaxMagnitude 0] : List (Constraint ℝ)).flatMap
        fun c => c.apply (sampleVars m n)).length →
      l = [l.getD 0 0, l.getD 1 0, l.getD 2 0, l.getD 3 0, l.getD 4 0] := by
    intro t n l hl
    have : l.length = 5 := by
      rw [hl]
      simp only [List.flatMap_cons, List.flatMap_nil, Constraint.apply, hz, if_true]
      rfl
    match l, this with
    | [_, _, _, _, _], _ => rfl
  -- where each waypoint's rates have to be
  have htarget : ∀ w, ∃ (tp tv : ℂ) (ts tw : ℝ), 0 < w → w ≤ N.length → ∀ d : ℕ → ℝ,
      ((2 ≤ N.getD (w - 1) 0 ∧ 0 < σ (dts.getD (w - 1) 0)) →
        (decodeSample d (sampleVars m (N.take w).sum)).pos = tp ∧
        (decodeSample d (sampleVars m (N.take w).sum)).vel = tv ∧
        spin (st (N.take w).sum) (decodeSample d (sampleVars m (N.take w).sum)) = ts ∧
        (decodeSample d (sampleVars m (N.take w).sum)).omega = tw) →
      List.Forall₂ (Row (fun c => ¬ Identity c ∧ ∀ n, 0 < n → n < sampleCount N → c ≠ headRow m n) σ d)
        ((E w).flatMap fun c => c.apply (sampleVars m (N.take w).sum)) (ev w) := by
    intro w
    by_cases hw : 0 < w ∧ w ≤ N.length
    · obtain ⟨hpos, hw⟩ := hw
      obtain ⟨-, hev, -⟩ := hgw' w (by omega)
      rcases (hplan w hw).2.2.2 hpos with h | ⟨hsteer, ⟨x', y', θ', hh, h⟩ | ⟨t, h⟩⟩
      · refine ⟨0, 0, 0, 0, fun _ _ d _ => ?_⟩
        rw [h] at hev ⊢
        rw [List.length_eq_zero_iff.mp hev]
        exact .nil
      · obtain ⟨ε, hε, hu⟩ : ∃ ε : ℝ, ε * ε = 1 ∧ (st (N.take w).sum).heading = ε * unitVec θ' := by
          rcases hh with h | h
          · exact ⟨1, by norm_num, by simp [h]⟩
          · exact ⟨-1, by norm_num, by simp [h]⟩
        have hpositive : 0 < (N.take w).sum := by
          have := List.sum_take_succ N (w - 1) (by omega)
          rw [show w - 1 + 1 = w by omega] at this
          rw [this]
          have h2 := hsteer.1
          rw [getD_lt (by omega)] at h2
          omega
        refine ⟨⟨(ev w).getD 0 0, (ev w).getD 1 0⟩, ⟨(ev w).getD 4 0, (ev w).getD 5 0⟩, -(ε * (ev w).getD 2 0),
          (ev w).getD 6 0, fun _ _ d hd => ?_⟩
        obtain ⟨h1, h2, h3, h4⟩ := hd hsteer
        rw [h] at hev ⊢
        rw [hseven hev]
        refine pose_rows (fun i => (ev w).getD i 0) h1 ?_ (fun hp => absurd rfl (hp.2 _ hpositive (by
          have := sum_take_le N w; simp only [sampleCount]; omega))) h2 h4
        rw [spin, hu] at h3
        generalize (decodeSample d (sampleVars m (N.take w).sum)).heading = B at h3 ⊢
        generalize unitVec θ' = u at h3 ⊢
        simp only [map_mul, Complex.conj_ofReal, Complex.mul_re, Complex.mul_im, Complex.conj_re, Complex.conj_im,
          Complex.ofReal_re, Complex.ofReal_im] at h3 ⊢
        linear_combination (-ε) * h3 + ((ev w).getD 2 0 - (B.re * u.im - B.im * u.re)) * hε
      · refine ⟨⟨(ev w).getD 0 0, (ev w).getD 1 0⟩, ⟨(ev w).getD 2 0, (ev w).getD 3 0⟩, 0,
          (ev w).getD 4 0, fun _ _ d hd => ?_⟩
        obtain ⟨h1, h2, h3, h4⟩ := hd hsteer
        rw [h] at hev ⊢
        rw [hfive hev]
        exact place_rows (fun i => (ev w).getD i 0) h1 h2 h4
    · exact ⟨0, 0, 0, 0, fun h1 h2 => (hw ⟨h1, h2⟩).elim⟩
  choose tp tv ts tw htarget using htarget
  have hspin : ∀ s k, ∃ c : ℝ, s < N.length → k < N.getD s 0 → ∀ da db : State,
      KinRates (σ (dts.getD s 0)) (st ((N.take s).sum + k)) (st ((N.take s).sum + k + 1)) da db
        (fun i => (gk s k).getD i 0) →
      spin (st ((N.take s).sum + k + 1)) db = spin (st ((N.take s).sum + k)) da + σ (dts.getD s 0) * db.omega - c := by
    intro s k
    by_cases h : s < N.length ∧ k < N.getD s 0
    · obtain ⟨c, hc⟩ := spin_step (hint s k h.1 h.2) (hunit _ (by have := hlt h.1 h.2; omega))
        (fun i => (gk s k).getD i 0)
      exact ⟨c, fun _ _ => hc⟩
    · exact ⟨0, fun h1 h2 => (h ⟨h1, h2⟩).elim⟩
  choose cs hspin using hspin
  let P : ℕ → ℂ := fun s => tp (s + 1) - σ (dts.getD s 0) * tv (s + 1) +
    ⟨(gk s (N.getD s 0 - 1)).getD 0 0, (gk s (N.getD s 0 - 1)).getD 1 0⟩
  let S : ℕ → ℝ := fun s => ts (s + 1) - σ (dts.getD s 0) * tw (s + 1) + cs s (N.getD s 0 - 1)
  -- the later samples
  have hnext : ∀ (n : ℕ) (p : State), ∃ q : State,
      ∀ s k, s < N.length → k < N.getD s 0 → n = (N.take s).sum + k →
        KinRates (σ (dts.getD s 0)) (st n) (st (n + 1)) p q (fun i => (gk s k).getD i 0) ∧
        ((2 ≤ N.getD s 0 ∧ 0 < σ (dts.getD s 0)) →
          (k + 2 = N.getD s 0 → q.pos = P s ∧ spin (st (n + 1)) q = S s) ∧
          (k + 1 = N.getD s 0 → q.vel = tv (s + 1) ∧ q.omega = tw (s + 1))) := by
    intro n p
    by_cases h : ∃ s k, s < N.length ∧ k < N.getD s 0 ∧ n = (N.take s).sum + k
    · obtain ⟨s, k, hs, hk, rfl⟩ := h
      have hI := hint s k hs hk
      have huniq : ∀ {Q : ℕ → ℕ → Prop}, Q s k → ∀ s' k', s' < N.length → k' < N.getD s' 0 →
          (N.take s).sum + k = (N.take s').sum + k' → Q s' k' := by
        intro Q hQ s' k' hs' hk' e
        obtain ⟨rfl, rfl⟩ := samples_unique hs hk hs' hk' e
        exact hQ
      suffices h : ∃ q : State, KinRates (σ (dts.getD s 0)) (st ((N.take s).sum + k)) (st ((N.take s).sum + k + 1)) p q
          (fun i => (gk s k).getD i 0) ∧
          ((2 ≤ N.getD s 0 ∧ 0 < σ (dts.getD s 0)) →
            (k + 2 = N.getD s 0 → q.pos = P s ∧ spin (st ((N.take s).sum + k + 1)) q = S s) ∧
            (k + 1 = N.getD s 0 → q.vel = tv (s + 1) ∧ q.omega = tw (s + 1))) by
        obtain ⟨q, hq⟩ := h
        exact ⟨q, huniq (Q := fun s k => KinRates (σ (dts.getD s 0)) _ _ p q (fun i => (gk s k).getD i 0) ∧
          ((2 ≤ N.getD s 0 ∧ 0 < σ (dts.getD s 0)) → (k + 2 = N.getD s 0 → q.pos = P s ∧ spin _ q = S s) ∧
          (k + 1 = N.getD s 0 → q.vel = tv (s + 1) ∧ q.omega = tw (s + 1)))) hq⟩
      by_cases hZ : 2 ≤ N.getD s 0 ∧ 0 < σ (dts.getD s 0)
      · have hh : σ (dts.getD s 0) ≠ 0 := hZ.2.ne'
        have hhc : (σ (dts.getD s 0) : ℂ) ≠ 0 := by exact_mod_cast hh
        by_cases h2 : k + 2 = N.getD s 0
        · obtain ⟨q, h3, h4, h5⟩ := vel_step hI hh p
            ((P s - p.pos + ⟨(gk s k).getD 0 0, (gk s k).getD 1 0⟩) / σ (dts.getD s 0))
            ((S s - spin (st ((N.take s).sum + k)) p + cs s k) / σ (dts.getD s 0)) fun i => (gk s k).getD i 0
          refine ⟨q, h5, fun _ => ⟨fun _ => ⟨?_, ?_⟩, fun h => by omega⟩⟩
          · have := h5.pos
            change p.pos + _ * q.vel - q.pos = ⟨(gk s k).getD 0 0, (gk s k).getD 1 0⟩ at this
            rw [h3, mul_div_cancel₀ _ hhc] at this
            linear_combination -this
          · rw [hspin s k hs hk p q h5, h4, mul_div_cancel₀ _ hh]
            ring
        · obtain ⟨q, h3, h4, h5⟩ := vel_step hI hh p (tv (s + 1)) (tw (s + 1)) fun i => (gk s k).getD i 0
          exact ⟨q, h5, fun _ => ⟨fun h => (h2 h).elim, fun _ => ⟨h3, h4⟩⟩⟩
      · obtain ⟨q, -, -, h3⟩ := kin_step hI p 0 0 fun i => (gk s k).getD i 0
        exact ⟨q, h3, fun h => (hZ h).elim⟩
    · exact ⟨⟨0, 0, 0, 0, 0, 0⟩, fun s k hs hk e => (h ⟨s, k, hs, hk, e⟩).elim⟩
  choose next hnk using hnext
  -- the start
  obtain ⟨dh, hd1, hd2⟩ := turn_step (a := 1) (b := (st 0).heading) (r := unitVec θ)
    (by simpa using hposeAt 0 (Nat.zero_le _) x y θ hstart) (huv θ) 0 0 ((ev 0).getD 2 0) ((ev 0).getD 3 0)
  let D : ℕ → State := fun n => Nat.rec ⟨⟨(ev 0).getD 0 0, (ev 0).getD 1 0⟩, dh, ⟨(ev 0).getD 4 0, (ev 0).getD 5 0⟩, 0,
    (ev 0).getD 6 0, 0⟩ (fun n p => next n p) n
  have hDs : ∀ n, D (n + 1) = next n (D n) := fun _ => rfl
  have hDw : ∀ s < N.length, (2 ≤ N.getD s 0 ∧ 0 < σ (dts.getD s 0)) →
      (D (N.take (s + 1)).sum).pos = tp (s + 1) ∧ (D (N.take (s + 1)).sum).vel = tv (s + 1) ∧
      spin (st (N.take (s + 1)).sum) (D (N.take (s + 1)).sum) = ts (s + 1) ∧
      (D (N.take (s + 1)).sum).omega = tw (s + 1) := by
    intro s hs hZ
    obtain ⟨K, hK⟩ : ∃ K, N.getD s 0 = K + 2 := ⟨N.getD s 0 - 2, by omega⟩
    have e : (N.take (s + 1)).sum = (N.take s).sum + (K + 1) + 1 := by
      rw [List.sum_take_succ _ _ hs, ← getD_lt hs (d := 0), hK]
      omega
    have h1 := (hnk ((N.take s).sum + K) (D ((N.take s).sum + K)) s K hs (by omega) rfl).2 hZ |>.1 (by omega)
    rw [← hDs] at h1
    obtain ⟨hkin, h2⟩ := hnk ((N.take s).sum + (K + 1)) (D ((N.take s).sum + (K + 1))) s (K + 1) hs (by omega) rfl
    have h2 := (h2 hZ).2 (by omega)
    have h3 := hspin s (K + 1) hs (by omega) _ _ hkin
    rw [← hDs] at h2 h3 hkin
    rw [e]
    refine ⟨?_, h2.1, ?_, h2.2⟩
    · have := hkin.pos
      rw [h2.1, show D ((N.take s).sum + (K + 1)) = D ((N.take s).sum + K + 1) from rfl, h1.1] at this
      simp only [P, hK, show K + 2 - 1 = K + 1 from rfl, Fin.val_zero, Fin.val_one] at this
      linear_combination -this
    · rw [h3, h2.2, show spin (st ((N.take s).sum + (K + 1))) (D ((N.take s).sum + (K + 1))) = S s from h1.2]
      simp only [S, hK, show K + 2 - 1 = K + 1 from rfl]
      ring
  have hF : ∀ n, ∃ F : ℕ → ℂ, n < 1 + N.sum → ∑ k : Fin m, F k = ⟨fx n, fy n⟩ + dr.mass * (D n).acc ∧
      ∑ k : Fin m, torque (lever (st n) dr.modules[k]) (F k) = ft n + dr.moi * (D n).alpha -
        ∑ k : Fin m, torque (lever (D n) dr.modules[k]) (forceOf σ m n k) := by
    intro n
    by_cases hn : n < 1 + N.sum
    · obtain ⟨F, h⟩ := hforce (st n) (hhead n hn) (⟨fx n, fy n⟩ + dr.mass * (D n).acc) (ft n + dr.moi * (D n).alpha -
        ∑ k : Fin m, torque (lever (D n) dr.modules[k]) (forceOf σ m n k))
      exact ⟨F, fun _ => h⟩
    · exact ⟨fun _ => 0, fun h => (hn h).elim⟩
  choose F hF using hF
  have hag := encode_decode m (1 + N.sum) N.length ⟨D, F, fun _ => 0⟩
  refine ⟨encode m (1 + N.sum) ⟨D, F, fun _ => 0⟩, ?_⟩
  generalize encode m (1 + N.sum) ⟨D, F, fun _ => 0⟩ = d at hag
  have hdst : ∀ n < 1 + N.sum, decodeSample d (sampleVars m n) = D n := by
    intro n hn
    rw [← decode_state m (1 + N.sum) (List.range' ((1 + N.sum) * stride m) N.length) d hn]
    exact hag.state n hn
  have hdf : ∀ n < 1 + N.sum, ∀ k < m, forceOf d m n k = F n k := by
    intro n hn k hk
    rw [← decode_force m (1 + N.sum) (List.range' ((1 + N.sum) * stride m) N.length) d hn hk]
    exact hag.force n hn k hk
  have hddt : ∀ s < N.length, d (dts.getD s 0) = 0 := fun s hs => hag.dt s hs
  change List.Forall₂ (Row (fun c => ¬ Identity c ∧ ∀ n, 0 < n → n < sampleCount N → c ≠ headRow m n) σ d) _ _
  refine forall₂_append (forall₂_append (forall₂_append (forall₂_append (forall₂_const ?_ hav) ?_) ?_) ?_)
    (forall₂_const ?_ hsv)
  · intro c hc a b e
    subst e
    simp only [List.mem_append, List.mem_flatMap, List.mem_map] at hc
    rcases hc with ⟨_, _, _, _, e⟩ | ⟨_, _, e⟩
    · simp only [stepCap] at e
      split at e <;> cases e
    · cases e
  · rw [kinList]
    refine forall₂_flatMap _ fun s hs => ?_
    rw [List.mem_range] at hs
    obtain ⟨h8, e⟩ := hgk s hs
    rw [e]
    refine forall₂_flatMap _ fun k hk => ?_
    rw [List.mem_range] at hk
    rw [length_eight (h8 k hk)]
    have := (hnk ((N.take s).sum + k) (D ((N.take s).sum + k)) s k hs hk rfl).1
    rw [← hDs] at this
    have hl := hlt hs hk
    refine (kinCons_rows (hddt s hs) (fun i => (gk s k).getD i 0) ?_).imp fun c v h hp => h hp.1
    rw [hdst _ (by omega), hdst _ hl, show (N.take s).sum + 1 + k = (N.take s).sum + k + 1 by omega]
    exact this
  · refine forall₂_flatMap _ fun n hn => ?_
    rw [List.mem_range] at hn
    obtain ⟨h1, h2⟩ := hgd' n hn
    obtain ⟨h3, h4⟩ := hF n hn
    rw [h2]
    have e : ∀ k : Fin m, forceOf d m n k = F n k := fun k => hdf n hn k k.2
    refine dyn_rows' h1 _ _ _ ?_ ?_
    · rw [hdst n hn, ← h3]; exact Finset.sum_congr rfl fun k _ => e k
    · rw [hdst n hn, ← h4]; exact Finset.sum_congr rfl fun k _ => by rw [e k]
  · refine forall₂_flatMap _ fun w hw => ?_
    rw [List.mem_range] at hw
    obtain ⟨h1, h2, h3⟩ := hgw' w hw
    obtain ⟨p1, p2, p3, p4⟩ := hplan w (by omega)
    rw [h3]
    refine forall₂_append (forall₂_const ?_ h1) ?_
    · intro c hcm
      rw [List.mem_flatMap] at hcm
      obtain ⟨c', hc', hcm⟩ := hcm
      exact limiting_ne (p1 c' hc') _ c hcm
    · rcases Nat.eq_zero_or_pos w with rfl | hpos
      · rw [p3 rfl] at h2 ⊢
        rw [hseven h2]
        have hD0 : decodeSample d (sampleVars m (N.take 0).sum) = D 0 := hdst 0 (by omega)
        refine pose_rows (fun i => (ev 0).getD i 0) (by rw [hD0]; rfl) ?_ (fun _ => ?_) (by rw [hD0]; rfl) (by rw [hD0]; rfl) <;> rw [hD0]
        · simpa [D] using hd1
        · simpa [D] using hd2
      · refine htarget w hpos (by omega) d fun hZ => ?_
        have := hDw (w - 1) (by omega) hZ
        rw [show w - 1 + 1 = w by omega] at this
        rw [hdst _ (by have := sum_take_le N w; omega)]
        exact this
  · intro c hcm a b' e
    rw [sgmtList, List.mem_flatMap] at hcm
    obtain ⟨s, hs, hcm⟩ := hcm
    rw [List.mem_flatMap] at hcm
    obtain ⟨c', hc', hcm⟩ := hcm
    rw [List.mem_flatMap] at hcm
    obtain ⟨n, -, hcm⟩ := hcm
    exact limiting_ne (hc s (List.mem_range.mp hs) c' hc') _ c hcm a b' e

/-- The first example program: from standing still at one pose to standing still at another.  Its equations are independent
at every feasible assignment, of which there are some. -/
example (asserts : Bool) : ∃ g, Generator.construct (run asserts Examples.cpp1 Builder.new) 0 = .ok g ∧
    (∃ σ, g.problem.Feasible σ) ∧ ∀ σ, g.problem.Feasible σ →
      Independent (fun c => ¬ Identity c ∧ ∀ n, 0 < n → n < 41 → c ≠ headRow 4 n) g.problem.cons σ := by
  obtain ⟨hc, hco, hi0, hi1⟩ := cpp1_stored asserts
  obtain ⟨⟨T, hT⟩, -⟩ := C85_example asserts Examples.cpp1 (.inl rfl)
  obtain ⟨hr, hradius⟩ := And.intro hT.solves.ready hT.solves.radius
  obtain ⟨g, hg, hf, -, he⟩ := C29_problem _ ⟨asserts, _, rfl⟩ shippedRobot hr hradius 0
  refine ⟨g, hg, ?_, fun σ hσ => ?_⟩
  · obtain ⟨σ, h, -⟩ := (he T).mp hT.solves.obeys
    exact ⟨σ, h⟩
  have hob := (hf σ).mp hσ
  have hs : Solves _ shippedRobot (decode g.vars σ) := (solves_iff ⟨asserts, _, rfl⟩ hr hradius).mpr hob
  have hdt : 0 < (decode g.vars σ).dt 0 := by
    refine lt_of_le_of_ne (hob.time 0 (by rw [hc]; simp)) fun h => ?_
    have hw : waypointSample [40] 0 = 0 ∧ waypointSample [40] 1 = 40 := ⟨rfl, rfl⟩
    have e := segment_sum hs (s := 0) (by rw [hc]; simp) (k := 40) (by simp [hc])
    have a0 := (hob.instant 0 (Nat.zero_le _) (.poseEquality 0 0 0) (by rw [hi0]; simp)).1
    have a1 := (hob.instant 1 (by rw [hc]; simp) (.poseEquality 1 0 0) (by rw [hi1]; simp)).1
    rw [hc] at e a0 a1
    rw [hw.1] at e a0
    rw [hw.2] at a1
    rw [Nat.zero_add, a0, a1, ← h] at e
    have := congrArg Complex.re e
    norm_num [vec] at this
  have := C109_stops_partial _ ⟨asserts, _, rfl⟩ shippedRobot hr 0 g hg σ hσ 0 0 0 (by rw [hi0]; simp)
    ⟨[], by simp, by rw [hi0]; exact List.Sublist.subperm (by simp)⟩ (by
      intro w h1 h2
      rw [hc] at h2 ⊢
      obtain rfl : w = 1 := by simp at h2; omega
      refine .inr ⟨by simp, hdt, .inl ⟨1, 0, 0, by rw [hi1]; simp, [], by simp, ?_⟩⟩
      rw [hi1]; exact List.Sublist.subperm (by simp)) (by
      intro s hs c hcm
      rw [hc] at hs
      obtain rfl : s = 0 := by simpa using hs
      rw [hco] at hcm
      simp at hcm) ⟨0, by simp [shippedRobot]⟩ ⟨1, by simp [shippedRobot]⟩ (by norm_num [shippedRobot])
  rw [hc] at this
  exact this

end Trajopt.Props
