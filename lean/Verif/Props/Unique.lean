import Verif.Spec.Unique
import Verif.Props.Throttle
import Verif.Props.Optimal
import Verif.Props.Invariance

/-!
# C121 Is the fastest trajectory the only one?
-/

set_option autoImplicit false

namespace Trajopt.Props

open Spec

/-! ### Turned about -/

theorem meaning_turned {c : Constraint ℝ} (hc : EitherWay c) {s : State} (h : Meaning c s) :
    Meaning c { s with heading := -s.heading } := by
  cases c with
  | pointAt => exact hc.elim
  | linePoint => exact hc.elim
  | pointLine r a b d =>
    obtain rfl : r = ⟨0, 0⟩ := hc
    simpa [Meaning, State.onRobot, vec, show (⟨0, 0⟩ : ℂ) = 0 from rfl] using h
  | pointPoint r p d =>
    obtain rfl : r = ⟨0, 0⟩ := hc
    simpa [Meaning, State.onRobot, vec, show (⟨0, 0⟩ : ℂ) = 0 from rfl] using h
  | poseEquality x y θ => exact ⟨h.1, h.2.symm.imp (fun e => by rw [e, neg_neg]) (fun e => by rw [e])⟩
  | _ => exact h

theorem interval_turned {dt : ℝ} {a b : State} (h : Interval dt a b) (x y : ℂ) (hx : x = a.heading ∨ x = -a.heading)
    (hy : y = b.heading ∨ y = -b.heading) : Interval dt { a with heading := x } { b with heading := y } := by
  refine ⟨h.pos, ?_, h.vel, h.omega⟩
  have := h.turn
  rcases hx with rfl | rfl <;> rcases hy with rfl | rfl <;>
  simp only [map_neg, mul_neg, neg_mul, neg_neg, neg_inj] <;> [skip; rw [neg_eq_iff_eq_neg, or_comm];
    rw [neg_eq_iff_eq_neg, or_comm]; skip] <;> exact this

theorem dynamics_turned {dr : SwerveDrivetrain ℝ} {opp : Equiv.Perm (Fin dr.modules.length)}
    (ho : HalfTurnSymmetric dr opp) {s : State} {F G : ℕ → ℂ} (h : Dynamics dr s F)
    (hG : ∀ j : Fin dr.modules.length, G j = F (opp j)) : Dynamics dr { s with heading := -s.heading } G := by
  have hl : ∀ j, lever { s with heading := -s.heading } dr.modules[j] = lever s dr.modules[opp j] := by
    intro j
    rw [lever, lever, ho.place]
    ring
  refine ⟨?_, ?_, ?_, ?_⟩
  · rw [← h.force]
    simp only [hG]
    exact Equiv.sum_comp opp fun j => F j
  · rw [← h.torque]
    simp only [hG, hl]
    exact Equiv.sum_comp opp fun j => torque (lever s dr.modules[j]) (F j)
  · intro m hm
    obtain ⟨j, rfl⟩ := List.mem_iff_get.mp hm
    have := h.speed _ (List.getElem_mem (opp j).2)
    rw [List.get_eq_getElem]
    change ‖wheelVelocity _ dr.modules[j]‖ ≤ maxSpeed dr.modules[j]
    rw [← ho.speed j]
    refine le_trans (le_of_eq ?_) this
    change _ = ‖wheelVelocity s dr.modules[opp j]‖
    rw [← norm_neg, wheelVelocity, wheelVelocity, ho.place]
    congr 1
    simp only [map_neg]
    ring
  · intro j
    rw [hG, ← ho.force j]
    exact h.limit (opp j)

/-- C121 (the claim is false): for a robot that looks the same after half a turn, turning it about at any
set of samples at which no constraint depends on which way round it stands gives another trajectory that is
as good.  (At samples in the middle of the way the robot would have to turn about in an instant.) -/
theorem C121_turned (b : Builder ℝ) (dr : SwerveDrivetrain ℝ) (T : Traj) (h : Solves b dr T)
    (opp : Equiv.Perm (Fin dr.modules.length)) (ho : HalfTurnSymmetric dr opp) (S : Set ℕ)
    (hi : ∀ w ≤ (table b).counts.length, waypointSample (table b).counts w ∈ S →
      ∀ c ∈ (table b).instant w, EitherWay c)
    (hc : ∀ s < (table b).counts.length, ∀ n ∈ segmentSamples (table b).counts s, n ∈ S →
      ∀ c ∈ (table b).continuous s, EitherWay c) :
    Solves b dr (T.turnedAt opp S) ∧
      timeTaken (table b).counts (T.turnedAt opp S) = timeTaken (table b).counts T := by
  classical
  have hst : ∀ n, (T.turnedAt opp S).state n = { T.state n with heading :=
      if n ∈ S then -(T.state n).heading else (T.state n).heading } := by
    intro n
    by_cases hn : n ∈ S <;> simp [Traj.turnedAt, hn]
  have hor : ∀ n, (if n ∈ S then -(T.state n).heading else (T.state n).heading) = (T.state n).heading ∨
      (if n ∈ S then -(T.state n).heading else (T.state n).heading) = -(T.state n).heading := by
    intro n; split <;> simp
  have ob := h.obeys
  refine ⟨(solves_iff h.reachable h.ready h.radius).mpr ⟨?_, ?_, ob.time, ob.stepCap, ?_, ?_⟩, rfl⟩
  · intro s hs n hn
    rw [hst, hst]
    exact interval_turned (ob.interval s hs n hn) _ _ (hor _) (hor _)
  · intro n hn
    rw [hst]
    by_cases hS : n ∈ S
    · simp only [hS, if_true]
      refine dynamics_turned ho (ob.dynamics n hn) fun j => ?_
      simp [Traj.turnedAt, hS]
    · simp only [hS, if_false]
      have e : ∀ j, (T.turnedAt opp S).force n j = T.force n j := fun j => by simp [Traj.turnedAt, hS]
      rw [show (T.turnedAt opp S).force n = T.force n from funext e]
      exact ob.dynamics n hn
  · intro w hw c hcw
    rw [hst]
    have := ob.instant w hw c hcw
    by_cases hS : waypointSample (table b).counts w ∈ S
    · simp only [hS, if_true]
      exact meaning_turned (hi w hw hS c hcw) this
    · simpa only [hS, if_false] using this
  · intro s hs c hcs n hn
    rw [hst]
    have := ob.continuous s hs c hcs n hn
    by_cases hS : n ∈ S
    · simp only [hS, if_true]
      exact meaning_turned (hc s hs n hn hS c hcs) this
    · simpa only [hS, if_false] using this

/-! ### Pushed at the first sample -/

/-- C121 (the claim is false): the forces at the first sample move nothing.  Any others that the wheels can
exert, with the accelerations that they cause, make another trajectory, as long as an acceleration limit at
the start allows it. -/
theorem C121_pushed (b : Builder ℝ) (dr : SwerveDrivetrain ℝ) (T : Traj) (h : Solves b dr T)
    (hmass : dr.mass ≠ 0) (hmoi : dr.moi ≠ 0) (F : ℕ → ℂ)
    (hF : ∀ j : Fin dr.modules.length, ‖F j‖ ≤ maxForce dr.modules[j])
    (ha : ∀ w ≤ (table b).counts.length, waypointSample (table b).counts w = 0 →
      ∀ m, .linearAccelerationMaxMagnitude m ∈ (table b).instant w →
      ‖(∑ j : Fin dr.modules.length, F j) / (dr.mass : ℂ)‖ ≤ |m|) :
    Solves b dr (T.pushed dr F) ∧ timeTaken (table b).counts (T.pushed dr F) = timeTaken (table b).counts T := by
  have ob := h.obeys
  refine ⟨(solves_iff h.reachable h.ready h.radius).mpr ⟨?_, ?_, ob.time, ob.stepCap, ?_, ?_⟩, rfl⟩
  · intro s hs n hn
    have hi := ob.interval s hs n hn
    have hn0 : n ≠ 0 := by
      have := (Finset.mem_Ioc.mp hn).1
      omega
    by_cases h1 : n - 1 = 0
    · rw [h1] at hi ⊢
      simp only [Traj.pushed, hn0, if_false, if_true]
      exact ⟨hi.pos, hi.turn, hi.vel, hi.omega⟩
    · simpa only [Traj.pushed, hn0, h1, if_false] using hi
  · intro n hn
    by_cases h0 : n = 0
    · subst h0
      simp only [Traj.pushed, if_true]
      refine ⟨?_, ?_, (ob.dynamics 0 hn).speed, hF⟩
      · rw [mul_div_cancel₀ _ (by exact_mod_cast hmass)]
      · rw [mul_div_cancel₀ _ hmoi]
        rfl
    · simpa only [Traj.pushed, h0, if_false] using ob.dynamics n hn
  · intro w hw c hcw
    have := ob.instant w hw c hcw
    by_cases h0 : waypointSample (table b).counts w = 0
    · rw [h0] at this ⊢
      simp only [Traj.pushed, if_true]
      cases c with
      | linearAccelerationMaxMagnitude m => exact ha w hw h0 m hcw
      | _ => exact this
    · simpa only [Traj.pushed, h0, if_false] using this
  · intro s hs c hcs n hn
    have hn0 : n ≠ 0 := by
      have := (Finset.mem_Ioc.mp hn).1
      omega
    simpa only [Traj.pushed, hn0, if_false] using ob.continuous s hs c hcs n hn

/-- Another trajectory that takes the same time is as fast. -/
theorem fastest_of_time {b : Builder ℝ} {dr : SwerveDrivetrain ℝ} {T T' : Traj} (h : Fastest b dr T)
    (h' : Solves b dr T' ∧ timeTaken (table b).counts T' = timeTaken (table b).counts T) : Fastest b dr T' :=
  ⟨h'.1, fun T'' h'' => h'.2.trans_le (h.least T'' h'')⟩

/-- C121 (the claim is false): no path of a robot with a driven wheel has only one fastest trajectory, unless
it forbids all acceleration at the start: the accelerations at the first sample of fastest trajectories differ. -/
theorem C121_refuted (b : Builder ℝ) (dr : SwerveDrivetrain ℝ) (T : Traj) (h : Fastest b dr T)
    (hmass : dr.mass ≠ 0) (hmoi : dr.moi ≠ 0) (m : SwerveModule ℝ) (hm : m ∈ dr.modules) (hd : 0 < maxForce m)
    (ha : ∀ w ≤ (table b).counts.length, waypointSample (table b).counts w = 0 →
      ∀ a, .linearAccelerationMaxMagnitude a ∈ (table b).instant w → a ≠ 0) :
    ∃ T', Fastest b dr T' ∧ T'.dt = T.dt ∧ (T'.state 0).acc ≠ (T.state 0).acc ∧
      ∀ n, 0 < n → T'.state n = T.state n := by
  obtain ⟨j, hj⟩ := List.mem_iff_get.mp hm
  obtain ⟨ε, hε, hεa⟩ : ∃ ε > 0, ∀ w ≤ (table b).counts.length, waypointSample (table b).counts w = 0 →
      ∀ a, .linearAccelerationMaxMagnitude a ∈ (table b).instant w → ε ≤ |a| := by
    have one : ∀ l : List (Constraint ℝ), (∀ a, .linearAccelerationMaxMagnitude a ∈ l → a ≠ 0) →
        ∃ ε > 0, ∀ a, .linearAccelerationMaxMagnitude a ∈ l → ε ≤ |a| := by
      intro l
      induction l with
      | nil => exact fun _ => ⟨1, one_pos, by simp⟩
      | cons c l ih =>
        intro hl
        obtain ⟨ε, h0, he⟩ := ih fun a hal => hl a (List.mem_cons_of_mem _ hal)
        by_cases hc : ∃ a, c = .linearAccelerationMaxMagnitude a
        · obtain ⟨a, rfl⟩ := hc
          refine ⟨min ε |a|, lt_min h0 (abs_pos.mpr (hl a List.mem_cons_self)), fun a' ha' => ?_⟩
          rcases List.mem_cons.mp ha' with e | e
          · cases e; exact min_le_right _ _
          · exact (min_le_left _ _).trans (he a' e)
        · refine ⟨ε, h0, fun a' ha' => ?_⟩
          rcases List.mem_cons.mp ha' with e | e
          · exact absurd ⟨a', e.symm⟩ hc
          · exact he a' e
    choose! ε h0 he using fun w (hw : w ≤ (table b).counts.length ∧ waypointSample (table b).counts w = 0) =>
      one _ (ha w hw.1 hw.2)
    by_cases hne : ((Finset.range ((table b).counts.length + 1)).filter
        fun w => waypointSample (table b).counts w = 0).Nonempty
    · refine ⟨Finset.inf' _ hne ε, ?_, fun w hw hw0 a hal => ?_⟩
      · rw [gt_iff_lt, Finset.lt_inf'_iff]
        intro w hw
        rw [Finset.mem_filter, Finset.mem_range] at hw
        exact h0 w ⟨by omega, hw.2⟩
      · refine le_trans (Finset.inf'_le _ ?_) (he w ⟨hw, hw0⟩ a hal)
        rw [Finset.mem_filter, Finset.mem_range]
        exact ⟨by omega, hw0⟩
    · refine ⟨1, one_pos, fun w hw hw0 a _ => ?_⟩
      exact absurd ⟨w, Finset.mem_filter.mpr ⟨Finset.mem_range.mpr (by omega), hw0⟩⟩ hne
  set f : ℝ := min (maxForce m) (|dr.mass| * ε) with hf
  have hf0 : 0 < f := lt_min hd (by have := abs_pos.mpr hmass; positivity)
  have push : ∀ x : ℝ, 0 ≤ x → x ≤ f → Fastest b dr (T.pushed dr fun i => if i = j then (x : ℂ) else 0) ∧
      ((T.pushed dr fun i => if i = j then (x : ℂ) else 0).state 0).acc = x / dr.mass := by
    intro x hx0 hx
    have hsum : ∑ i : Fin dr.modules.length, (if (i : ℕ) = j then (x : ℂ) else 0) = x := by
      simp only [Fin.val_inj]
      rw [Finset.sum_ite_eq']
      simp
    refine ⟨fastest_of_time h (C121_pushed b dr T h.solves hmass hmoi _ ?_ ?_), ?_⟩
    · intro i
      by_cases hij : (i : ℕ) = j
      · rw [if_pos hij, Complex.norm_real, Real.norm_of_nonneg hx0]
        obtain rfl : i = j := Fin.val_inj.mp hij
        change x ≤ maxForce (dr.modules.get i)
        rw [hj]
        exact hx.trans (min_le_left _ _)
      · rw [if_neg hij, norm_zero]
        exact abs_nonneg _
    · intro w hw hw0 a hal
      rw [hsum, norm_div, Complex.norm_real, Complex.norm_real, Real.norm_of_nonneg hx0, Real.norm_eq_abs,
        div_le_iff₀ (abs_pos.mpr hmass)]
      calc x ≤ |dr.mass| * ε := hx.trans (min_le_right _ _)
        _ ≤ |dr.mass| * |a| := mul_le_mul_of_nonneg_left (hεa w hw hw0 a hal) (abs_nonneg _)
        _ = _ := mul_comm _ _
    · simp only [Traj.pushed, if_true]
      rw [hsum]
  have later : ∀ F n, 0 < n → (T.pushed dr F).state n = T.state n := by
    intro F n hn
    simp [Traj.pushed, hn.ne']
  by_cases h0 : (T.state 0).acc = 0
  · obtain ⟨p1, p2⟩ := push f hf0.le le_rfl
    refine ⟨_, p1, rfl, ?_, later _⟩
    rw [p2, h0]
    have : (f : ℂ) ≠ 0 := by exact_mod_cast hf0.ne'
    have : (dr.mass : ℂ) ≠ 0 := by exact_mod_cast hmass
    positivity
  · obtain ⟨p1, p2⟩ := push 0 le_rfl hf0.le
    refine ⟨_, p1, rfl, ?_, later _⟩
    rw [p2]
    simpa using Ne.symm h0

/-! ### What is unique -/

/-- Vectors of length at most `F` whose sum is as long as can be all point the same way. -/
theorem aligned {k : ℕ} {F : ℝ} {w : ℂ} (hw : ‖w‖ = 1) {f : Fin k → ℂ} (hf : ∀ j, ‖f j‖ ≤ F)
    (hs : ∑ j, f j = k * F * w) (j : Fin k) : f j = F * w := by
  have hww : (starRingEnd ℂ) w * w = 1 := by
    rw [mul_comm, Complex.mul_conj, Complex.normSq_eq_norm_sq, hw]; simp
  have hre : ∀ j, ((starRingEnd ℂ) w * f j).re ≤ F := fun j =>
    (Complex.re_le_norm _).trans (by rw [norm_mul, Complex.norm_conj, hw, one_mul]; exact hf j)
  have htot : ∑ j, ((starRingEnd ℂ) w * f j).re = ∑ _j : Fin k, F := by
    rw [← Complex.re_sum, ← Finset.mul_sum, hs, Finset.sum_const, Finset.card_univ, Fintype.card_fin, nsmul_eq_mul,
      mul_left_comm, hww, mul_one, ← Complex.ofReal_natCast, ← Complex.ofReal_mul, Complex.ofReal_re]
  have e := (Finset.sum_eq_sum_iff_of_le fun j _ => hre j).mp htot j (Finset.mem_univ j)
  have hsq : ‖f j - F * w‖ ^ 2 ≤ 0 := by
    have hF : 0 ≤ F := (norm_nonneg _).trans (hf j)
    have hns : ‖f j‖ ^ 2 ≤ F ^ 2 := pow_le_pow_left₀ (norm_nonneg _) (hf j) 2
    have hu2 : w.re * w.re + w.im * w.im = 1 := by
      have := congrArg Complex.re hww
      simp at this
      linarith
    rw [← Complex.normSq_eq_norm_sq, Complex.normSq_apply] at hns ⊢
    simp only [Complex.mul_re, Complex.conj_re, Complex.conj_im, Complex.sub_re, Complex.sub_im,
      Complex.ofReal_re, Complex.ofReal_im, Complex.mul_im] at e ⊢
    have e' : w.re * (f j).re + w.im * (f j).im = F := by linarith
    calc _ = ((f j).re * (f j).re + (f j).im * (f j).im) - 2 * F * (w.re * (f j).re + w.im * (f j).im) +
          F ^ 2 * (w.re * w.re + w.im * w.im) := by ring
      _ ≤ 0 := by rw [hu2, e']; linarith
  rw [← sub_eq_zero, ← norm_eq_zero]
  exact pow_eq_zero_iff two_ne_zero |>.mp (le_antisymm hsq (sq_nonneg _))

/-- C121, the positive part: from standstill to standstill, with equal wheels, all fastest trajectories have
the same time step, positions, velocities and, from the second sample on, accelerations.  Missing: other paths,
the first sample's accelerations, and headings; there the claim is false. -/
theorem C121_motion_partial (dr : SwerveDrivetrain ℝ) (F V : ℝ) (hu : Uniform dr F V)
    (b : Builder ℝ) (hb : Reachable b) (hr : Ready b dr) (N : ℕ) (hN : 2 ≤ N)
    (hcounts : (table b).counts = [N]) (hcont : (table b).continuous 0 = [])
    (p q : ℂ) (θ : ℝ) (hpq : p ≠ q)
    (h0 : ∀ s : State, (∀ c ∈ (table b).instant 0, Meaning c s) → s.pos = p ∧ s.vel = 0)
    (h1 : ∀ s : State, (∀ c ∈ (table b).instant 1, Meaning c s) → s.pos = q ∧ s.vel = 0)
    (h0' : ∀ a, ∀ c ∈ (table b).instant 0, Meaning c ⟨p, unitVec θ, 0, a, 0, 0⟩)
    (h1' : ∀ a, ∀ c ∈ (table b).instant 1, Meaning c ⟨q, unitVec θ, 0, a, 0, 0⟩)
    (dt : ℝ) (hdt : dt = √(‖q - p‖ / (topAcceleration dr * (N ^ 2 / 4 : ℕ))))
    (hspeed : topAcceleration dr * dt * (N / 2 : ℕ) ≤ V) (hcap : ∀ g, Gap dr g → dt * V ≤ g)
    (T T' : Traj) (hT : Fastest b dr T) (hT' : Fastest b dr T') :
    T.dt 0 = T'.dt 0 ∧ ∀ n ≤ N, (T.state n).pos = (T'.state n).pos ∧ (T.state n).vel = (T'.state n).vel ∧
      (0 < n → (T.state n).acc = (T'.state n).acc) ∧
      (0 < n → Even N → ∀ j < dr.modules.length, T.force n j = T'.force n j) := by
  have key := (C85_fastest dr F V hu b hb hr N hN hcounts hcont p q θ hpq h0 h1 h0' h1' dt hdt hspeed hcap).2
  have hNr : (N : ℝ) ≠ 0 := by exact_mod_cast (by omega : N ≠ 0)
  have hs0 : 0 < (table b).counts.length := by rw [hcounts]; simp
  have hget : (table b).counts[0] = N := by simp [hcounts]
  have hw0 : waypointSample (table b).counts 0 = 0 := by simp [waypointSample]
  have time : ∀ T, Fastest b dr T → T.dt 0 = dt := by
    intro T hT
    have := (key T hT).1
    rw [hcounts] at this
    simp only [timeTaken, List.length_singleton, Finset.range_one, Finset.sum_singleton, List.getD_cons_zero] at this
    exact mul_left_cancel₀ hNr this
  have pos : ∀ T, Fastest b dr T → ∀ n ≤ N, (T.state n).pos = p + dt * ∑ i ∈ Finset.range n,
      ((topAcceleration dr * dt * (min (i + 1) (N - (i + 1)) : ℕ) : ℝ) * ((q - p) / (‖q - p‖ : ℝ)) : ℂ) := by
    intro T hT n hn
    have hs := segment_sum hT.solves hs0 (k := n) (by rw [hget]; exact hn)
    have a0 := (h0 _ (hT.solves.obeys.instant 0 (by omega))).1
    rw [hw0] at a0 hs
    simp only [Nat.zero_add] at hs
    rw [a0, time T hT] at hs
    rw [← Finset.sum_congr rfl fun i hi => (key T hT).2 (i + 1) (by have := Finset.mem_range.mp hi; omega), ← hs]
    ring
  have hM : 0 < dr.modules.length := List.length_pos_iff.mpr hu.some
  have hA : topAcceleration dr = dr.modules.length * F / dr.mass := by
    rw [topAcceleration, List.map_congr_left hu.force]
    simp
  have hA0 : 0 < topAcceleration dr := by
    rw [hA]
    have := hu.mass
    have := hu.force_pos
    have : (0 : ℝ) < dr.modules.length := by exact_mod_cast hM
    positivity
  have hD0 : 0 < ‖q - p‖ := norm_pos_iff.mpr (sub_ne_zero.mpr hpq.symm)
  have hdt0 : 0 < dt := by
    have : (0 : ℝ) < (N ^ 2 / 4 : ℕ) := by exact_mod_cast Nat.div_pos (by nlinarith) (by norm_num)
    rw [hdt]; positivity
  have hdtc : (dt : ℂ) ≠ 0 := by exact_mod_cast hdt0.ne'
  have hun : ‖(q - p) / ((‖q - p‖ : ℝ) : ℂ)‖ = 1 := by
    rw [norm_div, Complex.norm_real, norm_norm, div_self hD0.ne']
  have acc : ∀ T, Fastest b dr T → ∀ n, 0 < n → n ≤ N → (T.state n).acc =
      ((topAcceleration dr * ((min n (N - n) : ℕ) - (min (n - 1) (N - (n - 1)) : ℕ)) : ℝ) : ℂ) *
        ((q - p) / (‖q - p‖ : ℝ)) := by
    intro T hT n h0 hn
    obtain ⟨k, rfl⟩ : ∃ k, n = k + 1 := ⟨n - 1, by omega⟩
    have := (segment_step hT.solves hs0 (k := k) (by rw [hget]; omega)).vel
    rw [hw0, Nat.zero_add, Nat.zero_add, (key T hT).2 _ hn, (key T hT).2 k (by omega), time T hT] at this
    rw [Nat.add_sub_cancel]
    refine mul_left_cancel₀ hdtc ?_
    rw [← sub_eq_iff_eq_add'.mpr this]
    push_cast
    ring
  refine ⟨by rw [time T hT, time T' hT'], fun n hn => ⟨by rw [pos T hT n hn, pos T' hT' n hn],
    by rw [(key T hT).2 n hn, (key T' hT').2 n hn], fun h0 => by rw [acc T hT n h0 hn, acc T' hT' n h0 hn], ?_⟩⟩
  intro h0 hE j hj
  have force : ∀ T, Fastest b dr T → T.force n j =
      F * (((((min n (N - n) : ℕ) - (min (n - 1) (N - (n - 1)) : ℕ)) : ℝ) : ℂ) * ((q - p) / (‖q - p‖ : ℝ))) := by
    intro T hT
    have hd := hT.solves.obeys.dynamics n (by rw [hcounts, sampleCount]; simp; omega)
    refine aligned (k := dr.modules.length) (f := fun j => T.force n j) (F := F) ?_ (fun i => ?_) ?_ ⟨j, hj⟩
    · rw [norm_mul, hun, mul_one, Complex.norm_real, Real.norm_eq_abs]
      obtain ⟨k, rfl⟩ := hE
      rcases le_or_gt n k with hk | hk
      · rw [show min n (k + k - n) = (n - 1) + 1 by omega, show min (n - 1) (k + k - (n - 1)) = n - 1 by omega]
        push_cast
        rw [add_sub_cancel_left, abs_one]
      · rw [show min (n - 1) (k + k - (n - 1)) = min n (k + k - n) + 1 by omega]
        push_cast
        rw [sub_add_cancel_left, abs_neg, abs_one]
    · have := hd.limit i
      exact this.trans_eq (hu.force _ (List.getElem_mem i.2))
    · rw [hd.force, acc T hT n h0 hn, hA]
      have : (dr.mass : ℂ) ≠ 0 := by exact_mod_cast hu.mass.ne'
      push_cast
      field_simp
  rw [force T hT, force T' hT']

/-! ### The first example program -/

theorem shipped_halfTurn : HalfTurnSymmetric shippedRobot (Fin.revPerm : Equiv.Perm (Fin 4)) := by
  constructor
  · intro j
    change Fin 4 at j
    fin_cases j
    · change vec ⟨-0.6, -0.6⟩ = -vec ⟨0.6, 0.6⟩
      apply Complex.ext <;> simp [vec]
    · change vec ⟨-0.6, 0.6⟩ = -vec ⟨0.6, -0.6⟩
      apply Complex.ext <;> simp [vec]
    · change vec ⟨0.6, -0.6⟩ = -vec ⟨-0.6, 0.6⟩
      apply Complex.ext <;> simp [vec]
    · change vec ⟨0.6, 0.6⟩ = -vec ⟨-0.6, -0.6⟩
      apply Complex.ext <;> simp [vec]
  · intro j
    change Fin 4 at j
    fin_cases j <;> rfl
  · intro j
    change Fin 4 at j
    fin_cases j <;> rfl

/-- The example program's path, as the builder stores it. -/
theorem cpp1_stored (asserts : Bool) :
    let b : Builder ℝ := run asserts Examples.cpp1 Builder.new
    (table b).counts = [40] ∧ (table b).continuous 0 = [] ∧
      (table b).instant 0 = [.poseEquality 0 0 0, .linearVelocityMaxMagnitude 0] ∧
      (table b).instant 1 = [.poseEquality 1 0 0, .linearVelocityMaxMagnitude 0] := by
  intro b
  obtain ⟨e, hr⟩ : table b = PathTable.empty.afterAll Examples.cpp1 ∧ Ready b shippedRobot := by
    refine ready_of ?_ _ rfl ?_ ?_ ?_ <;>
    simp [Examples.cpp1, PathTable.AcceptsAll, PathTable.Accepts, PathTable.afterAll, PathTable.after,
      PathTable.empty, PathTable.reach, PathTable.requireAt, PathTable.guessAt, examples_robot, sampleCount]
  rw [e]
  simp [Examples.cpp1, PathTable.afterAll, PathTable.after, Examples.noSpeed,
    PathTable.empty, PathTable.reach, PathTable.requireAt, PathTable.guessAt]

/-- C121 is false, though no sample stands out: the first example program has for every set of samples a fastest
trajectory that has the robot turned about at these.  So there are at least `2 ^ 41` of them. -/
theorem C121_example_refuted (asserts : Bool) :
    let b : Builder ℝ := run asserts Examples.cpp1 Builder.new
    ∃ T : Set ℕ → Traj, (∀ S, Fastest b shippedRobot (T S)) ∧
      ∀ S, ∀ n ≤ 40, ((T S).state n).pos = ((T ∅).state n).pos ∧
        ((T S).state n).vel = ((T ∅).state n).vel ∧
        (n ∈ S → ((T S).state n).heading = -((T ∅).state n).heading ∧ ((T S).state n).heading ≠ ((T ∅).state n).heading) ∧
        (n ∉ S → ((T S).state n).heading = ((T ∅).state n).heading) := by
  intro b
  obtain ⟨hc, hco, hi0, hi1⟩ := cpp1_stored asserts
  obtain ⟨T, hT⟩ := (C85_example asserts Examples.cpp1 (.inl rfl)).1
  have e0 : T.turnedAt (Fin.revPerm : Equiv.Perm (Fin 4)) ∅ = T := by simp [Traj.turnedAt]
  refine ⟨fun S => T.turnedAt (Fin.revPerm : Equiv.Perm (Fin 4)) S, fun S => ?_, fun S n hn => ?_⟩
  · refine fastest_of_time hT (C121_turned b shippedRobot T hT.solves Fin.revPerm shipped_halfTurn S ?_ ?_)
    · intro w hw _ c hcm
      rw [hc, List.length_singleton] at hw
      interval_cases w
      · rw [hi0] at hcm
        simp only [List.mem_cons, List.not_mem_nil, or_false] at hcm
        rcases hcm with rfl | rfl <;> trivial
      · rw [hi1] at hcm
        simp only [List.mem_cons, List.not_mem_nil, or_false] at hcm
        rcases hcm with rfl | rfl <;> trivial
    · intro s hs n _ _ c hcm
      rw [hc, List.length_singleton, Nat.lt_one_iff] at hs
      rw [hs, hco] at hcm
      simp at hcm
  · have hu : ‖(T.state n).heading‖ = 1 :=
      C33_pose_partial b shippedRobot T hT.solves 0 (Nat.zero_le _) 0 0 0 (by rw [hi0]; simp) n
        (by rw [hc]; simp [sampleCount]; omega)
    have hne : (T.state n).heading ≠ 0 := norm_ne_zero_iff.mp (by rw [hu]; exact one_ne_zero)
    simp only [e0]
    by_cases hS : n ∈ S
    · simp [Traj.turnedAt, hS, neg_eq_self, hne]
    · simp [Traj.turnedAt, hS]

/-- The hypotheses of `C121_refuted` are met, too. -/
example (asserts : Bool) : ∃ T T', T.dt = T'.dt ∧ Fastest (run asserts Examples.cpp1 Builder.new) shippedRobot T ∧
    Fastest (run asserts Examples.cpp1 Builder.new) shippedRobot T' ∧ (T.state 0).acc ≠ (T'.state 0).acc := by
  obtain ⟨hc, hco, hi0, hi1⟩ := cpp1_stored asserts
  obtain ⟨T, hT⟩ := (C85_example asserts Examples.cpp1 (.inl rfl)).1
  obtain ⟨T', h1, h2, h3, -⟩ := C121_refuted _ shippedRobot T hT (by norm_num [shippedRobot]) (by norm_num [shippedRobot])
    ⟨⟨0.6, 0.6⟩, 0.04, 70, 2⟩ (by simp [shippedRobot]) (by norm_num [maxForce]) (by
      intro w hw hz a hm
      rw [hc] at hw hz
      rw [List.length_singleton] at hw
      interval_cases w
      · rw [hi0] at hm
        simp at hm
      · simp [waypointSample] at hz)
  exact ⟨T, T', h2.symm, hT, h1, h3.symm⟩

/-! ### Either side of an obstacle -/

/-- Two modules, one in front and one behind. -/
noncomputable def axisRobot : SwerveDrivetrain ℝ where
  mass := 2
  moi := 1
  modules := [⟨⟨1, 0⟩, 1, 2, 20⟩, ⟨⟨-1, 0⟩, 1, 2, 20⟩]

/-- One metre, past a point half way that is to be 7/4 metres away. -/
noncomputable def detourOps : List (Op ℝ) :=
  [.setDrivetrain axisRobot, .poseWpt 0 0 0 0, .wptConstraint 1 (.pointPoint ⟨0, 0⟩ ⟨1 / 2, 0⟩ (7 / 4)),
    .poseWpt 2 1 0 0, .controlIntervalCounts [1, 1]]

theorem detour_table (asserts : Bool) :
    let b := run asserts detourOps Builder.new
    Ready b axisRobot ∧ (table b).counts = [1, 1] ∧ (∀ s < 2, (table b).continuous s = []) ∧
    (table b).instant 0 = [.poseEquality 0 0 0] ∧
    (table b).instant 1 = [.pointPoint ⟨0, 0⟩ ⟨1 / 2, 0⟩ (7 / 4)] ∧
    (table b).instant 2 = [.poseEquality 1 0 0] := by
  intro b
  obtain ⟨e, hr⟩ : table b = PathTable.empty.afterAll detourOps ∧ Ready b axisRobot := by
    refine ready_of ?_ _ rfl ?_ ?_ ?_ <;>
    simp [detourOps, PathTable.AcceptsAll, PathTable.Accepts, PathTable.afterAll, PathTable.after,
      PathTable.empty, PathTable.reach, PathTable.requireAt, PathTable.guessAt, sampleCount]
  refine ⟨hr, ?_⟩
  rw [e]
  simp [detourOps, PathTable.afterAll, PathTable.after,
    PathTable.empty, PathTable.reach, PathTable.requireAt, PathTable.guessAt]

theorem axis_radius : ∀ m ∈ axisRobot.modules, m.wheelRadius ≠ 0 := by
  intro m hm
  simp only [axisRobot, List.mem_cons, List.not_mem_nil, or_false] at hm
  rcases hm with rfl | rfl <;> norm_num

theorem axis_gap (g : ℝ) (h : Gap axisRobot g) : g = 2 := by
  obtain ⟨hg, a, b, hab, h⟩ := h
  simp only [axisRobot, List.tail_cons, List.zip_cons_cons, List.zip_nil_right, List.mem_cons,
    List.not_mem_nil, or_false, Prod.mk.injEq] at hab
  obtain ⟨rfl, rfl⟩ := hab
  rcases h with rfl | rfl <;> first | (norm_num; done) | norm_num at hg

theorem axis_glides {p v a : ℂ} (hv : ‖v‖ ≤ 2) (ha : ‖a‖ ≤ 20) :
    Dynamics axisRobot ⟨p, 1, v, a, 0, 0⟩ fun _ => a := by
  refine ⟨?_, ?_, ?_, ?_⟩
  · change ∑ j : Fin 2, _ = _
    rw [Fin.sum_univ_two]
    simp [axisRobot]
    ring
  · change ∑ j : Fin 2, _ = _
    rw [Fin.sum_univ_two]
    simp [axisRobot, torque, lever, vec]
  · intro m hm
    simp only [axisRobot, List.mem_cons, List.not_mem_nil, or_false] at hm
    rcases hm with rfl | rfl <;> simpa [wheelVelocity, maxSpeed] using hv
  · intro j
    change Fin 2 at j
    fin_cases j <;> simpa [axisRobot, maxForce] using ha

/-- Past the point, on its left. -/
noncomputable def detourTraj : Traj where
  state n := match n with
    | 0 => ⟨0, 1, ⟨1 / 2, 7 / 4⟩, 0, 0, 0⟩
    | 1 => ⟨⟨1 / 2, 7 / 4⟩, 1, ⟨1 / 2, 7 / 4⟩, 0, 0, 0⟩
    | _ => ⟨1, 1, ⟨1 / 2, -(7 / 4)⟩, ⟨0, -(7 / 2)⟩, 0, 0⟩
  force n _ := match n with
    | 0 => 0
    | 1 => 0
    | _ => ⟨0, -(7 / 2)⟩
  dt _ := 1

theorem detour_solves (asserts : Bool) : Solves (run asserts detourOps Builder.new) axisRobot detourTraj := by
  obtain ⟨hr, hc, hco, hi0, hi1, hi2⟩ := detour_table asserts
  have hn : ∀ x y r : ℝ, 0 ≤ r → x * x + y * y ≤ r * r → ‖(⟨x, y⟩ : ℂ)‖ ≤ r := fun x y r hr h =>
    abs_le_of_sq_le_sq' (by rw [← Complex.normSq_eq_norm_sq, Complex.normSq_apply, sq]; exact h) hr |>.2
  refine (solves_iff ⟨asserts, _, rfl⟩ hr axis_radius).mpr ⟨?_, ?_, ?_, ?_, ?_, ?_⟩
  · rw [hc]
    intro s hs n hn
    have hs : s < 2 := hs
    have hn' := Finset.mem_Ioc.mp hn
    have h4 : 1 ≤ n ∧ n ≤ 2 := by
      interval_cases s <;> simp [waypointSample] at hn' <;> omega
    obtain ⟨h1, h2⟩ := h4
    refine ⟨?_, .inl ?_, ?_, ?_⟩ <;> interval_cases n <;>
      first
      | (simp [detourTraj, unitVec]; done)
      | (apply Complex.ext <;> (simp [detourTraj]; try norm_num))
  · rw [hc]
    intro n hn'
    have hn3 : n < 3 := hn'
    interval_cases n
    · exact axis_glides (hn _ _ _ (by norm_num) (by norm_num)) (by simp)
    · exact axis_glides (hn _ _ _ (by norm_num) (by norm_num)) (by simp)
    · exact axis_glides (hn _ _ _ (by norm_num) (by norm_num)) (hn _ _ _ (by norm_num) (by norm_num))
  · intro s _
    simp [detourTraj]
  · intro s _ m hm g hg
    rw [axis_gap g hg]
    simp only [axisRobot, List.mem_cons, List.not_mem_nil, or_false] at hm
    rcases hm with rfl | rfl <;> norm_num [detourTraj]
  · rw [hc]
    intro w hw c hcm
    have hw : w ≤ 2 := hw
    interval_cases w
    · rw [hi0, List.mem_singleton] at hcm
      subst hcm
      exact ⟨by apply Complex.ext <;> simp [detourTraj, vec, waypointSample],
        .inl (by simp [detourTraj, waypointSample, unitVec])⟩
    · rw [hi1, List.mem_singleton] at hcm
      subst hcm
      have e : waypointSample [1, 1] 1 = 1 := rfl
      simp only [Meaning, State.onRobot, e, detourTraj]
      rw [dist_eq_norm]
      refine le_trans ?_ (Complex.abs_im_le_norm _)
      norm_num [vec, abs_of_pos]
    · rw [hi2, List.mem_singleton] at hcm
      subst hcm
      exact ⟨by apply Complex.ext <;> simp [detourTraj, vec, waypointSample],
        .inl (by simp [detourTraj, waypointSample, unitVec])⟩
  · rw [hc]
    intro s hs c hcm
    rw [hco s hs] at hcm
    simp at hcm

/-- C121 is false even of where the robot drives: past an obstacle in its way there are two fastest trajectories, one
on each side. -/
theorem C121_sides_refuted (asserts : Bool) :
    let b := run asserts detourOps Builder.new
    (∃ T, Fastest b axisRobot T) ∧
    ∀ T, Fastest b axisRobot T → ∃ T', Fastest b axisRobot T' ∧ (T'.state 1).pos ≠ (T.state 1).pos := by
  intro b
  obtain ⟨hr, hc, hco, hi0, hi1, hi2⟩ := detour_table asserts
  refine ⟨C78_fastest b axisRobot ⟨_, detour_solves asserts⟩ 0 (Nat.zero_le _) 0 0 0 (by rw [hi0]; simp)
    ⟨⟨⟨1, 0⟩, 1, 2, 20⟩, by simp [axisRobot], ⟨⟨-1, 0⟩, 1, 2, 20⟩, by simp [axisRobot], by norm_num⟩
    (by norm_num [axisRobot]) (by norm_num [axisRobot]), fun T hT => ?_⟩
  have hrobot : mirror.drivetrain axisRobot = axisRobot := by
    simp [Change.drivetrain, Change.wheel, axisRobot, mirror]
  have hops : detourOps.map mirror.op = detourOps := by
    simp only [detourOps, List.map_cons, List.map_nil, Change.op, hrobot, Change.con]
    simp [mirror]
  have hm : Solves b axisRobot T.mirrored := by
    have := (C61_mirror asserts detourOps axisRobot T).mp hT.solves
    rwa [hops, hrobot] at this
  refine ⟨T.mirrored, fastest_of_time hT ⟨hm, rfl⟩, fun heq => ?_⟩
  have him : (T.state 1).pos.im = 0 := by
    have := congrArg Complex.im heq
    simp [Traj.mirrored, State.mirrored] at this
    linarith
  have hu : ∀ n < 3, ‖(T.state n).heading‖ = 1 := fun n hn =>
    C33_pose_partial b axisRobot T hT.solves 0 (Nat.zero_le _) 0 0 0 (by rw [hi0]; simp) n (by rw [hc]; exact hn)
  have hstep : ∀ n < 2, ‖(T.state (n + 1)).pos - (T.state n).pos‖ ≤ 2 := fun n hn =>
    C38_step b axisRobot T hT.solves n (by rw [hc]; change n + 1 < 3; omega) (hu _ (by omega))
      (by apply Complex.ext <;> simp [axisRobot, vec])
      (by
        intro m hm
        simp only [axisRobot, List.mem_cons, List.not_mem_nil, or_false] at hm
        rcases hm with rfl | rfl <;> norm_num)
      0 (by norm_num [axisRobot]) 2 (by norm_num) (.inl (by norm_num [axisRobot]))
  have p0 : (T.state 0).pos = 0 := by
    have := (hT.solves.obeys.instant 0 (Nat.zero_le _) (.poseEquality 0 0 0) (by rw [hi0]; simp)).1
    rw [hc] at this
    rw [show T.state 0 = T.state (waypointSample [1, 1] 0) from rfl, this]
    apply Complex.ext <;> simp [vec]
  have p2 : (T.state 2).pos = 1 := by
    have := (hT.solves.obeys.instant 2 (by rw [hc]; simp) (.poseEquality 1 0 0) (by rw [hi2]; simp)).1
    rw [hc] at this
    rw [show T.state 2 = T.state (waypointSample [1, 1] 2) from rfl, this]
    apply Complex.ext <;> simp [vec]
  have p1 : 7 / 4 ≤ ‖(T.state 1).pos - (1 / 2 : ℝ)‖ := by
    have := hT.solves.obeys.instant 1 (by rw [hc]; simp) (.pointPoint ⟨0, 0⟩ ⟨1 / 2, 0⟩ (7 / 4)) (by rw [hi1]; simp)
    rw [hc] at this
    have e : waypointSample [1, 1] 1 = 1 := rfl
    have v0 : vec (⟨0, 0⟩ : Translation2 ℝ) = 0 := by apply Complex.ext <;> simp [vec]
    have v1 : vec (⟨1 / 2, 0⟩ : Translation2 ℝ) = ((1 / 2 : ℝ) : ℂ) := by apply Complex.ext <;> simp [vec]
    simp only [Meaning, State.onRobot, e, v0, v1, zero_mul, add_zero, dist_eq_norm] at this
    exact (le_abs_self _).trans this
  obtain ⟨x, hx⟩ : ∃ x : ℝ, (T.state 1).pos = x := ⟨(T.state 1).pos.re, by apply Complex.ext <;> simp [him]⟩
  have s0 := hstep 0 (by norm_num)
  have s1 := hstep 1 (by norm_num)
  rw [hx, p0, sub_zero, Complex.norm_real, Real.norm_eq_abs, abs_le] at s0
  rw [hx, p2, ← Complex.ofReal_one, ← Complex.ofReal_sub, Complex.norm_real, Real.norm_eq_abs, abs_le] at s1
  rw [hx, ← Complex.ofReal_sub, Complex.norm_real, Real.norm_eq_abs, le_abs] at p1
  rcases p1 with h | h <;> linarith

end Trajopt.Props
