import Verif.Props.Stronger
import Verif.Spec.Slow
import Mathlib.Algebra.BigOperators.Field

/-!
# C103 Driving more slowly (real arithmetic)
-/

set_option autoImplicit false

namespace Trajopt

open Spec Builder Props

theorem Spec.Interval.slower {k dt : ℝ} (hk : 1 ≤ k) {a b : State} (h : Interval dt a b) :
    Interval (k * dt) (a.slower k) (b.slower k) := by
  have hk0 : k ≠ 0 := by positivity
  have hkc : (k : ℂ) ≠ 0 := by exact_mod_cast hk0
  constructor
  · change b.pos = a.pos + _ * (b.vel / k)
    rw [h.pos]
    push_cast
    field_simp
  · change b.heading * (starRingEnd ℂ) a.heading = unitVec (b.omega / k * (k * dt)) ∨
      b.heading * (starRingEnd ℂ) a.heading = -unitVec (b.omega / k * (k * dt))
    rw [show b.omega / k * (k * dt) = b.omega * dt by field_simp]
    exact h.turn
  · change b.vel / k = a.vel / k + _ * (b.acc / k ^ 2)
    rw [h.vel]
    push_cast
    field_simp
  · change b.omega / k = a.omega / k + k * dt * (b.alpha / k ^ 2)
    rw [h.omega]
    field_simp

theorem Spec.Dynamics.slower {k : ℝ} (hk : 1 ≤ k) {dr : SwerveDrivetrain ℝ} {s : State} {F : ℕ → ℂ}
    (h : Dynamics dr s F) : Dynamics dr (s.slower k) (fun j => F j / k ^ 2) := by
  have hk0 : (0 : ℝ) < k := by positivity
  have hk2 : (1 : ℝ) ≤ k ^ 2 := one_le_pow₀ hk
  constructor
  · change _ = dr.mass * (s.acc / k ^ 2)
    rw [← Finset.sum_div, h.force, mul_div_assoc]
  · change ∑ j : Fin dr.modules.length, Spec.torque (lever s dr.modules[j]) (F j / k ^ 2) =
      dr.moi * (s.alpha / k ^ 2)
    rw [← mul_div_assoc, ← h.torque, Finset.sum_div]
    refine Finset.sum_congr rfl fun j _ => ?_
    rw [Spec.torque, Spec.torque, ← mul_div_assoc, ← Complex.ofReal_pow, Complex.div_ofReal_im]
  · intro m hm
    have e : wheelVelocity (s.slower k) m = wheelVelocity s m / k := by
      simp only [wheelVelocity, State.slower]
      push_cast
      ring
    rw [e, norm_div, Complex.norm_real, Real.norm_of_nonneg hk0.le]
    exact (div_le_self (norm_nonneg _) hk).trans (h.speed m hm)
  · intro j
    rw [norm_div, norm_pow, Complex.norm_real, Real.norm_of_nonneg hk0.le]
    exact (div_le_self (norm_nonneg _) hk2).trans (h.limit j)

theorem Spec.Meaning.slower {k : ℝ} (hk : 1 ≤ k) {c : Constraint ℝ} {s : State} (h : Meaning c s) :
    Meaning c (s.slower k) := by
  have hk0 : (0 : ℝ) < k := by positivity
  have hk2 : (1 : ℝ) ≤ k ^ 2 := one_le_pow₀ hk
  cases c with
  | angularVelocityMaxMagnitude m =>
    change |s.omega / k| ≤ m
    rw [abs_div, abs_of_pos hk0]
    exact (div_le_self (abs_nonneg _) hk).trans h
  | linearAccelerationMaxMagnitude m =>
    change ‖s.acc / k ^ 2‖ ≤ |m|
    rw [norm_div, norm_pow, Complex.norm_real, Real.norm_of_nonneg hk0.le]
    exact (div_le_self (norm_nonneg _) hk2).trans h
  | linearVelocityMaxMagnitude m =>
    change ‖s.vel / k‖ ≤ |m|
    rw [norm_div, Complex.norm_real, Real.norm_of_nonneg hk0.le]
    exact (div_le_self (norm_nonneg _) hk).trans h
  | linearVelocityDirection a =>
    obtain ⟨t, ht⟩ := h
    refine ⟨t / k, ?_⟩
    change s.vel / k = _
    rw [ht]
    push_cast
    ring
  | pointAt p tol => exact h
  | linePoint a b p d => exact h
  | pointLine r a b d => exact h
  | pointPoint r p d => exact h
  | poseEquality x y a => exact h
  | translationEquality t => exact h

namespace Props

/-- C103, what holds: a trajectory can be driven `k` times as slowly if that leaves its time steps below their cap,
and only then.  Missing: steps beyond the cap. -/
theorem C103_slower_partial (k : ℝ) (hk : 1 ≤ k) (b : Builder ℝ) (dr : SwerveDrivetrain ℝ) (T : Traj)
    (h : Solves b dr T) :
    Solves b dr (T.slower k) ↔ ∀ s < (table b).counts.length, Brief dr (k * T.dt s) := by
  rw [solves_iff h.reachable h.ready h.radius]
  refine ⟨fun h' => h'.stepCap, fun hb => ?_⟩
  obtain ⟨o1, o2, o3, o4, o5, o6⟩ := h.obeys
  exact ⟨fun s hs n hn => (o1 s hs n hn).slower hk, fun n hn => (o2 n hn).slower hk,
    fun s hs => mul_nonneg (by linarith) (o3 s hs), hb, fun w hw c hc => (o5 w hw c hc).slower hk,
    fun s hs c hc n hn => (o6 s hs c hc n hn).slower hk⟩

/-- C103: it then takes `k` times as long. -/
theorem C103_time (k : ℝ) (N : List ℕ) (T : Traj) : timeTaken N (T.slower k) = k * timeTaken N T := by
  rw [timeTaken, timeTaken, Finset.mul_sum]
  exact Finset.sum_congr rfl fun s _ => mul_left_comm _ _ _

/-- C103: but there is a longest time.  A wheel that is not at rest allows each control interval no more time than
it takes that wheel to roll across a gap between modules, and so the whole path no more than this for every
control interval. -/
theorem C103_longest (b : Builder ℝ) (dr : SwerveDrivetrain ℝ) (T : Traj) (h : Solves b dr T)
    (m : SwerveModule ℝ) (hm : m ∈ dr.modules) (hv : 0 < m.wheelRadius * m.wheelMaxAngularVelocity)
    (g : ℝ) (hg : Gap dr g) :
    timeTaken (table b).counts T ≤
      (table b).counts.sum * (g / (m.wheelRadius * m.wheelMaxAngularVelocity)) := by
  have hs : ((table b).counts.sum : ℝ) =
      ∑ s ∈ Finset.range (table b).counts.length, ((table b).counts.getD s 0 : ℝ) := by
    rw [← Fin.sum_univ_getElem, Finset.sum_range]
    push_cast
    exact Finset.sum_congr rfl fun s _ => by simp
  rw [hs, Finset.sum_mul, timeTaken]
  refine Finset.sum_le_sum fun s hs => mul_le_mul_of_nonneg_left ?_ (Nat.cast_nonneg _)
  rw [le_div_iff₀ hv, ← mul_assoc]
  exact h.obeys.stepCap s (Finset.mem_range.mp hs) m hm g hg

/-- C103, what holds: a speed limit of `m` on some segments leaves a path drivable if it can be driven, without the limit,
by a trajectory that on these segments is at most `k` times too fast and has time steps at most a `k`th of their
cap.  Missing: other paths. -/
theorem C103_limit_partial (asserts : Bool) (k : ℝ) (hk : 1 ≤ k) (b : Builder ℝ) (dr : SwerveDrivetrain ℝ) (T : Traj)
    (h : Solves b dr T) (hb : ∀ s < (table b).counts.length, Brief dr (k * T.dt s)) (m : ℝ) (i j : ℕ)
    (hij : i < j) (hj : j < (table b).waypoints)
    (hv : ∀ n, waypointSample (table b).counts i ≤ n → n ≤ waypointSample (table b).counts j →
      ‖(T.state n).vel‖ ≤ k * m) :
    ∃ b', b.sgmtConstraint asserts i j (.linearVelocityMaxMagnitude m) = (b', none) ∧ Solves b' dr (T.slower k) := by
  have hk0 : (0 : ℝ) < k := by positivity
  have hwf := wf_reachable h.reachable
  have hlen : (table b).waypoints ≤ 2 ^ 63 := hwf.len
  obtain ⟨b', e, t⟩ := C11_sgmt_constraint asserts b h.reachable i j hij (by omega)
    (.linearVelocityMaxMagnitude m)
  have hreach : (table b).reach j = table b := by
    rw [PathTable.reach, max_eq_left (by omega), show (table b).waypoints - max (table b).waypoints 1 = 0 by omega]
    simp
  rw [hreach] at t
  have hc : (table b').counts = (table b).counts := by rw [t]; rfl
  refine ⟨b', e, ?_⟩
  have hb' : Reachable b' := by
    obtain ⟨asserts₀, ops, e₀⟩ := h.reachable
    refine ⟨asserts₀, _, run_snoc e₀ (op := .sgmtConstraint i j (.linearVelocityMaxMagnitude m)) (e := none) ?_⟩
    rw [← e]
    simp [Op.exec, sgmtConstraint, hij]
  have hr' : Ready b' dr := ⟨by rw [t]; exact h.ready.drivetrain, by rw [t]; exact h.ready.counts,
    by rw [hc]; exact h.ready.size⟩
  refine (solves_iff hb' hr' h.radius).mpr ?_
  obtain ⟨o1, o2, o3, o4, o5, o6⟩ := ((C103_slower_partial k hk b dr T h).mpr hb).obeys
  have slow : ∀ n, waypointSample (table b).counts i ≤ n → n ≤ waypointSample (table b).counts j →
      Meaning (.linearVelocityMaxMagnitude m) ((T.slower k).state n) := by
    intro n h1 h2
    change ‖(T.state n).vel / k‖ ≤ |m|
    rw [norm_div, Complex.norm_real, Real.norm_of_nonneg hk0.le, div_le_iff₀ hk0, mul_comm]
    exact (hv n h1 h2).trans (mul_le_mul_of_nonneg_left (le_abs_self m) hk0.le)
  have hmono : ∀ x y, x ≤ y → waypointSample (table b).counts x ≤ waypointSample (table b).counts y :=
    fun x y hxy => waypointSample_mono _ hxy
  rw [t]
  refine ⟨o1, o2, o3, o4, ?_, ?_⟩
  · intro w hw c hcm
    simp only [PathTable.requireAlong] at hcm
    split at hcm
    next hcond =>
      rcases List.mem_append.mp hcm with hcm | hcm
      · exact o5 w hw c hcm
      · rw [List.mem_singleton.mp hcm]
        exact slow _ (hmono _ _ hcond.1) (hmono _ _ hcond.2)
    next => exact o5 w hw c hcm
  · intro s hs c hcm n hn
    simp only [PathTable.requireAlong] at hcm
    split at hcm
    next hcond =>
      rcases List.mem_append.mp hcm with hcm | hcm
      · exact o6 s hs c hcm n hn
      · rw [List.mem_singleton.mp hcm]
        have hn' := Finset.mem_Ioc.mp hn
        exact slow _ ((hmono _ _ hcond.1).trans hn'.1.le) (hn'.2.trans (hmono _ _ hcond.2))
    next => exact o6 s hs c hcm n hn

/-- C103, what holds: the limit then costs time, but no more than `k` times the time without it.  Missing: other paths. -/
theorem C103_cost_partial (asserts : Bool) (k : ℝ) (hk : 1 ≤ k) (b b' : Builder ℝ) (dr : SwerveDrivetrain ℝ)
    (T T' : Traj) (h : Fastest b dr T) (hb : ∀ s < (table b).counts.length, Brief dr (k * T.dt s)) (m : ℝ) (i j : ℕ)
    (hij : i < j) (hj : j < (table b).waypoints)
    (hv : ∀ n, waypointSample (table b).counts i ≤ n → n ≤ waypointSample (table b).counts j →
      ‖(T.state n).vel‖ ≤ k * m)
    (e : b.sgmtConstraint asserts i j (.linearVelocityMaxMagnitude m) = (b', none)) (h' : Fastest b' dr T') :
    timeTaken (table b).counts T ≤ timeTaken (table b').counts T' ∧
      timeTaken (table b').counts T' ≤ k * timeTaken (table b).counts T := by
  obtain ⟨b₁, e₁, h₁⟩ := C103_limit_partial asserts k hk b dr T h.solves hb m i j hij hj hv
  rw [e] at e₁
  obtain rfl : b' = b₁ := congrArg Prod.fst e₁
  have hlen : (table b).waypoints ≤ 2 ^ 63 := (wf_reachable h.solves.reachable).len
  obtain ⟨b₂, e₂, t⟩ := C11_sgmt_constraint asserts b h.solves.reachable i j hij (by omega)
    (.linearVelocityMaxMagnitude m)
  rw [e] at e₂
  obtain rfl : b' = b₂ := congrArg Prod.fst e₂
  have hreach : (table b).reach j = table b := by
    rw [PathTable.reach, max_eq_left (by omega), show (table b).waypoints - max (table b).waypoints 1 = 0 by omega]
    simp
  rw [hreach] at t
  have hc : (table b').counts = (table b).counts := by rw [t]; rfl
  refine ⟨C78_monotone b b' h.solves.reachable ?_ (by rw [t]; rfl) hc.symm ?_ ?_ dr T T' h h', ?_⟩
  · have := (wf_reachable h.solves.reachable)
    have := h.solves.ready.counts
    omega
  · intro w c hcm
    rw [t]
    simp only [PathTable.requireAlong]
    split
    · exact List.mem_append_left _ hcm
    · exact hcm
  · intro s c hcm
    rw [t]
    simp only [PathTable.requireAlong]
    split
    · exact List.mem_append_left _ hcm
    · exact hcm
  · rw [← C103_time, ← hc]
    exact h'.least _ h₁

/-- C103 is false as stated: a path that can be driven cannot be driven any more once its speed is limited to a quarter of
a metre per second. -/
theorem C103_refuted : ∃ (dr : SwerveDrivetrain ℝ) (ops : List (Op ℝ)) (m : ℝ), 0 < m ∧
    (∃ T, Solves (run true (.setDrivetrain dr :: ops) Builder.new) dr T) ∧
    ¬ ∃ T, Solves (run true (.setDrivetrain dr :: ops ++ [.sgmtConstraint 0 1 (.linearVelocityMaxMagnitude m)])
      Builder.new) dr T := by
  refine ⟨demoRobot, hopOps, 1 / 4, by norm_num, hop_demo.imp fun T h => h.solves, ?_⟩
  rintro ⟨T, h⟩
  generalize hbb : run true (.setDrivetrain demoRobot :: hopOps ++
    [.sgmtConstraint 0 1 (.linearVelocityMaxMagnitude (1 / 4))]) Builder.new = b at h
  have ht : table b = PathTable.empty.afterAll (.setDrivetrain demoRobot :: hopOps ++
      [.sgmtConstraint 0 1 (.linearVelocityMaxMagnitude (1 / 4))]) := by
    rw [← hbb]
    refine (C81_history true _ ?_).1
    simp [hopOps, PathTable.AcceptsAll, PathTable.Accepts]
  have hc : (table b).counts = [2] := by
    rw [ht]
    simp [hopOps, PathTable.afterAll, PathTable.after, PathTable.empty, PathTable.reach, PathTable.requireAt,
      PathTable.guessAt, PathTable.requireAlong]
  have hs : 0 < (table b).counts.length := by rw [hc]; simp
  have hi0 : .poseEquality 0 0 0 ∈ (table b).instant 0 := by
    rw [ht]
    simp [hopOps, PathTable.afterAll, PathTable.after, PathTable.empty, PathTable.reach, PathTable.requireAt,
      PathTable.guessAt, PathTable.requireAlong]
  have hi1 : .poseEquality 1 0 0 ∈ (table b).instant 1 := by
    rw [ht]
    simp [hopOps, PathTable.afterAll, PathTable.after, PathTable.empty, PathTable.reach, PathTable.requireAt,
      PathTable.guessAt, PathTable.requireAlong]
  have hco : .linearVelocityMaxMagnitude (1 / 4) ∈ (table b).continuous 0 := by
    rw [ht]
    simp [hopOps, PathTable.afterAll, PathTable.after, PathTable.empty, PathTable.reach, PathTable.requireAt,
      PathTable.guessAt, PathTable.requireAlong]
  have e0 := (h.obeys.instant 0 (Nat.zero_le _) _ hi0).1
  have e1 := (h.obeys.instant 1 hs _ hi1).1
  have hN : (table b).counts[0] = 2 := by simp [hc]
  have hsum := segment_sum h hs (k := 2) (by omega)
  have hend := segment_end hs
  rw [hN] at hend
  rw [← hend, e0, e1, Finset.sum_range_succ, Finset.sum_range_one] at hsum
  have hvel : ∀ i < 2, ‖(T.state (waypointSample (table b).counts 0 + (i + 1))).vel‖ ≤ 1 / 4 := by
    intro i hi
    have := h.obeys.continuous 0 hs _ hco (waypointSample (table b).counts 0 + (i + 1))
      (Finset.mem_Ioc.mpr ⟨by omega, by rw [hend]; omega⟩)
    change _ ≤ |(1 / 4 : ℝ)| at this
    rwa [abs_of_pos (by norm_num)] at this
  have hcap := h.obeys.stepCap 0 hs ⟨⟨1, 1⟩, 1, 2, 2⟩ (by simp [demoRobot]) 2
    ((gap_places _ _).mpr ⟨by norm_num, ⟨1, 1⟩, ⟨1, -1⟩, by simp [demoRobot], .inr (by norm_num)⟩)
  have htime := h.obeys.time 0 hs
  have hn := congrArg norm hsum
  rw [norm_mul, Complex.norm_real, Real.norm_of_nonneg htime] at hn
  have h1 : ‖vec (⟨1, 0⟩ : Translation2 ℝ) - vec ⟨0, 0⟩‖ = 1 := by
    rw [show vec (⟨1, 0⟩ : Translation2 ℝ) - vec ⟨0, 0⟩ = 1 by apply Complex.ext <;> simp [vec]]
    simp
  have h2 := norm_add_le (T.state (waypointSample (table b).counts 0 + (0 + 1))).vel
    (T.state (waypointSample (table b).counts 0 + (1 + 1))).vel
  have h3 := hvel 0 (by norm_num)
  have h4 := hvel 1 (by norm_num)
  rw [h1] at hn
  nlinarith

/-- C103, non-vacuity: the fastest way to hop, driven at four fifths of its speed, obeys a speed limit that it
does not obey itself, and the fastest way to obey it takes no longer than this.  (At half its speed, its time steps are above the cap.) -/
example : ∃ T, Fastest (run true (.setDrivetrain demoRobot :: hopOps) Builder.new) demoRobot T ∧
    6 / 5 < ‖(T.state 1).vel‖ ∧
    ∃ b', (run true (.setDrivetrain demoRobot :: hopOps) Builder.new).sgmtConstraint true 0 1
        (.linearVelocityMaxMagnitude (6 / 5)) = (b', none) ∧
      Solves b' demoRobot (T.slower (5 / 4)) ∧
      (∃ T', Fastest b' demoRobot T' ∧ timeTaken (table b').counts T' ≤
        5 / 4 * timeTaken (table (run true (.setDrivetrain demoRobot :: hopOps) Builder.new)).counts T) ∧
      ¬ Solves (run true (.setDrivetrain demoRobot :: hopOps) Builder.new) demoRobot (T.slower 2) := by
  obtain ⟨T, h⟩ := hop_demo
  obtain ⟨hr, hc, -, hi, -⟩ := hop_table demoRobot
  obtain ⟨hdt, hvel⟩ := hop_best.2 T h
  have hq : √(1 / 2) ≤ (5 / 7 : ℝ) := by rw [Real.sqrt_le_left (by norm_num)]; norm_num
  have hq' : (2 / 3 : ℝ) ≤ √(1 / 2) := Real.le_sqrt_of_sq_le (by norm_num)
  generalize √(1 / 2 : ℝ) = q at hdt hvel hq hq'
  have hn : ∀ n ≤ 2, ‖(T.state n).vel‖ = 2 * q * (min n (2 - n) : ℕ) := by
    intro n hn
    rw [hvel n hn, Complex.norm_real, Real.norm_of_nonneg (by positivity)]
  have hbrief : ∀ s < (table (run true (.setDrivetrain demoRobot :: hopOps) Builder.new)).counts.length,
      Brief demoRobot (5 / 4 * T.dt s) := by
    intro s hs m hm g hg
    rw [hc, List.length_singleton, Nat.lt_one_iff] at hs
    subst hs
    rw [hdt, demo_gap g hg]
    simp only [demoRobot, List.mem_cons, List.not_mem_nil, or_false] at hm
    rcases hm with rfl | rfl | rfl | rfl <;> norm_num <;> linarith
  have hj : 1 < (table (run true (.setDrivetrain demoRobot :: hopOps) Builder.new)).waypoints := by
    have := hr.counts
    rw [hc] at this
    simp at this
    omega
  have hv : ∀ n, waypointSample (table (run true (.setDrivetrain demoRobot :: hopOps) Builder.new)).counts 0 ≤ n →
      n ≤ waypointSample (table (run true (.setDrivetrain demoRobot :: hopOps) Builder.new)).counts 1 →
      ‖(T.state n).vel‖ ≤ 5 / 4 * (6 / 5) := by
    intro n _ h2
    rw [hc] at h2
    have h2 : n ≤ 2 := by simpa [waypointSample] using h2
    rw [hn n h2]
    have : ((min n (2 - n) : ℕ) : ℝ) ≤ 1 := by exact_mod_cast (by omega : min n (2 - n) ≤ 1)
    nlinarith
  generalize run true (.setDrivetrain demoRobot :: hopOps) Builder.new = b at *
  obtain ⟨b', e, hs⟩ := C103_limit_partial true (5 / 4) (by norm_num) b _ T h.solves hbrief (6 / 5) 0 1 (by norm_num)
    hj hv
  obtain ⟨T', h'⟩ : ∃ T', Fastest b' demoRobot T' := by
    refine C78_fastest b' demoRobot ⟨_, hs⟩ 0 (Nat.zero_le _) 0 0 0 ?_
      ⟨⟨⟨1, 1⟩, 1, 2, 2⟩, by simp [demoRobot], ⟨⟨1, -1⟩, 1, 2, 2⟩, by simp [demoRobot], by norm_num⟩
      (by simp [demoRobot]) (by simp [demoRobot])
    have hlen : (table b).waypoints ≤ 2 ^ 63 := (wf_reachable h.solves.reachable).len
    obtain ⟨b₂, e₂, t⟩ := C11_sgmt_constraint true b h.solves.reachable 0 1 (by norm_num) (by omega)
      (.linearVelocityMaxMagnitude (6 / 5))
    rw [e] at e₂
    obtain rfl : b' = b₂ := congrArg Prod.fst e₂
    rw [t]
    simp [PathTable.requireAlong, PathTable.reach, hi]
  refine ⟨T, h, ?_, b', e, hs, ⟨T', h',
    (C103_cost_partial true (5 / 4) (by norm_num) b b' _ T T' h hbrief (6 / 5) 0 1 (by norm_num) hj hv e h').2⟩, ?_⟩
  · rw [hn 1 (by norm_num)]
    norm_num
    linarith
  · rw [C103_slower_partial 2 (by norm_num) _ _ T h.solves]
    intro hb
    have := hb 0 (by rw [hc]; simp) ⟨⟨1, 1⟩, 1, 2, 2⟩ (by simp [demoRobot]) 2
      ((gap_places _ _).mpr ⟨by norm_num, ⟨1, 1⟩, ⟨1, -1⟩, by simp [demoRobot], .inr (by norm_num)⟩)
    rw [hdt] at this
    norm_num at this
    linarith

/-- C103, non-vacuity: the demonstration robot has no more than a second for every control interval. -/
example (T : Traj) (h : Solves (run true (.setDrivetrain demoRobot :: hopOps) Builder.new) demoRobot T) :
    timeTaken [2] T ≤ 2 := by
  have := C103_longest _ _ T h ⟨⟨1, 1⟩, 1, 2, 2⟩ (by simp [demoRobot]) (by norm_num) 2
    ((gap_places _ _).mpr ⟨by norm_num, ⟨1, 1⟩, ⟨1, -1⟩, by simp [demoRobot], .inr (by norm_num)⟩)
  rw [(hop_table demoRobot).2.1] at this
  norm_num at this
  linarith

end Props

end Trajopt
