import Verif.Spec.Mix
import Verif.Props.Optimal
import Verif.Props.Examples
import Mathlib.Analysis.InnerProductSpace.Basic

/-!
# C117 Between two solutions that turn alike lie others
-/

set_option autoImplicit false

namespace Trajopt.Props

open Spec Builder

theorem norm_between {k : ℝ} (h0 : 0 ≤ k) (h1 : k ≤ 1) {z w : ℂ} {M : ℝ} (hz : ‖z‖ ≤ M) (hw : ‖w‖ ≤ M) :
    ‖(1 - k) * z + k * w‖ ≤ M := by
  have e : ((1 : ℂ) - k) = ((1 - k : ℝ) : ℂ) := by push_cast; ring
  rw [e]
  refine (norm_add_le _ _).trans ?_
  rw [norm_mul, norm_mul, Complex.norm_real, Complex.norm_real, Real.norm_of_nonneg h0,
    Real.norm_of_nonneg (by linarith)]
  nlinarith

theorem between_self (k : ℝ) (s : State) : s.between k s = s := by
  cases s
  simp only [State.between, State.mk.injEq, true_and]
  refine ⟨by ring, by ring, by ring, by ring⟩

theorem meaning_between {k : ℝ} (h0 : 0 ≤ k) (h1 : k ≤ 1) {c : Constraint ℝ} {a b : State}
    (hc : KeepsFromNothing c) (hh : a.heading = b.heading) (ha : Meaning c a) (hb : Meaning c b) :
    Meaning c (a.between k b) := by
  cases c with
  | linePoint | pointLine | pointPoint => exact hc.elim
  | angularVelocityMaxMagnitude m => exact ha
  | linearAccelerationMaxMagnitude m => exact norm_between h0 h1 ha hb
  | linearVelocityMaxMagnitude m => exact norm_between h0 h1 ha hb
  | linearVelocityDirection θ =>
    obtain ⟨x, hx⟩ := ha
    obtain ⟨y, hy⟩ := hb
    refine ⟨(1 - k) * x + k * y, ?_⟩
    simp only [State.between, hx, hy]
    push_cast
    ring
  | pointAt p tol =>
    have hd : dist (a.between k b).pos (vec p) ≤ (1 - k) * dist a.pos (vec p) + k * dist b.pos (vec p) := by
      rw [dist_eq_norm, dist_eq_norm, dist_eq_norm]
      have e : (a.between k b).pos - vec p = ((1 - k : ℝ) : ℂ) * (a.pos - vec p) + (k : ℂ) * (b.pos - vec p) := by
        simp only [State.between]; push_cast; ring
      rw [e]
      refine (norm_add_le _ _).trans ?_
      rw [norm_mul, norm_mul, Complex.norm_real, Complex.norm_real, Real.norm_of_nonneg h0,
        Real.norm_of_nonneg (by linarith)]
    have e : ((vec p - (a.between k b).pos) * (starRingEnd ℂ) (a.between k b).heading).re =
        (1 - k) * ((vec p - a.pos) * (starRingEnd ℂ) a.heading).re +
        k * ((vec p - b.pos) * (starRingEnd ℂ) b.heading).re := by
      simp only [State.between, ← hh]
      simp
      ring
    simp only [Meaning, KeepsFromNothing] at ha hb hc ⊢
    rw [e]
    have := mul_le_mul_of_nonneg_left hd hc
    nlinarith
  | poseEquality x y θ =>
    refine ⟨?_, ha.2⟩
    simp only [State.between, ha.1, hb.1]
    ring
  | translationEquality p =>
    simp only [Meaning, State.between] at ha hb ⊢
    rw [ha, hb]
    ring

theorem torque_between (k : ℝ) (r F G : ℂ) :
    torque r ((1 - k) * F + k * G) = (1 - k) * torque r F + k * torque r G := by
  simp [torque]
  ring

theorem dynamics_between {k : ℝ} (h0 : 0 ≤ k) (h1 : k ≤ 1) {dr : SwerveDrivetrain ℝ} {a b : State} {F G : ℕ → ℂ}
    (hh : a.heading = b.heading) (ho : a.omega = b.omega) (ha : Dynamics dr a F) (hb : Dynamics dr b G) :
    Dynamics dr (a.between k b) fun j => (1 - k) * F j + k * G j := by
  refine ⟨?_, ?_, ?_, ?_⟩
  · rw [Finset.sum_add_distrib, ← Finset.mul_sum, ← Finset.mul_sum, ha.force, hb.force]
    simp only [State.between]
    ring
  · have hl : ∀ m, lever (a.between k b) m = lever a m := fun m => rfl
    have hl' : ∀ m, lever a m = lever b m := fun m => by rw [lever, lever, hh]
    simp only [torque_between, hl, Finset.sum_add_distrib, ← Finset.mul_sum]
    rw [ha.torque]
    simp only [hl']
    rw [hb.torque]
    simp only [State.between]
    ring
  · intro m hm
    have e : wheelVelocity (a.between k b) m = (1 - k) * wheelVelocity a m + k * wheelVelocity b m := by
      simp only [wheelVelocity, State.between, ← hh, ← ho]
      ring
    rw [e]
    exact norm_between h0 h1 (ha.speed m hm) (hb.speed m hm)
  · exact fun j => norm_between h0 h1 (ha.limit j) (hb.limit j)

/-- The forces `F` push the robot along the states of `T`, at every sample with the least effort possible. -/
def LeastEffort (b : Builder ℝ) (dr : SwerveDrivetrain ℝ) (T : Traj) (F : ℕ → ℕ → ℂ) : Prop :=
  Solves b dr ⟨T.state, F, T.dt⟩ ∧ ∀ G, Solves b dr ⟨T.state, G, T.dt⟩ → ∀ n < sampleCount (table b).counts,
    effort dr.modules.length (F n) ≤ effort dr.modules.length (G n)

/-- C117, what holds: between two trajectories of a path that turn alike and take the same steps, all are
trajectories of the path, if no constraint is a keep-out.  Missing: keep-outs, for which it is false. -/
theorem C117_between_partial (b : Builder ℝ) (dr : SwerveDrivetrain ℝ) (T T' : Traj)
    (h : Solves b dr T) (h' : Solves b dr T') (hs : T.SameTurning (table b).counts T')
    (hi : ∀ w ≤ (table b).counts.length, ∀ c ∈ (table b).instant w, KeepsFromNothing c)
    (k : ℝ) (h0 : 0 ≤ k) (h1 : k ≤ 1) : Solves b dr (T.between k T') := by
  have ho := h.obeys
  have ho' := h'.obeys
  have hseg : ∀ s < (table b).counts.length, ∀ n ∈ segmentSamples (table b).counts s,
      n < sampleCount (table b).counts ∧ 0 < n := by
    intro s hs n hn
    rw [segmentSamples, Finset.mem_Ioc] at hn
    have := sum_take_le (table b).counts (s + 1)
    simp only [waypointSample, sampleCount] at *; omega
  refine (solves_iff h.reachable h.ready h.radius).mpr ⟨?_, ?_, ho.time, ho.stepCap, ?_, ?_⟩
  · intro s hss n hn
    have i := ho.interval s hss n hn
    have i' := ho'.interval s hss n hn
    rw [← hs.dt s hss] at i'
    refine ⟨?_, i.turn, ?_, ?_⟩
    · have e1 := i.pos
      have e2 := i'.pos
      simp only [Traj.between, State.between]
      linear_combination (1 - (k : ℂ)) * e1 + (k : ℂ) * e2
    · have e1 := i.vel
      have e2 := i'.vel
      simp only [Traj.between, State.between]
      linear_combination (1 - (k : ℂ)) * e1 + (k : ℂ) * e2
    · have e1 := i.omega
      have e2 := i'.omega
      obtain ⟨hn1, hn2⟩ := hseg s hss n hn
      rw [← hs.omega n hn1, ← hs.omega (n - 1) (by omega)] at e2
      simp only [Traj.between, State.between]
      linear_combination (1 - k) * e1 + k * e2
  · exact fun n hn => dynamics_between h0 h1 (hs.heading n hn) (hs.omega n hn) (ho.dynamics n hn) (ho'.dynamics n hn)
  · intro w hw c hc
    have := sum_take_le (table b).counts w
    exact meaning_between h0 h1 (hi w hw c hc) (hs.heading _ (by simp only [waypointSample, sampleCount]; omega))
      (ho.instant w hw c hc) (ho'.instant w hw c hc)
  · intro s hss c hc n hn
    exact meaning_between h0 h1 (hi s hss.le c (C72_ends b h.reachable s c hc).1) (hs.heading n (hseg s hss n hn).1)
      (ho.continuous s hss c hc n hn) (ho'.continuous s hss c hc n hn)

/-- C117: between two ways to push the robot along the same states lie others, whatever the constraints. -/
theorem C117_forces (b : Builder ℝ) (dr : SwerveDrivetrain ℝ) (T : Traj) (F : ℕ → ℕ → ℂ)
    (h : Solves b dr T) (h' : Solves b dr ⟨T.state, F, T.dt⟩) (k : ℝ) (h0 : 0 ≤ k) (h1 : k ≤ 1) :
    Solves b dr ⟨T.state, fun n j => (1 - k) * T.force n j + k * F n j, T.dt⟩ := by
  have ho := h.obeys
  have ho' := h'.obeys
  refine (solves_iff h.reachable h.ready h.radius).mpr
    ⟨ho.interval, fun n hn => ?_, ho.time, ho.stepCap, ho.instant, ho.continuous⟩
  have := dynamics_between h0 h1 rfl rfl (ho.dynamics n hn) (ho'.dynamics n hn)
  rwa [between_self] at this

/-- C117: the forces are not determined by the path, not even those of a fastest trajectory: when two modules in
different places do not push as much as they can, there is another way to push. -/
theorem C117_other (b : Builder ℝ) (dr : SwerveDrivetrain ℝ) (T : Traj) (h : Solves b dr T)
    (n : ℕ) (hn : n < sampleCount (table b).counts) (i j : Fin dr.modules.length)
    (hij : dr.modules[i].translation ≠ dr.modules[j].translation) (hu : (T.state n).heading ≠ 0)
    (hfi : ‖T.force n i‖ < maxForce dr.modules[i]) (hfj : ‖T.force n j‖ < maxForce dr.modules[j]) :
    ∃ F, F n i ≠ T.force n i ∧ Solves b dr ⟨T.state, F, T.dt⟩ := by
  have hne : i ≠ j := fun e => hij (by rw [e])
  set u := lever (T.state n) dr.modules[i] - lever (T.state n) dr.modules[j] with hudef
  have hu0 : u ≠ 0 := by
    rw [hudef, lever, lever, ← sub_mul]
    refine mul_ne_zero (sub_ne_zero.mpr fun e => hij ?_) hu
    have hr := congrArg Complex.re e
    have hi := congrArg Complex.im e
    simp only [vec] at hr hi
    revert hr hi
    cases dr.modules[i].translation
    cases dr.modules[j].translation
    rintro rfl rfl
    rfl
  have hun : 0 < ‖u‖ := norm_pos_iff.mpr hu0
  set κ := min (maxForce dr.modules[i] - ‖T.force n i‖) (maxForce dr.modules[j] - ‖T.force n j‖) / ‖u‖ with hκ
  have hκ0 : 0 < κ := div_pos (lt_min (by linarith) (by linarith)) hun
  have hκu : ‖(κ : ℂ) * u‖ = min (maxForce dr.modules[i] - ‖T.force n i‖) (maxForce dr.modules[j] - ‖T.force n j‖) := by
    rw [norm_mul, Complex.norm_real, Real.norm_of_nonneg hκ0.le, hκ, div_mul_cancel₀ _ hun.ne']
  have hji : (j : ℕ) ≠ i := fun e => hne (Fin.ext e.symm)
  set g : ℕ → ℂ := fun l => (if l = i then κ * u else 0) + if l = j then -(κ * u) else 0 with hg
  have gi : g i = κ * u := by simp [hg, hji.symm]
  have gj : g j = -(κ * u) := by simp [hg, hji]
  have go : ∀ l : ℕ, l ≠ i → l ≠ j → g l = 0 := fun l h1 h2 => by simp [hg, h1, h2]
  have hsum : ∑ l : Fin dr.modules.length, g l = 0 := by
    rw [Finset.sum_add_distrib]
    have e1 : ∀ l : Fin dr.modules.length, ((l : ℕ) = i) = (l = i) := fun l => by rw [Fin.ext_iff]
    have e2 : ∀ l : Fin dr.modules.length, ((l : ℕ) = j) = (l = j) := fun l => by rw [Fin.ext_iff]
    simp only [e1, e2, Finset.sum_ite_eq', Finset.mem_univ, if_true]
    ring
  have htorque : ∑ l : Fin dr.modules.length, torque (lever (T.state n) dr.modules[l]) (g l) = 0 := by
    rw [← Finset.sum_subset (Finset.subset_univ {i, j})]
    · rw [Finset.sum_pair hne, gi, gj]
      have : torque (lever (T.state n) dr.modules[i]) (κ * u) + torque (lever (T.state n) dr.modules[j]) (-(κ * u)) =
          torque u (κ * u) := by
        simp only [torque, hudef, map_sub]
        simp
        ring
      rw [this]
      simp [torque]
      ring
    · intro l _ hl
      rw [Finset.mem_insert, Finset.mem_singleton, not_or] at hl
      rw [go l (fun e => hl.1 (Fin.ext e)) (fun e => hl.2 (Fin.ext e))]
      simp [torque]
  have ho := h.obeys
  refine ⟨fun n' l => T.force n' l + if n' = n then g l else 0, ?_, ?_⟩
  · simp only [if_true, gi]
    intro e
    have : (κ : ℂ) * u = 0 := by linear_combination e
    exact mul_ne_zero (Complex.ofReal_ne_zero.mpr hκ0.ne') hu0 this
  · refine (solves_iff h.reachable h.ready h.radius).mpr
      ⟨ho.interval, fun n' hn' => ?_, ho.time, ho.stepCap, ho.instant, ho.continuous⟩
    have d := ho.dynamics n' hn'
    by_cases e : n' = n
    · subst e
      simp only [if_true]
      refine ⟨?_, ?_, d.speed, fun l => ?_⟩
      · rw [Finset.sum_add_distrib, hsum, add_zero]; exact d.force
      · have : ∀ r F G : ℂ, torque r (F + G) = torque r F + torque r G := fun r F G => by
          simp [torque]; ring
        simp only [this, Finset.sum_add_distrib]
        rw [htorque, add_zero]; exact d.torque
      · by_cases h1 : l = i
        · subst h1
          rw [gi]
          refine (norm_add_le _ _).trans ?_
          rw [hκu]
          linarith [min_le_left (maxForce dr.modules[l] - ‖T.force n' l‖) (maxForce dr.modules[j] - ‖T.force n' j‖)]
        · by_cases h2 : l = j
          · subst h2
            rw [gj]
            refine (norm_add_le _ _).trans ?_
            rw [norm_neg, hκu]
            linarith [min_le_right (maxForce dr.modules[i] - ‖T.force n' i‖) (maxForce dr.modules[l] - ‖T.force n' l‖)]
          · rw [go l (fun e => h1 (Fin.ext e)) (fun e => h2 (Fin.ext e)), add_zero]
            exact d.limit l
    · simp only [e, if_false, add_zero]
      exact d

theorem exists_least_effort {dr : SwerveDrivetrain ℝ} {s : State} {F₀ : ℕ → ℂ} (h : Dynamics dr s F₀) :
    ∃ F, Dynamics dr s F ∧ ∀ G, Dynamics dr s G → effort dr.modules.length F ≤ effort dr.modules.length G := by
  obtain ⟨ext, he⟩ : ∃ ext : (Fin dr.modules.length → ℂ) → ℕ → ℂ, ∀ F (j : Fin dr.modules.length), ext F j = F j :=
    ⟨fun F l => if h : l < dr.modules.length then F ⟨l, h⟩ else 0, fun F j => by simp⟩
  have hres : ∀ G : ℕ → ℂ, Dynamics dr s G → Dynamics dr s (ext fun j : Fin dr.modules.length => G j.val) :=
    fun G d => ⟨by simp only [he]; exact d.force, by simp only [he]; exact d.torque, d.speed,
      fun j => by simp only [he]; exact d.limit j⟩
  have hK : IsCompact ((Set.univ.pi fun j : Fin dr.modules.length => Metric.closedBall (0 : ℂ) (maxForce dr.modules[j])) ∩
      ({F | ∑ j : Fin dr.modules.length, F j = dr.mass * s.acc} ∩
       {F | ∑ j : Fin dr.modules.length, torque (lever s dr.modules[j]) (F j) = dr.moi * s.alpha})) := by
    refine (isCompact_univ_pi fun j => isCompact_closedBall _ _).inter_right (.inter ?_ ?_)
    · exact isClosed_eq (continuous_finsetSum _ fun j _ => by fun_prop) continuous_const
    · refine isClosed_eq (continuous_finsetSum _ fun j _ => ?_) continuous_const
      simp only [torque]
      fun_prop
  have hmem : ∀ F : Fin dr.modules.length → ℂ, Dynamics dr s (ext F) ↔ F ∈
      ((Set.univ.pi fun j : Fin dr.modules.length => Metric.closedBall (0 : ℂ) (maxForce dr.modules[j])) ∩
      ({F | ∑ j : Fin dr.modules.length, F j = dr.mass * s.acc} ∩
       {F | ∑ j : Fin dr.modules.length, torque (lever s dr.modules[j]) (F j) = dr.moi * s.alpha})) := by
    intro F
    simp only [Set.mem_inter_iff, Set.mem_pi, Set.mem_univ, true_imp_iff, mem_closedBall_zero_iff,
      Set.mem_ofPred_eq]
    constructor
    · intro d
      exact ⟨fun j => by rw [← he F j]; exact d.limit j, by have := d.force; simpa only [he] using this,
        by have := d.torque; simpa only [he] using this⟩
    · rintro ⟨d1, d2, d3⟩
      exact ⟨by simp only [he]; exact d2, by simp only [he]; exact d3, h.speed, fun j => by rw [he]; exact d1 j⟩
  obtain ⟨F, hF, hmin⟩ := hK.exists_isMinOn ⟨_, (hmem _).mp (hres F₀ h)⟩
    (f := fun F => ∑ j : Fin dr.modules.length, ‖F j‖ ^ 2)
    (continuous_finsetSum _ fun j _ => by fun_prop).continuousOn
  refine ⟨ext F, (hmem F).mpr hF, fun G hG => ?_⟩
  have := hmin ((hmem _).mp (hres G hG))
  simp only [Set.mem_ofPred_eq] at this
  simpa only [effort, he] using this

theorem least_effort_unique {dr : SwerveDrivetrain ℝ} {s : State} {F G : ℕ → ℂ} (hF : Dynamics dr s F)
    (hG : Dynamics dr s G)
    (h1 : ∀ H, Dynamics dr s H → effort dr.modules.length F ≤ effort dr.modules.length H)
    (h2 : ∀ H, Dynamics dr s H → effort dr.modules.length G ≤ effort dr.modules.length H) :
    ∀ j < dr.modules.length, F j = G j := by
  have hm := dynamics_between (k := 1 / 2) (by norm_num) (by norm_num) rfl rfl hF hG
  rw [between_self] at hm
  have e1 := h1 _ hm
  have e2 := h2 _ hm
  have id : ∀ z w : ℂ, ‖(1 - ((1 / 2 : ℝ) : ℂ)) * z + ((1 / 2 : ℝ) : ℂ) * w‖ ^ 2 =
      1 / 2 * ‖z‖ ^ 2 + 1 / 2 * ‖w‖ ^ 2 - 1 / 4 * ‖z - w‖ ^ 2 := by
    intro z w
    simp only [← Complex.normSq_eq_norm_sq, Complex.normSq_apply]
    simp
    ring
  simp only [effort, id, Finset.sum_add_distrib, Finset.sum_sub_distrib, ← Finset.mul_sum] at e1 e2
  have h0 : ∑ j : Fin dr.modules.length, ‖F j - G j‖ ^ 2 = 0 :=
    le_antisymm (by linarith) (Finset.sum_nonneg fun j _ => by positivity)
  intro j hj
  have := (Finset.sum_eq_zero_iff_of_nonneg fun j _ => by positivity).mp h0 ⟨j, hj⟩ (Finset.mem_univ _)
  exact sub_eq_zero.mp (norm_eq_zero.mp (pow_eq_zero_iff two_ne_zero |>.mp this))

/-- C117: of all ways to push the robot along the same states, exactly one is the least effort at every sample. -/
theorem C117_least (b : Builder ℝ) (dr : SwerveDrivetrain ℝ) (T : Traj) (h : Solves b dr T) :
    ∃ F, LeastEffort b dr T F ∧
      ∀ G, LeastEffort b dr T G → ∀ n < sampleCount (table b).counts, ∀ j < dr.modules.length, G n j = F n j := by
  have ho := h.obeys
  have iff : ∀ G : ℕ → ℕ → ℂ, Solves b dr ⟨T.state, G, T.dt⟩ ↔
      ∀ n < sampleCount (table b).counts, Dynamics dr (T.state n) (G n) := fun G =>
    (solves_iff h.reachable h.ready h.radius).trans ⟨fun o => o.dynamics, fun d =>
      ⟨ho.interval, d, ho.time, ho.stepCap, ho.instant, ho.continuous⟩⟩
  have hex : ∀ n, ∃ F, n < sampleCount (table b).counts → Dynamics dr (T.state n) F ∧
      ∀ G, Dynamics dr (T.state n) G → effort dr.modules.length F ≤ effort dr.modules.length G := by
    intro n
    by_cases hn : n < sampleCount (table b).counts
    · obtain ⟨F, hF⟩ := exists_least_effort (ho.dynamics n hn)
      exact ⟨F, fun _ => hF⟩
    · exact ⟨0, fun e => absurd e hn⟩
  choose F hF using hex
  refine ⟨F, ⟨(iff F).mpr fun n hn => (hF n hn).1, fun G hG n hn => (hF n hn).2 _ ((iff G).mp hG n hn)⟩, ?_⟩
  rintro G ⟨hG, hleast⟩ n hn j hj
  refine least_effort_unique ((iff G).mp hG n hn) (hF n hn).1 (fun H hH => ?_) (hF n hn).2 j hj
  have := hleast (fun n' => if n' = n then H else F n') ((iff _).mpr fun n' hn' => ?_) n hn
  · simpa using this
  · by_cases e : n' = n
    · subst e; simpa using hH
    · simpa [e] using (hF n' hn').1

theorem demo_glides {p v a : ℂ} (hv : ‖v‖ ≤ 2) (ha : ‖a‖ ≤ 2) :
    Dynamics demoRobot ⟨p, 1, v, a, 0, 0⟩ fun _ => a := by
  refine ⟨?_, ?_, ?_, ?_⟩
  · change ∑ j : Fin 4, _ = _
    rw [Fin.sum_univ_four]
    simp [demoRobot]
    ring
  · change ∑ j : Fin 4, _ = _
    rw [Fin.sum_univ_four]
    simp [demoRobot, torque, lever, vec]
    ring
  · intro m hm
    have hmax : maxSpeed m = 2 := by
      simp only [demoRobot, List.mem_cons, List.not_mem_nil, or_false] at hm
      rcases hm with rfl | rfl | rfl | rfl <;> norm_num [maxSpeed]
    rw [hmax]
    simpa [wheelVelocity] using hv
  · intro j
    have hmax : ∀ m ∈ demoRobot.modules, maxForce m = 2 := by
      intro m hm
      simp only [demoRobot, List.mem_cons, List.not_mem_nil, or_false] at hm
      rcases hm with rfl | rfl | rfl | rfl <;> norm_num [maxForce]
    exact ha.trans (hmax _ (List.getElem_mem j.2)).ge

/-! ### A metre, from standstill or not -/

/-- A metre at constant speed. -/
noncomputable def rollTraj : Traj where
  state n := if n = 0 then ⟨0, 1, 1, 0, 0, 0⟩ else ⟨1, 1, 1, 0, 0, 0⟩
  force _ _ := 0
  dt _ := 1

/-- And all that lies between accelerating and rolling. -/
example (k : ℝ) (h0 : 0 ≤ k) (h1 : k ≤ 1) : Solves demoBuilder demoRobot (demoTraj.between k rollTraj) := by
  obtain ⟨d1, d2, d3, d4, d5, d6, d7⟩ := demo_table
  have hroll : Solves demoBuilder demoRobot rollTraj := by
    refine (solves_iff (b := demoBuilder) ⟨true, demoOps, rfl⟩ demo_ready demo_radius).mpr ⟨?_, ?_, ?_, ?_, ?_, ?_⟩
    · rw [d2]
      intro s hs n hn
      obtain rfl : s = 0 := by simpa using hs
      obtain rfl : n = 1 := by simpa [waypointSample, segmentSamples] using hn
      exact ⟨by simp [rollTraj], .inl (by simp [rollTraj, unitVec]), by simp [rollTraj], by simp [rollTraj]⟩
    · intro n _
      rcases n with - | n
      · exact demo_glides (by simp) (by simp)
      · exact demo_glides (by simp) (by simp)
    · intro s _
      simp [rollTraj]
    · intro s _ m hm g hg
      rw [demo_gap g hg]
      simp only [demoRobot, List.mem_cons, List.not_mem_nil, or_false] at hm
      rcases hm with rfl | rfl | rfl | rfl <;> norm_num [rollTraj]
    · rw [d2]
      intro w hw c hc
      have hw : w ≤ 1 := hw
      interval_cases w
      · rw [d4] at hc
        simp only [List.mem_cons, List.not_mem_nil, or_false] at hc
        rcases hc with rfl | rfl
        · exact ⟨by apply Complex.ext <;> simp [rollTraj, vec, waypointSample],
            .inl (by simp [rollTraj, waypointSample, unitVec])⟩
        · norm_num [Meaning, rollTraj, waypointSample]
      · rw [d5] at hc
        simp only [List.mem_cons, List.not_mem_nil, or_false] at hc
        rcases hc with rfl | rfl
        · exact ⟨by apply Complex.ext <;> simp [rollTraj, vec, waypointSample],
            .inl (by simp [rollTraj, waypointSample, unitVec])⟩
        · norm_num [Meaning, rollTraj, waypointSample]
    · rw [d2]
      intro s hs c hc n hn
      obtain rfl : s = 0 := by simpa using hs
      rw [d6, List.mem_singleton] at hc
      subst hc
      rcases n with - | n <;> norm_num [Meaning, rollTraj]
  refine C117_between_partial _ _ _ _ (demo_solves_flip 1 (.inl rfl)) hroll ⟨fun n _ => ?_, fun n _ => ?_, fun s _ => rfl⟩
    ?_ k h0 h1
  · rcases n with - | n <;> simp [driveTraj, rollTraj]
  · rcases n with - | n <;> simp [driveTraj, rollTraj]
  · rw [d2]
    intro w hw c hc
    have hw : w ≤ 1 := hw
    interval_cases w
    · rw [d4] at hc
      simp only [List.mem_cons, List.not_mem_nil, or_false] at hc
      rcases hc with rfl | rfl <;> trivial
    · rw [d5] at hc
      simp only [List.mem_cons, List.not_mem_nil, or_false] at hc
      rcases hc with rfl | rfl <;> trivial

/-- The first two modules may push against each other before the robot starts. -/
example : ∃ F, F 0 0 ≠ 0 ∧ Solves demoBuilder demoRobot ⟨demoTraj.state, F, demoTraj.dt⟩ := by
  obtain ⟨d1, d2, d3, d4, d5, d6, d7⟩ := demo_table
  exact C117_other demoBuilder demoRobot demoTraj (demo_solves_flip 1 (.inl rfl)) 0 (by rw [d2]; simp [sampleCount])
    (0 : Fin 4) (1 : Fin 4) (by simp [demoRobot]; norm_num) (by simp [demoTraj, driveTraj])
    (by simp [demoTraj, driveTraj, demoRobot, maxForce]) (by simp [demoTraj, driveTraj, demoRobot, maxForce])

/-! ### Around an obstacle -/

/-- One metre, past a point half way that is to be half a metre away. -/
noncomputable def sideOps : List (Op ℝ) :=
  [.setDrivetrain demoRobot, .poseWpt 0 0 0 0, .wptConstraint 1 (.pointPoint ⟨0, 0⟩ ⟨1 / 2, 0⟩ (1 / 2)),
    .poseWpt 2 1 0 0, .controlIntervalCounts [1, 1]]

theorem side_table :
    let b := run true sideOps Builder.new
    Ready b demoRobot ∧ (table b).counts = [1, 1] ∧ (∀ s < 2, (table b).continuous s = []) ∧
    (table b).instant 0 = [.poseEquality 0 0 0] ∧
    (table b).instant 1 = [.pointPoint ⟨0, 0⟩ ⟨1 / 2, 0⟩ (1 / 2)] ∧
    (table b).instant 2 = [.poseEquality 1 0 0] := by
  intro b
  obtain ⟨e, hr⟩ : table b = PathTable.empty.afterAll sideOps ∧ Ready b demoRobot := by
    refine ready_of ?_ _ rfl ?_ ?_ ?_ <;>
    simp [sideOps, PathTable.AcceptsAll, PathTable.Accepts, PathTable.afterAll, PathTable.after,
      PathTable.empty, PathTable.reach, PathTable.requireAt, PathTable.guessAt, sampleCount]
  refine ⟨hr, ?_⟩
  rw [e]
  simp [sideOps, PathTable.afterAll, PathTable.after,
    PathTable.empty, PathTable.reach, PathTable.requireAt, PathTable.guessAt]

/-- Past the point with `σ / 2` to its side. -/
noncomputable def sideTraj (σ : ℝ) : Traj where
  state n := match n with
    | 0 => ⟨0, 1, ⟨1 / 2, σ / 2⟩, 0, 0, 0⟩
    | 1 => ⟨⟨1 / 2, σ / 2⟩, 1, ⟨1 / 2, σ / 2⟩, 0, 0, 0⟩
    | _ => ⟨1, 1, ⟨1 / 2, -(σ / 2)⟩, ⟨0, -σ⟩, 0, 0⟩
  force n _ := match n with
    | 0 => 0
    | 1 => 0
    | _ => ⟨0, -σ⟩
  dt _ := 1

theorem side_solves (σ : ℝ) (hσ : σ = 1 ∨ σ = -1) : Solves (run true sideOps Builder.new) demoRobot (sideTraj σ) := by
  obtain ⟨hr, hc, hco, hi0, hi1, hi2⟩ := side_table
  have hs : |σ| = 1 := by rcases hσ with rfl | rfl <;> simp
  have hn : ∀ x y : ℝ, |x| ≤ 1 → |y| ≤ 1 → ‖(⟨x, y⟩ : ℂ)‖ ≤ 2 := fun x y hx hy =>
    (Complex.norm_le_abs_re_add_abs_im _).trans (by simp only; linarith)
  have hh : |σ / 2| ≤ 1 := by rw [abs_div, hs]; norm_num
  refine (solves_iff ⟨true, _, rfl⟩ hr demo_radius).mpr ⟨?_, ?_, ?_, ?_, ?_, ?_⟩
  · rw [hc]
    intro s hs n hn
    have hs : s < 2 := hs
    have hn' := Finset.mem_Ioc.mp hn
    have h4 : 1 ≤ n ∧ n ≤ 2 := by
      interval_cases s <;> simp [waypointSample] at hn' <;> omega
    obtain ⟨h1, h2⟩ := h4
    refine ⟨?_, .inl ?_, ?_, ?_⟩ <;> interval_cases n <;>
      first
      | (simp [sideTraj, unitVec]; done)
      | (apply Complex.ext <;> (simp [sideTraj]; try ring))
  · rw [hc]
    intro n hn'
    have hn3 : n < 3 := hn'
    interval_cases n
    · exact demo_glides (hn _ _ (by norm_num [abs_of_pos]) hh) (by simp)
    · exact demo_glides (hn _ _ (by norm_num [abs_of_pos]) hh) (by simp)
    · exact demo_glides (hn _ _ (by norm_num [abs_of_pos]) (by rwa [abs_neg])) (hn _ _ (by simp) (by rw [abs_neg, hs]))
  · intro s _
    simp [sideTraj]
  · intro s _ m hm g hg
    rw [demo_gap g hg]
    simp only [demoRobot, List.mem_cons, List.not_mem_nil, or_false] at hm
    rcases hm with rfl | rfl | rfl | rfl <;> norm_num [sideTraj]
  · rw [hc]
    intro w hw c hcm
    have hw : w ≤ 2 := hw
    interval_cases w
    · rw [hi0, List.mem_singleton] at hcm
      subst hcm
      exact ⟨by apply Complex.ext <;> simp [sideTraj, vec, waypointSample],
        .inl (by simp [sideTraj, waypointSample, unitVec])⟩
    · rw [hi1, List.mem_singleton] at hcm
      subst hcm
      have e : waypointSample [1, 1] 1 = 1 := rfl
      simp only [Meaning, State.onRobot, e, sideTraj]
      rw [dist_eq_norm]
      refine le_trans ?_ (Complex.abs_im_le_norm _)
      simp [vec, abs_div, hs]
    · rw [hi2, List.mem_singleton] at hcm
      subst hcm
      exact ⟨by apply Complex.ext <;> simp [sideTraj, vec, waypointSample],
        .inl (by simp [sideTraj, waypointSample, unitVec])⟩
  · rw [hc]
    intro s hs c hcm
    rw [hco s hs] at hcm
    simp at hcm

/-- C117 is false with keep-outs: a robot may pass an obstacle on either side, but not in the middle. -/
theorem C117_refuted : ∃ (b : Builder ℝ) (dr : SwerveDrivetrain ℝ) (T T' : Traj), Solves b dr T ∧ Solves b dr T' ∧
    T.SameTurning (table b).counts T' ∧ ¬ Solves b dr (T.between (1 / 2) T') := by
  obtain ⟨hr, hc, hco, hi0, hi1, hi2⟩ := side_table
  refine ⟨_, _, _, _, side_solves 1 (.inl rfl), side_solves (-1) (.inr rfl), ⟨fun n _ => ?_, fun n _ => ?_, fun s _ => rfl⟩,
    fun h => ?_⟩
  · rcases n with - | - | n <;> rfl
  · rcases n with - | - | n <;> rfl
  · have := h.obeys.instant 1 (by rw [hc]; simp) (.pointPoint ⟨0, 0⟩ ⟨1 / 2, 0⟩ (1 / 2)) (by rw [hi1]; simp)
    have e : waypointSample [1, 1] 1 = 1 := rfl
    rw [hc, e] at this
    simp only [Meaning, State.onRobot, Traj.between, State.between, sideTraj] at this
    rw [dist_eq_norm] at this
    have z : (1 - ((1 / 2 : ℝ) : ℂ)) * (⟨1 / 2, 1 / 2⟩ : ℂ) + ((1 / 2 : ℝ) : ℂ) * (⟨1 / 2, -1 / 2⟩ : ℂ) +
        vec ⟨0, 0⟩ * 1 - vec ⟨1 / 2, 0⟩ = 0 := by
      apply Complex.ext <;> simp [vec] <;> norm_num
    rw [z, norm_zero] at this
    norm_num at this

end Trajopt.Props
