import Verif.Props.Split
import Mathlib.Topology.MetricSpace.ProperSpace
import Mathlib.Topology.Algebra.Monoid
import Mathlib.Analysis.Complex.Basic

/-!
# Helper lemmas for C78: the trajectories of a path form a compact set
-/

set_option autoImplicit false

namespace Trajopt

open Spec Props

/-- Everything about one sample, and the duration of one segment: position, heading, velocity,
acceleration, angular velocity and acceleration, forces, duration. -/
abbrev Slice := ℂ × ℂ × ℂ × ℂ × ℝ × ℝ × (ℕ → ℂ) × ℝ

/-- The trajectory with the given slices. -/
def ofSlices (x : ℕ → Slice) : Traj where
  state n := ⟨(x n).1, (x n).2.1, (x n).2.2.1, (x n).2.2.2.1, (x n).2.2.2.2.1, (x n).2.2.2.2.2.1⟩
  force n := (x n).2.2.2.2.2.2.1
  dt n := (x n).2.2.2.2.2.2.2

/-- The slices of a trajectory. -/
def toSlices (T : Traj) (n : ℕ) : Slice :=
  ((T.state n).pos, (T.state n).heading, (T.state n).vel, (T.state n).acc, (T.state n).omega,
    (T.state n).alpha, T.force n, T.dt n)

theorem ofSlices_toSlices (T : Traj) : ofSlices (toSlices T) = T := rfl

theorem continuous_unitVec : Continuous unitVec := by
  unfold unitVec
  fun_prop

theorem closed_interval (s n : ℕ) :
    IsClosed {x : ℕ → Slice | Interval ((ofSlices x).dt s) ((ofSlices x).state (n - 1))
      ((ofSlices x).state n)} := by
  have e : {x : ℕ → Slice | Interval ((ofSlices x).dt s) ((ofSlices x).state (n - 1))
      ((ofSlices x).state n)} =
      {x | ((ofSlices x).state n).pos = ((ofSlices x).state (n - 1)).pos +
        (ofSlices x).dt s * ((ofSlices x).state n).vel} ∩
      (({x | ((ofSlices x).state n).heading * (starRingEnd ℂ) ((ofSlices x).state (n - 1)).heading =
          unitVec (((ofSlices x).state n).omega * (ofSlices x).dt s)} ∪
       {x | ((ofSlices x).state n).heading * (starRingEnd ℂ) ((ofSlices x).state (n - 1)).heading =
          -unitVec (((ofSlices x).state n).omega * (ofSlices x).dt s)}) ∩
      ({x | ((ofSlices x).state n).vel = ((ofSlices x).state (n - 1)).vel +
        (ofSlices x).dt s * ((ofSlices x).state n).acc} ∩
       {x | ((ofSlices x).state n).omega = ((ofSlices x).state (n - 1)).omega +
        (ofSlices x).dt s * ((ofSlices x).state n).alpha})) := by
    ext x
    exact ⟨fun h => ⟨h.pos, h.turn, h.vel, h.omega⟩, fun h => ⟨h.1, h.2.1, h.2.2.1, h.2.2.2⟩⟩
  rw [e]
  have hu := continuous_unitVec
  have hu' : ∀ {f : (ℕ → Slice) → ℝ}, Continuous f → Continuous fun x => unitVec (f x) :=
    fun hf => hu.comp hf
  refine .inter ?_ (.inter (.union ?_ ?_) (.inter ?_ ?_)) <;> simp only [ofSlices]
  · exact isClosed_eq (by fun_prop) (by fun_prop)
  · exact isClosed_eq (by fun_prop) (hu' (by fun_prop))
  · exact isClosed_eq (by fun_prop) (hu' (by fun_prop)).neg
  · exact isClosed_eq (by fun_prop) (by fun_prop)
  · exact isClosed_eq (by fun_prop) (by fun_prop)

theorem closed_dynamics (dr : SwerveDrivetrain ℝ) (n : ℕ) :
    IsClosed {x : ℕ → Slice | Dynamics dr ((ofSlices x).state n) ((ofSlices x).force n)} := by
  have e : {x : ℕ → Slice | Dynamics dr ((ofSlices x).state n) ((ofSlices x).force n)} =
      {x | ∑ j : Fin dr.modules.length, (ofSlices x).force n j = dr.mass * ((ofSlices x).state n).acc} ∩
      ({x | ∑ j : Fin dr.modules.length,
        torque (lever ((ofSlices x).state n) dr.modules[j]) ((ofSlices x).force n j) =
          dr.moi * ((ofSlices x).state n).alpha} ∩
      ((⋂ m, ⋂ (_ : m ∈ dr.modules), {x | ‖wheelVelocity ((ofSlices x).state n) m‖ ≤ maxSpeed m}) ∩
       (⋂ j : Fin dr.modules.length, {x | ‖(ofSlices x).force n j‖ ≤ maxForce dr.modules[j]}))) := by
    ext x
    simp only [Set.mem_ofPred_eq, Set.mem_inter_iff, Set.mem_iInter]
    exact ⟨fun h => ⟨h.force, h.torque, h.speed, h.limit⟩, fun h => ⟨h.1, h.2.1, h.2.2.1, h.2.2.2⟩⟩
  rw [e]
  have hf : ∀ j : ℕ, Continuous fun x : ℕ → Slice => (x n).2.2.2.2.2.2.1 j := fun j => by fun_prop
  refine .inter ?_ (.inter ?_ (.inter ?_ ?_))
  · simp only [ofSlices]
    exact isClosed_eq (continuous_finsetSum _ fun j _ => hf j) (by fun_prop)
  · simp only [ofSlices, torque, lever]
    exact isClosed_eq (continuous_finsetSum _ fun j _ => by fun_prop) (by fun_prop)
  · refine isClosed_iInter fun m => isClosed_iInter fun _ => ?_
    simp only [ofSlices, wheelVelocity]
    exact isClosed_le (by fun_prop) continuous_const
  · refine isClosed_iInter fun j => ?_
    simp only [ofSlices]
    exact isClosed_le (by fun_prop) continuous_const

theorem closed_meaning (c : Constraint ℝ) (n : ℕ) :
    IsClosed {x : ℕ → Slice | ‖((ofSlices x).state n).heading‖ = 1 ∧
      Meaning c ((ofSlices x).state n)} := by
  have hU : IsClosed {x : ℕ → Slice | ‖((ofSlices x).state n).heading‖ = 1} := by
    simp only [ofSlices]
    exact isClosed_eq (by fun_prop) continuous_const
  have hseg : ∀ (p q : ℂ) (P : ℂ → Prop), (∀ z ∈ segment ℝ p q, P z) ↔
      ∀ θ ∈ Set.Icc (0 : ℝ) 1, P (p + θ * (q - p)) := by
    intro p q P
    rw [segment_eq_image', Set.forall_mem_image]
    simp
  have hand : ∀ c, IsClosed {x : ℕ → Slice | Meaning c ((ofSlices x).state n)} →
      IsClosed {x : ℕ → Slice | ‖((ofSlices x).state n).heading‖ = 1 ∧
        Meaning c ((ofSlices x).state n)} := fun c h => hU.inter h
  cases c with
  | linePoint a b p d =>
    by_cases hab : vec a = vec b
    · have : {x : ℕ → Slice | ‖((ofSlices x).state n).heading‖ = 1 ∧
        Meaning (.linePoint a b p d) ((ofSlices x).state n)} = ∅ := by
        ext x
        simp [Meaning, State.onRobot, hab]
      rw [this]
      exact isClosed_empty
    · have : {x : ℕ → Slice | ‖((ofSlices x).state n).heading‖ = 1 ∧
          Meaning (.linePoint a b p d) ((ofSlices x).state n)} =
          {x | ‖((ofSlices x).state n).heading‖ = 1} ∩
          ⋂ θ ∈ Set.Icc (0 : ℝ) 1, {x | |d| ≤ dist (((ofSlices x).state n).onRobot a +
            θ * (((ofSlices x).state n).onRobot b - ((ofSlices x).state n).onRobot a)) (vec p) ^ 2} := by
        ext x
        simp only [Set.mem_ofPred_eq, Meaning, hseg, Set.mem_inter_iff, Set.mem_iInter]
        refine ⟨fun h => ⟨h.1, h.2.2⟩, fun h => ⟨h.1, ?_, h.2⟩⟩
        simp only [State.onRobot]
        intro he
        have h0 : ((ofSlices x).state n).heading ≠ 0 := by
          intro h0; rw [h0] at h; simp at h
        exact hab (mul_right_cancel₀ h0 (add_left_cancel he))
      rw [this]
      refine hU.inter (isClosed_biInter fun θ _ => ?_)
      simp only [ofSlices, State.onRobot]
      exact isClosed_le continuous_const (by fun_prop)
  | pointLine r a b d =>
    refine hand _ ?_
    simp only [Meaning]
    by_cases hab : vec a = vec b
    · simp [hab]
    · simp only [ne_eq, hab, not_false_eq_true, true_and, hseg]
      simp only [Set.ofPred_forall]
      refine isClosed_biInter fun θ _ => ?_
      simp only [ofSlices, State.onRobot]
      exact isClosed_le continuous_const (by fun_prop)
  | linearVelocityDirection a =>
    refine hand _ ?_
    have : {x : ℕ → Slice | Meaning (.linearVelocityDirection a) ((ofSlices x).state n)} =
        {x | (((ofSlices x).state n).vel * unitVec (-a)).im = 0} := by
      ext x
      have hmul : unitVec a * unitVec (-a) = 1 := by
        rw [unitVec, unitVec, ← Complex.exp_add]; simp
      simp only [Meaning, Set.mem_ofPred_eq]
      constructor
      · rintro ⟨t, h⟩
        rw [h, mul_assoc, hmul]; simp
      · intro h
        refine ⟨(((ofSlices x).state n).vel * unitVec (-a)).re, ?_⟩
        have : ((((ofSlices x).state n).vel * unitVec (-a)).re : ℂ) =
            ((ofSlices x).state n).vel * unitVec (-a) := by
          apply Complex.ext <;> simp [h]
        rw [this, mul_assoc, mul_comm (unitVec (-a)), hmul, mul_one]
    rw [this]
    simp only [ofSlices]
    exact isClosed_eq (by fun_prop) continuous_const
  | poseEquality x y h =>
    refine hand _ ?_
    refine IsClosed.inter
      (?_ : IsClosed {x' : ℕ → Slice | ((ofSlices x').state n).pos = vec ⟨x, y⟩}) (.union
      (?_ : IsClosed {x : ℕ → Slice | ((ofSlices x).state n).heading = unitVec h})
      (?_ : IsClosed {x : ℕ → Slice | ((ofSlices x).state n).heading = -unitVec h})) <;>
    simp only [ofSlices] <;> exact isClosed_eq (by fun_prop) continuous_const
  | translationEquality t =>
    refine hand _ ?_
    simp only [ofSlices, Meaning]
    exact isClosed_eq (by fun_prop) continuous_const
  | _ =>
    refine hand _ ?_
    simp only [ofSlices, Meaning, State.onRobot]
    exact isClosed_le (by fun_prop) (by fun_prop)

/-- The trajectories of the path with unit headings form a closed set. -/
theorem closed_obeys (t : PathTable ℝ) (dr : SwerveDrivetrain ℝ) :
    IsClosed {x : ℕ → Slice | (∀ n < sampleCount t.counts, ‖((ofSlices x).state n).heading‖ = 1) ∧
      Obeys t dr (ofSlices x)} := by
  have e : {x : ℕ → Slice | (∀ n < sampleCount t.counts, ‖((ofSlices x).state n).heading‖ = 1) ∧
      Obeys t dr (ofSlices x)} =
      (⋂ n, ⋂ (_ : n < sampleCount t.counts), {x | ‖((ofSlices x).state n).heading‖ = 1}) ∩
      ((⋂ s, ⋂ (_ : s < t.counts.length), ⋂ n, ⋂ (_ : n ∈ segmentSamples t.counts s),
        {x | Interval ((ofSlices x).dt s) ((ofSlices x).state (n - 1)) ((ofSlices x).state n)}) ∩
      ((⋂ n, ⋂ (_ : n < sampleCount t.counts),
        {x | Dynamics dr ((ofSlices x).state n) ((ofSlices x).force n)}) ∩
      ((⋂ s, ⋂ (_ : s < t.counts.length), {x | 0 ≤ (ofSlices x).dt s}) ∩
      ((⋂ s, ⋂ (_ : s < t.counts.length), ⋂ m, ⋂ (_ : m ∈ dr.modules), ⋂ g, ⋂ (_ : Gap dr g),
        {x | (ofSlices x).dt s * m.wheelRadius * m.wheelMaxAngularVelocity ≤ g}) ∩
      ((⋂ w, ⋂ (_ : w ≤ t.counts.length), ⋂ c, ⋂ (_ : c ∈ t.instant w),
        {x | ‖((ofSlices x).state (waypointSample t.counts w)).heading‖ = 1 ∧
          Meaning c ((ofSlices x).state (waypointSample t.counts w))}) ∩
      (⋂ s, ⋂ (_ : s < t.counts.length), ⋂ c, ⋂ (_ : c ∈ t.continuous s), ⋂ n,
        ⋂ (_ : n ∈ segmentSamples t.counts s),
        {x | ‖((ofSlices x).state n).heading‖ = 1 ∧ Meaning c ((ofSlices x).state n)})))))) := by
    ext x
    simp only [Set.mem_ofPred_eq, Set.mem_inter_iff, Set.mem_iInter]
    constructor
    · rintro ⟨hu, h⟩
      refine ⟨hu, h.interval, h.dynamics, h.time, h.stepCap, fun w hw c hc => ⟨hu _ ?_,
        h.instant w hw c hc⟩, fun s hs c hc n hn => ⟨hu _ ?_, h.continuous s hs c hc n hn⟩⟩
      · have := sum_take_le t.counts w
        simp only [waypointSample, sampleCount]; omega
      · rw [segmentSamples, Finset.mem_Ioc] at hn
        have := sum_take_le t.counts (s + 1)
        simp only [waypointSample, sampleCount] at *; omega
    · rintro ⟨hu, h1, h2, h3, h4, h5, h6⟩
      exact ⟨hu, h1, h2, h3, h4, fun w hw c hc => (h5 w hw c hc).2,
        fun s hs c hc n hn => (h6 s hs c hc n hn).2⟩
  rw [e]
  refine .inter (isClosed_iInter fun n => isClosed_iInter fun _ => ?_) (.inter
    (isClosed_iInter fun s => isClosed_iInter fun _ => isClosed_iInter fun n =>
      isClosed_iInter fun _ => closed_interval s n) (.inter
    (isClosed_iInter fun n => isClosed_iInter fun _ => closed_dynamics dr n) (.inter
    (isClosed_iInter fun s => isClosed_iInter fun _ => ?_) (.inter
    (isClosed_iInter fun s => isClosed_iInter fun _ => isClosed_iInter fun m =>
      isClosed_iInter fun _ => isClosed_iInter fun g => isClosed_iInter fun _ => ?_) (.inter
    (isClosed_iInter fun w => isClosed_iInter fun _ => isClosed_iInter fun c =>
      isClosed_iInter fun _ => closed_meaning c _)
    (isClosed_iInter fun s => isClosed_iInter fun _ => isClosed_iInter fun c =>
      isClosed_iInter fun _ => isClosed_iInter fun n => isClosed_iInter fun _ =>
        closed_meaning c n))))))
  · simp only [ofSlices]
    exact isClosed_eq (by fun_prop) continuous_const
  · simp only [ofSlices]
    exact isClosed_le continuous_const (by fun_prop)
  · simp only [ofSlices]
    exact isClosed_le (by fun_prop) continuous_const

/-- All components of the slice are bounded by `R`. -/
def ball (R : ℝ) : Set Slice :=
  Metric.closedBall 0 R ×ˢ Metric.closedBall 0 R ×ˢ Metric.closedBall 0 R ×ˢ
    Metric.closedBall 0 R ×ˢ Metric.closedBall 0 R ×ˢ Metric.closedBall 0 R ×ˢ
    (Set.univ.pi fun _ => Metric.closedBall 0 R) ×ˢ Metric.closedBall 0 R

theorem compact_ball (R : ℝ) : IsCompact (ball R) := by
  have hc := isCompact_closedBall (0 : ℂ) R
  have hr := isCompact_closedBall (0 : ℝ) R
  exact hc.prod (hc.prod (hc.prod (hc.prod (hr.prod (hr.prod
    ((isCompact_univ_pi fun _ => hc).prod hr))))))

theorem mem_ball {R : ℝ} {x : Slice} : x ∈ ball R ↔ ‖x.1‖ ≤ R ∧ ‖x.2.1‖ ≤ R ∧ ‖x.2.2.1‖ ≤ R ∧
    ‖x.2.2.2.1‖ ≤ R ∧ |x.2.2.2.2.1| ≤ R ∧ |x.2.2.2.2.2.1| ≤ R ∧ (∀ j, ‖x.2.2.2.2.2.2.1 j‖ ≤ R) ∧
    |x.2.2.2.2.2.2.2| ≤ R := by
  simp [ball, Set.mem_prod, Set.mem_pi]

theorem continuous_timeTaken (N : List ℕ) :
    Continuous fun x : ℕ → Slice => timeTaken N (ofSlices x) := by
  simp only [timeTaken, ofSlices]
  exact continuous_finsetSum _ fun s _ => by fun_prop

/-- The trajectory with everything outside the path set to zero, and the duration of intervals of
empty segments as well. -/
noncomputable def trim (N : List ℕ) (m : ℕ) (T : Traj) : Traj where
  state n := if n < sampleCount N then T.state n else ⟨0, 0, 0, 0, 0, 0⟩
  force n j := if n < sampleCount N ∧ j < m then T.force n j else 0
  dt s := if s < N.length ∧ 0 < N.getD s 0 then T.dt s else 0

theorem obeys_trim {t : PathTable ℝ} {dr : SwerveDrivetrain ℝ} {T : Traj} (h : Obeys t dr T) :
    Obeys t dr (trim t.counts dr.modules.length T) := by
  have hst : ∀ n < sampleCount t.counts, (trim t.counts dr.modules.length T).state n = T.state n :=
    fun n hn => by simp [trim, hn]
  have hseg : ∀ s < t.counts.length, ∀ n ∈ segmentSamples t.counts s,
      n < sampleCount t.counts ∧ 0 < t.counts.getD s 0 := by
    intro s hs n hn
    rw [segmentSamples, Finset.mem_Ioc] at hn
    have h1 := sum_take_le t.counts (s + 1)
    have h2 := sum_take_succ t.counts hs
    rw [getD_lt hs]
    simp only [waypointSample, sampleCount] at *
    omega
  refine ⟨?_, ?_, ?_, ?_, ?_, ?_⟩
  · intro s hs n hn
    obtain ⟨h1, h2⟩ := hseg s hs n hn
    rw [hst n h1, hst (n - 1) (by omega)]
    simp only [trim, hs, h2, and_self, if_true]
    exact h.interval s hs n hn
  · intro n hn
    rw [hst n hn]
    have hf : ∀ j : Fin dr.modules.length, (trim t.counts dr.modules.length T).force n j =
        T.force n j := fun j => by simp [trim, hn]
    have hd := h.dynamics n hn
    exact ⟨by simp only [hf]; exact hd.force, by simp only [hf]; exact hd.torque, hd.speed,
      fun j => by rw [hf]; exact hd.limit j⟩
  · intro s hs
    simp only [trim]
    split
    · exact h.time s hs
    · exact le_refl _
  · intro s hs m hm g hg
    simp only [trim]
    split
    · exact h.stepCap s hs m hm g hg
    · obtain ⟨-, a, b, -, rfl | rfl⟩ := hg <;> simp
  · intro w hw c hc
    have := sum_take_le t.counts w
    rw [hst _ (by simp only [waypointSample, sampleCount]; omega)]
    exact h.instant w hw c hc
  · intro s hs c hc n hn
    rw [hst _ (hseg s hs n hn).1]
    exact h.continuous s hs c hc n hn

theorem timeTaken_trim (N : List ℕ) (m : ℕ) (T : Traj) : timeTaken N (trim N m T) = timeTaken N T := by
  unfold timeTaken
  refine Finset.sum_congr rfl fun s hs => ?_
  rw [Finset.mem_range] at hs
  simp only [trim, hs, true_and]
  by_cases h0 : 0 < N.getD s 0
  · simp only [if_pos h0]
  · have : N.getD s 0 = 0 := by omega
    rw [this]; simp

/-- A bound for all trajectories of the path that take at most `τ` and pass through `P` at sample
`k`. -/
theorem bounded_obeys (t : PathTable ℝ) (dr : SwerveDrivetrain ℝ) (m₁ m₂ : SwerveModule ℝ)
    (h₁ : m₁ ∈ dr.modules) (h₂ : m₂ ∈ dr.modules) (hm : vec m₁.translation ≠ vec m₂.translation)
    (hmass : dr.mass ≠ 0) (hmoi : dr.moi ≠ 0) (k : ℕ) (hk : k < sampleCount t.counts) (P : ℂ)
    (τ : ℝ) :
    ∃ R, ∀ T, Obeys t dr T → (∀ n < sampleCount t.counts, ‖(T.state n).heading‖ = 1) →
      (T.state k).pos = P → timeTaken t.counts T ≤ τ →
      ∀ n, toSlices (trim t.counts dr.modules.length T) n ∈ ball R := by
  set Ω := (maxSpeed m₁ + maxSpeed m₂) / ‖vec m₁.translation - vec m₂.translation‖ with hΩ
  set V := maxSpeed m₁ + Ω * ‖vec m₁.translation‖ with hV
  set F := ∑ j : Fin dr.modules.length, maxForce dr.modules[j] with hF
  set M := ∑ j : Fin dr.modules.length,
    ‖vec dr.modules[j].translation‖ * maxForce dr.modules[j] with hM
  set B := ‖P‖ + sampleCount t.counts * (τ * V) + sampleCount t.counts * (τ * V) with hB
  obtain ⟨R, r0, r1, r2, r3, r4, r5, r6, r7, r8⟩ : ∃ R, 0 ≤ R ∧ 1 ≤ R ∧ Ω ≤ R ∧ V ≤ R ∧ τ ≤ R ∧
      B ≤ R ∧ F ≤ R ∧ F / |dr.mass| ≤ R ∧ M / |dr.moi| ≤ R :=
    ⟨max 0 (max 1 (max Ω (max V (max τ (max B (max F (max (F / |dr.mass|) (M / |dr.moi|)))))))),
      by simp⟩
  have hδ : 0 < ‖vec m₁.translation - vec m₂.translation‖ := norm_pos_iff.mpr (sub_ne_zero.mpr hm)
  have hs1 : 0 ≤ maxSpeed m₁ := abs_nonneg _
  have hs2 : 0 ≤ maxSpeed m₂ := abs_nonneg _
  have hΩ0 : 0 ≤ Ω := by positivity
  have hV0 : 0 ≤ V := by positivity
  refine ⟨R, fun T hT hu hP hτ => ?_⟩
  -- angular velocity
  have homega : ∀ n < sampleCount t.counts, |(T.state n).omega| ≤ Ω := by
    intro n hn
    have d := hT.dynamics n hn
    have e1 := d.speed m₁ h₁
    have e2 := d.speed m₂ h₂
    have e3 : wheelVelocity (T.state n) m₁ - wheelVelocity (T.state n) m₂ =
        Complex.I * (T.state n).omega * (vec m₁.translation - vec m₂.translation) := by
      simp only [wheelVelocity]; ring
    have e4 : |(T.state n).omega| * ‖vec m₁.translation - vec m₂.translation‖ ≤
        maxSpeed m₁ + maxSpeed m₂ := by
      calc |(T.state n).omega| * ‖vec m₁.translation - vec m₂.translation‖
          = ‖wheelVelocity (T.state n) m₁ - wheelVelocity (T.state n) m₂‖ := by
            rw [e3]; simp
        _ ≤ _ := (norm_sub_le _ _).trans (add_le_add e1 e2)
    rw [hΩ, le_div_iff₀ hδ]
    exact e4
  -- velocity
  have hvel : ∀ n < sampleCount t.counts, ‖(T.state n).vel‖ ≤ V := by
    intro n hn
    have e1 := (hT.dynamics n hn).speed m₁ h₁
    have e2 : (starRingEnd ℂ) (T.state n).heading * (T.state n).vel =
        wheelVelocity (T.state n) m₁ - Complex.I * (T.state n).omega * vec m₁.translation := by
      simp only [wheelVelocity]; ring
    have e3 : ‖(T.state n).vel‖ = ‖(starRingEnd ℂ) (T.state n).heading * (T.state n).vel‖ := by
      rw [norm_mul, Complex.norm_conj, hu n hn, one_mul]
    rw [e3, e2]
    refine (norm_sub_le _ _).trans (add_le_add e1 ?_)
    simp only [norm_mul, Complex.norm_I, one_mul, Complex.norm_real, Real.norm_eq_abs]
    exact mul_le_mul_of_nonneg_right (homega n hn) (norm_nonneg _)
  -- durations
  have hdt : ∀ s < t.counts.length, 0 < t.counts.getD s 0 → T.dt s ≤ τ := by
    intro s hs h0
    refine le_trans ?_ hτ
    have h1 : (t.counts.getD s 0 : ℝ) * T.dt s ≤ timeTaken t.counts T :=
      Finset.single_le_sum (f := fun s => (t.counts.getD s 0 : ℝ) * T.dt s)
        (fun i hi => mul_nonneg (Nat.cast_nonneg _) (hT.time i (Finset.mem_range.mp hi)))
        (Finset.mem_range.mpr hs)
    have h2 : (1 : ℝ) ≤ (t.counts.getD s 0 : ℝ) := by exact_mod_cast h0
    nlinarith [hT.time s hs]
  -- positions
  have hpos0 : ∀ n < sampleCount t.counts, ‖(T.state n).pos - (T.state 0).pos‖ ≤ n * (τ * V) := by
    intro n
    induction n with
    | zero => intro _; simp
    | succ n ih =>
      intro hn
      obtain ⟨s, ⟨hs, hmem⟩, -⟩ := (C01_tiling t.counts).1 (n + 1) (by omega) hn
      have hi := (hT.interval s hs _ hmem).pos
      rw [Nat.add_sub_cancel] at hi
      have h0 : 0 < t.counts.getD s 0 := by
        rw [segmentSamples, Finset.mem_Ioc] at hmem
        have h2 := sum_take_succ t.counts hs
        rw [getD_lt hs]
        simp only [waypointSample] at hmem
        omega
      have h1 : ‖(T.dt s : ℂ) * (T.state (n + 1)).vel‖ ≤ τ * V := by
        rw [norm_mul, Complex.norm_real, Real.norm_of_nonneg (hT.time s hs)]
        exact mul_le_mul (hdt s hs h0) (hvel _ hn) (norm_nonneg _)
          ((hT.time s hs).trans (hdt s hs h0))
      calc ‖(T.state (n + 1)).pos - (T.state 0).pos‖
          = ‖((T.state n).pos - (T.state 0).pos) + T.dt s * (T.state (n + 1)).vel‖ := by
            rw [hi]; ring_nf
        _ ≤ n * (τ * V) + τ * V := (norm_add_le _ _).trans (add_le_add (ih (by omega)) h1)
        _ = ((n + 1 : ℕ) : ℝ) * (τ * V) := by push_cast; ring
  have hpos : ∀ n < sampleCount t.counts, ‖(T.state n).pos‖ ≤ B := by
    intro n hn
    have hτV : 0 ≤ τ * V := by
      have h0 : 0 ≤ timeTaken t.counts T := Finset.sum_nonneg fun i hi =>
        mul_nonneg (Nat.cast_nonneg _) (hT.time i (Finset.mem_range.mp hi))
      exact mul_nonneg (h0.trans hτ) hV0
    have big : ∀ i < sampleCount t.counts, ‖(T.state i).pos - (T.state 0).pos‖ ≤
        sampleCount t.counts * (τ * V) := fun i hi => (hpos0 i hi).trans
      (mul_le_mul_of_nonneg_right (by exact_mod_cast hi.le) hτV)
    have e : (T.state n).pos = P + ((T.state n).pos - (T.state 0).pos) -
        ((T.state k).pos - (T.state 0).pos) := by rw [hP]; ring
    rw [e, hB]
    exact (norm_sub_le _ _).trans (add_le_add ((norm_add_le _ _).trans
      (add_le_add (le_refl _) (big n hn))) (big k hk))
  -- forces
  have hmf : ∀ m : SwerveModule ℝ, 0 ≤ maxForce m := fun m => abs_nonneg _
  have hforce : ∀ n < sampleCount t.counts, ∀ j < dr.modules.length, ‖T.force n j‖ ≤ F := by
    intro n hn j hj
    refine ((hT.dynamics n hn).limit ⟨j, hj⟩).trans ?_
    exact Finset.single_le_sum (f := fun j : Fin dr.modules.length => maxForce dr.modules[j])
      (fun i _ => hmf _) (Finset.mem_univ (⟨j, hj⟩ : Fin dr.modules.length))
  have hacc : ∀ n < sampleCount t.counts, ‖(T.state n).acc‖ ≤ F / |dr.mass| := by
    intro n hn
    rw [le_div_iff₀ (abs_pos.mpr hmass), mul_comm]
    have e := (hT.dynamics n hn).force
    calc |dr.mass| * ‖(T.state n).acc‖ = ‖∑ j : Fin dr.modules.length, T.force n j‖ := by
          rw [e]; simp
      _ ≤ ∑ j : Fin dr.modules.length, ‖T.force n j‖ := norm_sum_le _ _
      _ ≤ F := Finset.sum_le_sum fun j _ => (hT.dynamics n hn).limit j
  have halpha : ∀ n < sampleCount t.counts, |(T.state n).alpha| ≤ M / |dr.moi| := by
    intro n hn
    rw [le_div_iff₀ (abs_pos.mpr hmoi), mul_comm, ← abs_mul, ← (hT.dynamics n hn).torque]
    refine (Finset.abs_sum_le_sum_abs _ _).trans (Finset.sum_le_sum fun j _ => ?_)
    calc |torque (lever (T.state n) dr.modules[j]) (T.force n j)|
        ≤ ‖(starRingEnd ℂ) (lever (T.state n) dr.modules[j]) * T.force n j‖ :=
          Complex.abs_im_le_norm _
      _ = ‖vec dr.modules[j].translation‖ * ‖T.force n j‖ := by
          rw [norm_mul, Complex.norm_conj, lever, norm_mul, hu n hn, mul_one]
      _ ≤ _ := mul_le_mul_of_nonneg_left ((hT.dynamics n hn).limit j) (norm_nonneg _)
  intro n
  rw [mem_ball]
  have hd : |(trim t.counts dr.modules.length T).dt n| ≤ R := by
    simp only [trim]
    split
    next h => rw [abs_of_nonneg (hT.time n h.1)]; exact (hdt n h.1 h.2).trans r4
    next => simpa using r0
  have hf : ∀ j, ‖(trim t.counts dr.modules.length T).force n j‖ ≤ R := by
    intro j
    simp only [trim]
    split
    next h => exact (hforce n h.1 j h.2).trans r6
    next => simpa using r0
  by_cases hn : n < sampleCount t.counts
  · have hst : (trim t.counts dr.modules.length T).state n = T.state n := by simp [trim, hn]
    simp only [toSlices, hst]
    exact ⟨(hpos n hn).trans r5, by rw [hu n hn]; exact r1, (hvel n hn).trans r3,
      (hacc n hn).trans r7, (homega n hn).trans r2, (halpha n hn).trans r8, hf, hd⟩
  · have hst : (trim t.counts dr.modules.length T).state n = ⟨0, 0, 0, 0, 0, 0⟩ := by simp [trim, hn]
    simp only [toSlices, hst]
    exact ⟨by simpa using r0, by simpa using r0, by simpa using r0, by simpa using r0,
      by simpa using r0, by simpa using r0, hf, hd⟩

/-- There is a trajectory that takes the least time. -/
theorem exists_least (t : PathTable ℝ) (dr : SwerveDrivetrain ℝ) (m₁ m₂ : SwerveModule ℝ)
    (h₁ : m₁ ∈ dr.modules) (h₂ : m₂ ∈ dr.modules) (hm : vec m₁.translation ≠ vec m₂.translation)
    (hmass : dr.mass ≠ 0) (hmoi : dr.moi ≠ 0) (k : ℕ) (hk : k < sampleCount t.counts) (P : ℂ)
    (hP : ∀ T, Obeys t dr T → (T.state k).pos = P)
    (hu : ∀ T, Obeys t dr T → ∀ n < sampleCount t.counts, ‖(T.state n).heading‖ = 1)
    (hex : ∃ T, Obeys t dr T) :
    ∃ T, Obeys t dr T ∧ ∀ T', Obeys t dr T' → timeTaken t.counts T ≤ timeTaken t.counts T' := by
  obtain ⟨T₀, h₀⟩ := hex
  obtain ⟨R, hR⟩ := bounded_obeys t dr m₁ m₂ h₁ h₂ hm hmass hmoi k hk P (timeTaken t.counts T₀)
  have hc : IsCompact ((Set.univ.pi fun _ : ℕ => ball R) ∩ {x : ℕ → Slice |
      (∀ n < sampleCount t.counts, ‖((ofSlices x).state n).heading‖ = 1) ∧
      Obeys t dr (ofSlices x)}) :=
    (isCompact_univ_pi fun _ => compact_ball R).inter_right (closed_obeys t dr)
  have hin : ∀ T, Obeys t dr T → timeTaken t.counts T ≤ timeTaken t.counts T₀ →
      toSlices (trim t.counts dr.modules.length T) ∈ (Set.univ.pi fun _ : ℕ => ball R) ∩
      {x : ℕ → Slice | (∀ n < sampleCount t.counts, ‖((ofSlices x).state n).heading‖ = 1) ∧
      Obeys t dr (ofSlices x)} := by
    intro T hT hle
    refine ⟨fun n _ => hR T hT (hu T hT) (hP T hT) hle n, ?_⟩
    have ho := obeys_trim hT
    exact ⟨hu _ ho, ho⟩
  obtain ⟨x, hx, hmin⟩ := hc.exists_isMinOn ⟨_, hin T₀ h₀ (le_refl _)⟩
    (continuous_timeTaken t.counts).continuousOn
  refine ⟨ofSlices x, hx.2.2, fun T' hT' => ?_⟩
  rcases le_total (timeTaken t.counts T') (timeTaken t.counts T₀) with hle | hle
  · have := hmin (hin T' hT' hle)
    simp only [Set.mem_ofPred_eq] at this
    rw [ofSlices_toSlices, timeTaken_trim] at this
    exact this
  · have := hmin (hin T₀ h₀ (le_refl _))
    simp only [Set.mem_ofPred_eq] at this
    rw [ofSlices_toSlices, timeTaken_trim] at this
    exact this.trans hle

end Trajopt
