import Verif.Lemmas.Optimal
import Verif.Props.Tolerance
import Verif.Spec.Nearby
import Mathlib.Topology.Sequences

/-!
# Helper lemmas for C116: trajectories that are feasible up to a tolerance form a compact set
-/

set_option autoImplicit false

namespace Trajopt

open Spec Props

theorem closed_near {ε : ℝ} {f g : (ℕ → Slice) → ℂ} (hf : Continuous f) (hg : Continuous g) :
    IsClosed {x | Near ε (f x) (g x)} :=
  IsClosed.inter
    (isClosed_le (continuous_abs.comp ((Complex.continuous_re.comp hf).sub (Complex.continuous_re.comp hg)))
      continuous_const)
    (isClosed_le (continuous_abs.comp ((Complex.continuous_im.comp hf).sub (Complex.continuous_im.comp hg)))
      continuous_const)

theorem closed_along {ε : ℝ} {f g : (ℕ → Slice) → ℂ} (hf : Continuous f) (hg : Continuous g) :
    IsClosed {x | Along ε (f x) (g x)} :=
  IsClosed.inter
    (isClosed_le (continuous_abs.comp (Complex.continuous_im.comp (hf.mul (Complex.continuous_conj.comp hg))))
      continuous_const)
    (isClosed_le (continuous_abs.comp ((hf.norm.pow 2).sub continuous_const)) continuous_const)

theorem closed_intervalWithin (ε : ℝ) (s n : ℕ) :
    IsClosed {x : ℕ → Slice | IntervalWithin ε ((ofSlices x).dt s) ((ofSlices x).state (n - 1))
      ((ofSlices x).state n)} := by
  have hu := continuous_unitVec
  have e : {x : ℕ → Slice | IntervalWithin ε ((ofSlices x).dt s) ((ofSlices x).state (n - 1))
      ((ofSlices x).state n)} =
      {x | Near ε ((ofSlices x).state n).pos (((ofSlices x).state (n - 1)).pos +
        (ofSlices x).dt s * ((ofSlices x).state n).vel)} ∩
      ({x | Along ε (((ofSlices x).state n).heading * (starRingEnd ℂ) ((ofSlices x).state (n - 1)).heading)
        (unitVec (((ofSlices x).state n).omega * (ofSlices x).dt s))} ∩
      ({x | Near ε ((ofSlices x).state n).vel (((ofSlices x).state (n - 1)).vel +
        (ofSlices x).dt s * ((ofSlices x).state n).acc)} ∩
      {x | |((ofSlices x).state n).omega - (((ofSlices x).state (n - 1)).omega +
        (ofSlices x).dt s * ((ofSlices x).state n).alpha)| ≤ ε})) := by
    ext x
    exact ⟨fun h => ⟨h.1, h.2, h.3, h.4⟩, fun h => ⟨h.1, h.2.1, h.2.2.1, h.2.2.2⟩⟩
  rw [e]
  refine (closed_near ?_ ?_).inter ((closed_along ?_ ?_).inter ((closed_near ?_ ?_).inter (isClosed_le ?_ continuous_const))) <;>
  simp only [ofSlices] <;> fun_prop

theorem closed_dynamicsWithin (ε : ℝ) (dr : SwerveDrivetrain ℝ) (n : ℕ) :
    IsClosed {x : ℕ → Slice | DynamicsWithin ε dr ((ofSlices x).state n) ((ofSlices x).force n)} := by
  have e : {x : ℕ → Slice | DynamicsWithin ε dr ((ofSlices x).state n) ((ofSlices x).force n)} =
      {x | Near ε (∑ j : Fin dr.modules.length, (ofSlices x).force n j) (dr.mass * ((ofSlices x).state n).acc)} ∩
      ({x | |(∑ j : Fin dr.modules.length, torque (lever ((ofSlices x).state n) dr.modules[j])
        ((ofSlices x).force n j)) - dr.moi * ((ofSlices x).state n).alpha| ≤ ε} ∩
      ((⋂ m, ⋂ (_ : m ∈ dr.modules), {x | ‖wheelVelocity ((ofSlices x).state n) m‖ ^ 2 ≤ maxSpeed m ^ 2 + ε}) ∩
      ⋂ j : Fin dr.modules.length, {x | ‖(ofSlices x).force n j‖ ^ 2 ≤ maxForce dr.modules[j] ^ 2 + ε})) := by
    ext x
    simp only [Set.mem_inter_iff, Set.mem_iInter]
    exact ⟨fun h => ⟨h.1, h.2, h.3, h.4⟩, fun h => ⟨h.1, h.2.1, h.2.2.1, h.2.2.2⟩⟩
  rw [e]
  refine (closed_near ?_ ?_).inter (.inter (isClosed_le (continuous_abs.comp (.sub ?_ ?_)) continuous_const)
    (.inter (isClosed_iInter fun m => isClosed_iInter fun _ => isClosed_le ?_ continuous_const)
      (isClosed_iInter fun j => isClosed_le ?_ continuous_const)))
  · exact continuous_finsetSum _ fun j _ => by simp only [ofSlices]; fun_prop
  · simp only [ofSlices]; fun_prop
  · refine continuous_finsetSum _ fun j _ => ?_
    simp only [torque, lever, ofSlices]
    fun_prop
  · simp only [ofSlices]; fun_prop
  · simp only [wheelVelocity, ofSlices]; fun_prop
  · simp only [ofSlices]; fun_prop

theorem closed_meaningWithin (ε : ℝ) {c₀ : ℝ} (hc₀ : 0 < c₀) (c : Constraint ℝ) (n : ℕ) :
    IsClosed {x : ℕ → Slice | c₀ ≤ ‖((ofSlices x).state n).heading‖ ∧
      MeaningWithin ε c ((ofSlices x).state n)} := by
  have hU : IsClosed {x : ℕ → Slice | c₀ ≤ ‖((ofSlices x).state n).heading‖} := by
    simp only [ofSlices]
    exact isClosed_le continuous_const (by fun_prop)
  have hseg : ∀ (p q : ℂ) (P : ℂ → Prop), (∀ z ∈ segment ℝ p q, P z) ↔
      ∀ θ ∈ Set.Icc (0 : ℝ) 1, P (p + θ * (q - p)) := by
    intro p q P
    rw [segment_eq_image', Set.forall_mem_image]
    simp
  have hand : ∀ c, IsClosed {x : ℕ → Slice | MeaningWithin ε c ((ofSlices x).state n)} →
      IsClosed {x : ℕ → Slice | c₀ ≤ ‖((ofSlices x).state n).heading‖ ∧
        MeaningWithin ε c ((ofSlices x).state n)} := fun c h => hU.inter h
  cases c with
  | linePoint a b p d =>
    by_cases hab : vec a = vec b
    · have : {x : ℕ → Slice | c₀ ≤ ‖((ofSlices x).state n).heading‖ ∧
        MeaningWithin ε (.linePoint a b p d) ((ofSlices x).state n)} = ∅ := by
        ext x
        simp [MeaningWithin, State.onRobot, hab]
      rw [this]
      exact isClosed_empty
    · have : {x : ℕ → Slice | c₀ ≤ ‖((ofSlices x).state n).heading‖ ∧
          MeaningWithin ε (.linePoint a b p d) ((ofSlices x).state n)} =
          {x | c₀ ≤ ‖((ofSlices x).state n).heading‖} ∩
          ⋂ θ ∈ Set.Icc (0 : ℝ) 1, {x | d ^ 2 ≤ dist (((ofSlices x).state n).onRobot a +
            θ * (((ofSlices x).state n).onRobot b - ((ofSlices x).state n).onRobot a)) (vec p) ^ 4 + ε} := by
        ext x
        simp only [Set.mem_ofPred_eq, MeaningWithin, hseg, Set.mem_inter_iff, Set.mem_iInter]
        refine ⟨fun h => ⟨h.1, h.2.2⟩, fun h => ⟨h.1, ?_, h.2⟩⟩
        simp only [State.onRobot]
        intro he
        have h0 : ((ofSlices x).state n).heading ≠ 0 := by
          intro h0; rw [h0, norm_zero] at h; linarith [h.1]
        exact hab (mul_right_cancel₀ h0 (add_left_cancel he))
      rw [this]
      refine hU.inter (isClosed_biInter fun θ _ => ?_)
      simp only [ofSlices, State.onRobot]
      exact isClosed_le continuous_const (by fun_prop)
  | pointLine r a b d =>
    refine hand _ ?_
    simp only [MeaningWithin]
    by_cases hab : vec a = vec b
    · simp [hab]
    · simp only [ne_eq, hab, not_false_eq_true, true_and, hseg]
      simp only [Set.ofPred_forall]
      refine isClosed_biInter fun θ _ => ?_
      simp only [ofSlices, State.onRobot]
      exact isClosed_le continuous_const (by fun_prop)
  | linearVelocityMaxMagnitude m | linearAccelerationMaxMagnitude m =>
    refine hand _ ?_
    simp only [MeaningWithin]
    by_cases hm : m = 0
    · simp only [hm, true_imp_iff, ne_eq, not_true_eq_false, false_imp_iff, and_true]
      exact closed_near (by simp only [ofSlices]; fun_prop) continuous_const
    · simp only [hm, false_imp_iff, true_and, ne_eq, not_false_eq_true, true_imp_iff]
      exact isClosed_le (by simp only [ofSlices]; fun_prop) continuous_const
  | poseEquality x y h =>
    refine hand _ ?_
    exact (closed_near (by simp only [ofSlices]; fun_prop) continuous_const).inter
      (closed_along (by simp only [ofSlices]; fun_prop) continuous_const)
  | translationEquality t =>
    exact hand _ (closed_near (by simp only [ofSlices]; fun_prop) continuous_const)
  | _ =>
    refine hand _ ?_
    simp only [ofSlices, MeaningWithin, State.onRobot]
    exact isClosed_le (by fun_prop) (by fun_prop)

/-- The trajectories of the path up to `ε`, with headings not too short, form a closed set. -/
theorem closed_obeysWithin (ε : ℝ) {c₀ : ℝ} (hc₀ : 0 < c₀) (t : PathTable ℝ) (dr : SwerveDrivetrain ℝ) :
    IsClosed {x : ℕ → Slice | (∀ n < sampleCount t.counts, c₀ ≤ ‖((ofSlices x).state n).heading‖) ∧
      ObeysWithin ε t dr (ofSlices x)} := by
  have e : {x : ℕ → Slice | (∀ n < sampleCount t.counts, c₀ ≤ ‖((ofSlices x).state n).heading‖) ∧
      ObeysWithin ε t dr (ofSlices x)} =
      (⋂ n, ⋂ (_ : n < sampleCount t.counts), {x | c₀ ≤ ‖((ofSlices x).state n).heading‖}) ∩
      ((⋂ s, ⋂ (_ : s < t.counts.length), ⋂ n, ⋂ (_ : n ∈ segmentSamples t.counts s),
        {x | IntervalWithin ε ((ofSlices x).dt s) ((ofSlices x).state (n - 1)) ((ofSlices x).state n)}) ∩
      ((⋂ n, ⋂ (_ : n < sampleCount t.counts),
        {x | DynamicsWithin ε dr ((ofSlices x).state n) ((ofSlices x).force n)}) ∩
      ((⋂ s, ⋂ (_ : s < t.counts.length), {x | 0 ≤ (ofSlices x).dt s + ε}) ∩
      ((⋂ s, ⋂ (_ : s < t.counts.length), ⋂ m, ⋂ (_ : m ∈ dr.modules), ⋂ g, ⋂ (_ : Gap dr g),
        {x | (ofSlices x).dt s * m.wheelRadius * m.wheelMaxAngularVelocity ≤ g + ε}) ∩
      ((⋂ w, ⋂ (_ : w ≤ t.counts.length), ⋂ c, ⋂ (_ : c ∈ t.instant w),
        {x | c₀ ≤ ‖((ofSlices x).state (waypointSample t.counts w)).heading‖ ∧
          MeaningWithin ε c ((ofSlices x).state (waypointSample t.counts w))}) ∩
      (⋂ s, ⋂ (_ : s < t.counts.length), ⋂ c, ⋂ (_ : c ∈ t.continuous s), ⋂ n,
        ⋂ (_ : n ∈ segmentSamples t.counts s),
        {x | c₀ ≤ ‖((ofSlices x).state n).heading‖ ∧ MeaningWithin ε c ((ofSlices x).state n)})))))) := by
    ext x
    simp only [Set.mem_ofPred_eq, Set.mem_inter_iff, Set.mem_iInter]
    constructor
    · rintro ⟨hu, h⟩
      refine ⟨hu, h.interval, h.dynamics, h.time, h.stepCap, fun w hw c hc => ⟨hu _ ?_,
        h.instant w hw c hc⟩, fun s hs c hc n hn => ⟨hu _ ?_, h.continuous s hs c hc n hn⟩⟩
      · have := sum_take_le t.counts w
        simp only [waypointSample, sampleCount]; omega
      · rw [segmentSamples, Finset.mem_Ioc] at hn
        have := sum_take_le t.counts (s + 1)
        simp only [waypointSample, sampleCount] at *; omega
    · rintro ⟨hu, h1, h2, h3, h4, h5, h6⟩
      exact ⟨hu, h1, h2, h3, h4, fun w hw c hc => (h5 w hw c hc).2,
        fun s hs c hc n hn => (h6 s hs c hc n hn).2⟩
  rw [e]
  refine .inter (isClosed_iInter fun n => isClosed_iInter fun _ => ?_) (.inter
    (isClosed_iInter fun s => isClosed_iInter fun _ => isClosed_iInter fun n =>
      isClosed_iInter fun _ => closed_intervalWithin ε s n) (.inter
    (isClosed_iInter fun n => isClosed_iInter fun _ => closed_dynamicsWithin ε dr n) (.inter
    (isClosed_iInter fun s => isClosed_iInter fun _ => ?_) (.inter
    (isClosed_iInter fun s => isClosed_iInter fun _ => isClosed_iInter fun m =>
      isClosed_iInter fun _ => isClosed_iInter fun g => isClosed_iInter fun _ => ?_) (.inter
    (isClosed_iInter fun w => isClosed_iInter fun _ => isClosed_iInter fun c =>
      isClosed_iInter fun _ => closed_meaningWithin ε hc₀ c _)
    (isClosed_iInter fun s => isClosed_iInter fun _ => isClosed_iInter fun c =>
      isClosed_iInter fun _ => isClosed_iInter fun n => isClosed_iInter fun _ =>
        closed_meaningWithin ε hc₀ c n))))))
  · simp only [ofSlices]
    exact isClosed_le continuous_const (by fun_prop)
  · simp only [ofSlices]
    exact isClosed_le continuous_const (by fun_prop)
  · simp only [ofSlices]
    exact isClosed_le (by fun_prop) continuous_const

theorem norm_of_near {ε : ℝ} {z w : ℂ} (h : Near ε z w) : ‖z - w‖ ≤ 2 * ε := by
  have := Complex.norm_le_abs_re_add_abs_im (z - w)
  rw [Complex.sub_re, Complex.sub_im] at this
  linarith [h.1, h.2]

theorem le_of_sq_le {x y ε : ℝ} (hy : 0 ≤ y) (hε : ε ≤ 1) (h : x ^ 2 ≤ y ^ 2 + ε) : x ≤ y + 1 := by
  by_contra hc
  push Not at hc
  nlinarith

theorem obeysWithin_trim {ε : ℝ} (hε : 0 ≤ ε) {t : PathTable ℝ} {dr : SwerveDrivetrain ℝ} {T : Traj}
    (h : ObeysWithin ε t dr T) : ObeysWithin ε t dr (trim t.counts dr.modules.length T) := by
  have hst : ∀ n < sampleCount t.counts, (trim t.counts dr.modules.length T).state n = T.state n :=
    fun n hn => by simp [trim, hn]
  have hseg : ∀ s < t.counts.length, ∀ n ∈ segmentSamples t.counts s,
      n < sampleCount t.counts ∧ 0 < t.counts.getD s 0 := by
    intro s hs n hn
    rw [segmentSamples, Finset.mem_Ioc] at hn
    have h1 := sum_take_le t.counts (s + 1)
    have h2 := sum_take_succ t.counts hs
    rw [getD_lt hs]
    simp only [waypointSample, sampleCount] at *
    omega
  refine ⟨?_, ?_, ?_, ?_, ?_, ?_⟩
  · intro s hs n hn
    obtain ⟨h1, h2⟩ := hseg s hs n hn
    rw [hst n h1, hst (n - 1) (by omega)]
    simp only [trim, hs, h2, and_self, if_true]
    exact h.interval s hs n hn
  · intro n hn
    rw [hst n hn]
    have hf : ∀ j : Fin dr.modules.length, (trim t.counts dr.modules.length T).force n j =
        T.force n j := fun j => by simp [trim, hn]
    have hd := h.dynamics n hn
    exact ⟨by simp only [hf]; exact hd.force, by simp only [hf]; exact hd.torque, hd.speed,
      fun j => by rw [hf]; exact hd.limit j⟩
  · intro s hs
    simp only [trim]
    split
    · exact h.time s hs
    · linarith
  · intro s hs m hm g hg
    simp only [trim]
    split
    · exact h.stepCap s hs m hm g hg
    · obtain ⟨-, a, b, -, rfl | rfl⟩ := hg <;> simp only [zero_mul] <;> positivity
  · intro w hw c hc
    have := sum_take_le t.counts w
    rw [hst _ (by simp only [waypointSample, sampleCount]; omega)]
    exact h.instant w hw c hc
  · intro s hs c hc n hn
    rw [hst _ (hseg s hs n hn).1]
    exact h.continuous s hs c hc n hn

theorem near_mono {ε ε' : ℝ} (h : ε ≤ ε') {z w : ℂ} (hz : Near ε z w) : Near ε' z w :=
  ⟨hz.1.trans h, hz.2.trans h⟩

theorem along_mono {ε ε' : ℝ} (h : ε ≤ ε') {z w : ℂ} (hz : Along ε z w) : Along ε' z w :=
  ⟨hz.1.trans h, hz.2.trans h⟩

theorem meaningWithin_mono {ε ε' : ℝ} (h : ε ≤ ε') {c : Constraint ℝ} {s : State}
    (hc : MeaningWithin ε c s) : MeaningWithin ε' c s := by
  cases c with
  | linearAccelerationMaxMagnitude m | linearVelocityMaxMagnitude m =>
    exact ⟨fun e => near_mono h (hc.1 e), fun e => (hc.2 e).trans (by linarith)⟩
  | linePoint a b p d | pointLine a b p d => exact ⟨hc.1, fun q hq => (hc.2 q hq).trans (by linarith)⟩
  | poseEquality x y θ => exact ⟨near_mono h hc.1, along_mono h hc.2⟩
  | translationEquality p => exact near_mono h hc
  | _ => exact le_trans hc (by linarith)

theorem obeysWithin_mono {ε ε' : ℝ} (h : ε ≤ ε') {t : PathTable ℝ} {dr : SwerveDrivetrain ℝ} {T : Traj}
    (hT : ObeysWithin ε t dr T) : ObeysWithin ε' t dr T where
  interval s hs n hn :=
    have i := hT.interval s hs n hn
    ⟨near_mono h i.pos, along_mono h i.turn, near_mono h i.vel, i.omega.trans h⟩
  dynamics n hn :=
    have d := hT.dynamics n hn
    ⟨near_mono h d.force, d.torque.trans h, fun m hm => (d.speed m hm).trans (by linarith),
      fun j => (d.limit j).trans (by linarith)⟩
  time s hs := (hT.time s hs).trans (by linarith)
  stepCap s hs m hm g hg := (hT.stepCap s hs m hm g hg).trans (by linarith)
  instant w hw c hc := meaningWithin_mono h (hT.instant w hw c hc)
  continuous s hs c hc n hn := meaningWithin_mono h (hT.continuous s hs c hc n hn)

/-- A bound for all trajectories of the path up to `ε` whose intervals take at most `τ`, whose headings are neither
too long nor too short, and that are not further away than `P` at sample `k`. -/
theorem bounded_within (t : PathTable ℝ) (dr : SwerveDrivetrain ℝ) (m₁ m₂ : SwerveModule ℝ)
    (h₁ : m₁ ∈ dr.modules) (h₂ : m₂ ∈ dr.modules) (hm : vec m₁.translation ≠ vec m₂.translation)
    (hmass : dr.mass ≠ 0) (hmoi : dr.moi ≠ 0) (k : ℕ) (hk : k < sampleCount t.counts) (P : ℝ)
    (τ : ℝ) {c₀ : ℝ} (hc₀ : 0 < c₀) (C : ℝ) :
    ∃ R, ∀ ε, 0 ≤ ε → ε ≤ 1 → ∀ T, ObeysWithin ε t dr T →
      (∀ n < sampleCount t.counts, c₀ ≤ ‖(T.state n).heading‖ ∧ ‖(T.state n).heading‖ ≤ C) →
      ‖(T.state k).pos‖ ≤ P → (∀ s < t.counts.length, 0 < t.counts.getD s 0 → |T.dt s| ≤ τ) →
      ∀ n, toSlices (trim t.counts dr.modules.length T) n ∈ ball R := by
  set Ω := (maxSpeed m₁ + 1 + (maxSpeed m₂ + 1)) / ‖vec m₁.translation - vec m₂.translation‖ with hΩ
  set V := (maxSpeed m₁ + 1 + Ω * ‖vec m₁.translation‖) / c₀ with hV
  set F := ∑ j : Fin dr.modules.length, (maxForce dr.modules[j] + 1) with hF
  set M := ∑ j : Fin dr.modules.length,
    ‖vec dr.modules[j].translation‖ * C * (maxForce dr.modules[j] + 1) with hM
  set B := P + sampleCount t.counts * (|τ| * V + 2) + sampleCount t.counts * (|τ| * V + 2) with hB
  obtain ⟨R, r0, r1, r2, r3, r4, r5, r6, r7, r8⟩ : ∃ R, 0 ≤ R ∧ C ≤ R ∧ Ω ≤ R ∧ V ≤ R ∧ τ ≤ R ∧
      B ≤ R ∧ F ≤ R ∧ (F + 2) / |dr.mass| ≤ R ∧ (M + 1) / |dr.moi| ≤ R :=
    ⟨max 0 (max C (max Ω (max V (max τ (max B (max F (max ((F + 2) / |dr.mass|) ((M + 1) / |dr.moi|)))))))),
      by simp⟩
  have hδ : 0 < ‖vec m₁.translation - vec m₂.translation‖ := norm_pos_iff.mpr (sub_ne_zero.mpr hm)
  have hs1 : 0 ≤ maxSpeed m₁ := abs_nonneg _
  have hs2 : 0 ≤ maxSpeed m₂ := abs_nonneg _
  have hΩ0 : 0 ≤ Ω := by positivity
  have hV0 : 0 ≤ V := by positivity
  refine ⟨R, fun ε hε hε1 T hT hu hP hτ => ?_⟩
  -- angular velocity
  have homega : ∀ n < sampleCount t.counts, |(T.state n).omega| ≤ Ω := by
    intro n hn
    have d := hT.dynamics n hn
    have e1 := le_of_sq_le hs1 hε1 (d.speed m₁ h₁)
    have e2 := le_of_sq_le hs2 hε1 (d.speed m₂ h₂)
    have e3 : wheelVelocity (T.state n) m₁ - wheelVelocity (T.state n) m₂ =
        Complex.I * (T.state n).omega * (vec m₁.translation - vec m₂.translation) := by
      simp only [wheelVelocity]; ring
    have e4 : |(T.state n).omega| * ‖vec m₁.translation - vec m₂.translation‖ ≤
        maxSpeed m₁ + 1 + (maxSpeed m₂ + 1) := by
      calc |(T.state n).omega| * ‖vec m₁.translation - vec m₂.translation‖
          = ‖wheelVelocity (T.state n) m₁ - wheelVelocity (T.state n) m₂‖ := by
            rw [e3]; simp
        _ ≤ _ := (norm_sub_le _ _).trans (add_le_add e1 e2)
    rw [hΩ, le_div_iff₀ hδ]
    exact e4
  -- velocity
  have hvel : ∀ n < sampleCount t.counts, ‖(T.state n).vel‖ ≤ V := by
    intro n hn
    have e1 := le_of_sq_le hs1 hε1 ((hT.dynamics n hn).speed m₁ h₁)
    have e2 : (starRingEnd ℂ) (T.state n).heading * (T.state n).vel =
        wheelVelocity (T.state n) m₁ - Complex.I * (T.state n).omega * vec m₁.translation := by
      simp only [wheelVelocity]; ring
    have e3 : c₀ * ‖(T.state n).vel‖ ≤ ‖(starRingEnd ℂ) (T.state n).heading * (T.state n).vel‖ := by
      rw [norm_mul, Complex.norm_conj]
      exact mul_le_mul_of_nonneg_right (hu n hn).1 (norm_nonneg _)
    rw [hV, le_div_iff₀ hc₀, mul_comm]
    refine e3.trans ?_
    rw [e2]
    refine (norm_sub_le _ _).trans (add_le_add e1 ?_)
    simp only [norm_mul, Complex.norm_I, one_mul, Complex.norm_real, Real.norm_eq_abs]
    exact mul_le_mul_of_nonneg_right (homega n hn) (norm_nonneg _)
  -- positions
  have hpos0 : ∀ n < sampleCount t.counts, ‖(T.state n).pos - (T.state 0).pos‖ ≤ n * (|τ| * V + 2) := by
    intro n
    induction n with
    | zero => intro _; simp
    | succ n ih =>
      intro hn
      obtain ⟨s, ⟨hs, hmem⟩, -⟩ := (C01_tiling t.counts).1 (n + 1) (by omega) hn
      have hi := norm_of_near (hT.interval s hs _ hmem).pos
      rw [Nat.add_sub_cancel] at hi
      have h0 : 0 < t.counts.getD s 0 := by
        rw [segmentSamples, Finset.mem_Ioc] at hmem
        have h2 := sum_take_succ t.counts hs
        rw [getD_lt hs]
        simp only [waypointSample] at hmem
        omega
      have h1 : ‖(T.dt s : ℂ) * (T.state (n + 1)).vel‖ ≤ |τ| * V := by
        rw [norm_mul, Complex.norm_real, Real.norm_eq_abs]
        exact mul_le_mul ((hτ s hs h0).trans (le_abs_self τ)) (hvel _ hn) (norm_nonneg _) (abs_nonneg _)
      calc ‖(T.state (n + 1)).pos - (T.state 0).pos‖
          = ‖((T.state n).pos - (T.state 0).pos) + (T.dt s * (T.state (n + 1)).vel +
            ((T.state (n + 1)).pos - ((T.state n).pos + T.dt s * (T.state (n + 1)).vel)))‖ := by
            congr 1; ring
        _ ≤ n * (|τ| * V + 2) + (|τ| * V + 2) := (norm_add_le _ _).trans (add_le_add (ih (by omega))
            ((norm_add_le _ _).trans (add_le_add h1 (hi.trans (by linarith)))))
        _ = ((n + 1 : ℕ) : ℝ) * (|τ| * V + 2) := by push_cast; ring
  have hpos : ∀ n < sampleCount t.counts, ‖(T.state n).pos‖ ≤ B := by
    intro n hn
    have hτV : 0 ≤ |τ| * V + 2 := by positivity
    have big : ∀ i < sampleCount t.counts, ‖(T.state i).pos - (T.state 0).pos‖ ≤
        sampleCount t.counts * (|τ| * V + 2) := fun i hi => (hpos0 i hi).trans
      (mul_le_mul_of_nonneg_right (by exact_mod_cast hi.le) hτV)
    have e : (T.state n).pos = (T.state k).pos + ((T.state n).pos - (T.state 0).pos) -
        ((T.state k).pos - (T.state 0).pos) := by ring
    rw [e, hB]
    exact (norm_sub_le _ _).trans (add_le_add ((norm_add_le _ _).trans
      (add_le_add hP (big n hn))) (big k hk))
  -- forces
  have hmf : ∀ m : SwerveModule ℝ, 0 ≤ maxForce m := fun m => abs_nonneg _
  have hlim : ∀ n < sampleCount t.counts, ∀ j : Fin dr.modules.length,
      ‖T.force n j‖ ≤ maxForce dr.modules[j] + 1 :=
    fun n hn j => le_of_sq_le (hmf _) hε1 ((hT.dynamics n hn).limit j)
  have hforce : ∀ n < sampleCount t.counts, ∀ j < dr.modules.length, ‖T.force n j‖ ≤ F := by
    intro n hn j hj
    refine (hlim n hn ⟨j, hj⟩).trans ?_
    exact Finset.single_le_sum (f := fun j : Fin dr.modules.length => maxForce dr.modules[j] + 1)
      (fun i _ => add_nonneg (hmf _) zero_le_one) (Finset.mem_univ (⟨j, hj⟩ : Fin dr.modules.length))
  have hacc : ∀ n < sampleCount t.counts, ‖(T.state n).acc‖ ≤ (F + 2) / |dr.mass| := by
    intro n hn
    rw [le_div_iff₀ (abs_pos.mpr hmass), mul_comm]
    have e := norm_of_near (hT.dynamics n hn).force
    calc |dr.mass| * ‖(T.state n).acc‖ = ‖(∑ j : Fin dr.modules.length, T.force n j) -
          ((∑ j : Fin dr.modules.length, T.force n j) - dr.mass * (T.state n).acc)‖ := by
          rw [sub_sub_cancel]; simp
      _ ≤ ‖∑ j : Fin dr.modules.length, T.force n j‖ + 2 * ε := (norm_sub_le _ _).trans (add_le_add le_rfl e)
      _ ≤ F + 2 := add_le_add ((norm_sum_le _ _).trans (Finset.sum_le_sum fun j _ => hlim n hn j)) (by linarith)
  have halpha : ∀ n < sampleCount t.counts, |(T.state n).alpha| ≤ (M + 1) / |dr.moi| := by
    intro n hn
    rw [le_div_iff₀ (abs_pos.mpr hmoi), mul_comm, ← abs_mul]
    have e := (hT.dynamics n hn).torque
    have e' : |∑ j : Fin dr.modules.length, torque (lever (T.state n) dr.modules[j]) (T.force n j)| ≤ M := by
      refine (Finset.abs_sum_le_sum_abs _ _).trans (Finset.sum_le_sum fun j _ => ?_)
      calc |torque (lever (T.state n) dr.modules[j]) (T.force n j)|
          ≤ ‖(starRingEnd ℂ) (lever (T.state n) dr.modules[j]) * T.force n j‖ :=
            Complex.abs_im_le_norm _
        _ = ‖vec dr.modules[j].translation‖ * ‖(T.state n).heading‖ * ‖T.force n j‖ := by
            rw [norm_mul, Complex.norm_conj, lever, norm_mul]
        _ ≤ _ := mul_le_mul (mul_le_mul_of_nonneg_left (hu n hn).2 (norm_nonneg _)) (hlim n hn j) (norm_nonneg _)
            (mul_nonneg (norm_nonneg _) ((norm_nonneg _).trans (hu n hn).2))
    rw [abs_le] at e e' ⊢
    constructor <;> linarith [e.1, e.2, e'.1, e'.2]
  intro n
  rw [mem_ball]
  have hd : |(trim t.counts dr.modules.length T).dt n| ≤ R := by
    simp only [trim]
    split
    next h => exact (hτ n h.1 h.2).trans r4
    next => simpa using r0
  have hf : ∀ j, ‖(trim t.counts dr.modules.length T).force n j‖ ≤ R := by
    intro j
    simp only [trim]
    split
    next h => exact (hforce n h.1 j h.2).trans r6
    next => simpa using r0
  by_cases hn : n < sampleCount t.counts
  · have hst : (trim t.counts dr.modules.length T).state n = T.state n := by simp [trim, hn]
    simp only [toSlices, hst]
    exact ⟨(hpos n hn).trans r5, (hu n hn).2.trans r1, (hvel n hn).trans r3,
      (hacc n hn).trans r7, (homega n hn).trans r2, (halpha n hn).trans r8, hf, hd⟩
  · have hst : (trim t.counts dr.modules.length T).state n = ⟨0, 0, 0, 0, 0, 0⟩ := by simp [trim, hn]
    simp only [toSlices, hst]
    exact ⟨by simpa using r0, by simpa using r0, by simpa using r0, by simpa using r0,
      by simpa using r0, by simpa using r0, hf, hd⟩

/-- Trajectories that are feasible up to smaller and smaller tolerances come close to feasible ones. -/
theorem exists_close (t : PathTable ℝ) (dr : SwerveDrivetrain ℝ) (m₁ m₂ : SwerveModule ℝ)
    (h₁ : m₁ ∈ dr.modules) (h₂ : m₂ ∈ dr.modules) (hm : vec m₁.translation ≠ vec m₂.translation)
    (hmass : dr.mass ≠ 0) (hmoi : dr.moi ≠ 0) (k : ℕ) (hk : k < sampleCount t.counts) (P : ℝ)
    (τ : ℝ) {c₀ : ℝ} (hc₀ : 0 < c₀) (C : ℝ) {ε₀ : ℝ} (hε₀ : 0 < ε₀) (hε1 : ε₀ ≤ 1)
    (hbound : ∀ ε, 0 ≤ ε → ε ≤ ε₀ → ∀ T, ObeysWithin ε t dr T →
      (∀ n < sampleCount t.counts, c₀ ≤ ‖(T.state n).heading‖ ∧ ‖(T.state n).heading‖ ≤ C) ∧
      ‖(T.state k).pos‖ ≤ P)
    (δ : ℝ) (hδ : 0 < δ) :
    ∃ ε, 0 < ε ∧ ε ≤ ε₀ ∧ ∀ T, ObeysWithin ε t dr T →
      (∀ s < t.counts.length, 0 < t.counts.getD s 0 → |T.dt s| ≤ τ) →
      ∃ T', (∀ ε > 0, ObeysWithin ε t dr T') ∧ T.CloseTo δ t.counts dr.modules.length T' := by
  by_contra hno
  push Not at hno
  have hε : ∀ i : ℕ, 0 < ε₀ / (i + 1) ∧ ε₀ / (i + 1) ≤ ε₀ := fun i =>
    ⟨by positivity, div_le_self hε₀.le (by linarith [Nat.cast_nonneg (α := ℝ) i])⟩
  choose T hT hτ hfar using fun i : ℕ => hno (ε₀ / (i + 1)) (hε i).1 (hε i).2
  obtain ⟨R, hR⟩ := bounded_within t dr m₁ m₂ h₁ h₂ hm hmass hmoi k hk P τ hc₀ C
  have hK : IsCompact (Set.univ.pi fun _ : ℕ => ball R) := isCompact_univ_pi fun _ => compact_ball R
  have hin : ∀ i, toSlices (trim t.counts dr.modules.length (T i)) ∈ (Set.univ.pi fun _ : ℕ => ball R) :=
    fun i n _ => hR _ (hε i).1.le ((hε i).2.trans hε1) (T i) (hT i)
      (hbound _ (hε i).1.le (hε i).2 _ (hT i)).1 (hbound _ (hε i).1.le (hε i).2 _ (hT i)).2 (hτ i) n
  obtain ⟨x, -, φ, hφ, hlim⟩ := hK.isSeqCompact hin
  have hobeys : ∀ ε > 0, ObeysWithin ε t dr (ofSlices x) := by
    intro ε hpos
    have hev : ∀ᶠ i in Filter.atTop, ε₀ / ((φ i : ℝ) + 1) ≤ ε := by
      have h0 : Filter.Tendsto (fun i : ℕ => ε₀ / ((i : ℝ) + 1)) Filter.atTop (nhds 0) := by
        have := (tendsto_one_div_add_atTop_nhds_zero_nat (𝕜 := ℝ)).const_mul ε₀
        simpa [div_eq_mul_inv] using this
      exact (h0.comp hφ.tendsto_atTop).eventually_le_const hpos
    refine ((closed_obeysWithin ε hc₀ t dr).mem_of_tendsto hlim (hev.mono fun i hi => ?_)).2
    have ho := obeysWithin_trim (hε (φ i)).1.le (hT (φ i))
    exact ⟨fun n hn => ((hbound _ (hε (φ i)).1.le (hε (φ i)).2 _ ho).1 n hn).1, obeysWithin_mono hi ho⟩
  have hclose : ∀ {E : Type} [PseudoMetricSpace E] (f : (ℕ → Slice) → E), Continuous f →
      ∀ᶠ i in Filter.atTop, dist (f (toSlices (trim t.counts dr.modules.length (T (φ i))))) (f x) ≤ δ := by
    intro E _ f hf
    have := ((hf.tendsto x).comp hlim).dist (tendsto_const_nhds (x := f x))
    rw [dist_self] at this
    exact this.eventually_le_const hδ
  have hall : ∀ᶠ i in Filter.atTop,
      (∀ n ∈ Finset.range (sampleCount t.counts),
        ((trim t.counts dr.modules.length (T (φ i))).state n).CloseTo δ ((ofSlices x).state n)) ∧
      (∀ n ∈ Finset.range (sampleCount t.counts), ∀ j ∈ Finset.range dr.modules.length,
        ‖(trim t.counts dr.modules.length (T (φ i))).force n j - (ofSlices x).force n j‖ ≤ δ) ∧
      ∀ s ∈ Finset.range t.counts.length,
        |(trim t.counts dr.modules.length (T (φ i))).dt s - (ofSlices x).dt s| ≤ δ := by
    refine Filter.Eventually.and ?_ (Filter.Eventually.and ?_ ?_)
    · rw [Filter.eventually_all_finset]
      intro n _
      filter_upwards [hclose (fun y => (y n).1) (by fun_prop), hclose (fun y => (y n).2.1) (by fun_prop),
        hclose (fun y => (y n).2.2.1) (by fun_prop), hclose (fun y => (y n).2.2.2.1) (by fun_prop),
        hclose (fun y => (y n).2.2.2.2.1) (by fun_prop), hclose (fun y => (y n).2.2.2.2.2.1) (by fun_prop)]
        with i a1 a2 a3 a4 a5 a6
      rw [dist_eq_norm] at a1 a2 a3 a4
      rw [Real.dist_eq] at a5 a6
      exact ⟨a1, a2, a3, a4, a5, a6⟩
    · rw [Filter.eventually_all_finset]
      intro n _
      rw [Filter.eventually_all_finset]
      intro j _
      filter_upwards [hclose (fun y => (y n).2.2.2.2.2.2.1 j) (by fun_prop)] with i a
      rwa [dist_eq_norm] at a
    · rw [Filter.eventually_all_finset]
      intro s _
      filter_upwards [hclose (fun y => (y s).2.2.2.2.2.2.2) (by fun_prop)] with i a
      rwa [Real.dist_eq] at a
  obtain ⟨i, a1, a2, a3⟩ := hall.exists
  refine hfar (φ i) (ofSlices x) hobeys ⟨fun n hn => ?_, fun n hn j hj => ?_, fun s hs h0 => ?_⟩
  · have := a1 n (Finset.mem_range.mpr hn)
    simpa only [trim, hn, if_true] using this
  · have := a2 n (Finset.mem_range.mpr hn) j (Finset.mem_range.mpr hj)
    simpa only [trim, hn, hj, and_self, if_true] using this
  · have := a3 s (Finset.mem_range.mpr hs)
    simpa only [trim, hs, h0, and_self, if_true] using this

end Trajopt
