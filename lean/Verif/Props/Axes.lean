import Verif.Props.Invariance
import Verif.Props.Reach
import Verif.Props.Stronger

/-!
# C91 Which way the robot's axes point (real arithmetic)
-/

set_option autoImplicit false

namespace Trajopt

open Spec Builder

theorem vec_axes (φ : ℝ) (r : Translation2 ℝ) :
    vec ((axes φ).robot r) = (starRingEnd ℂ) (unitVec φ) * vec r := by
  simp only [axes, vec, unitVec_mk]
  apply Complex.ext
  · simp
  · simp; ring

theorem onRobot_axes (φ : ℝ) (s : State) (r : Translation2 ℝ) :
    (s.onAxes φ).onRobot ((axes φ).robot r) = s.onRobot r := by
  simp only [State.onRobot, State.onAxes, vec_axes]
  linear_combination s.heading * vec r * unit_mul_conj φ

theorem meaning_axes (φ : ℝ) (c : Constraint ℝ) (hc : NoFront c) (s : State) :
    Meaning ((axes φ).con c) (s.onAxes φ) ↔ Meaning c s := by
  have h0 : unitVec φ ≠ 0 := Complex.exp_ne_zero _
  cases c with
  | pointAt p tol => exact hc.elim
  | poseEquality x y a =>
    have hu : unitVec (a + φ) = unitVec φ * unitVec a := by
      simp only [unitVec]
      rw [← Complex.exp_add]
      congr 1
      push_cast
      ring
    simp only [Meaning, Change.con]
    rw [show (axes φ).dir a = a + φ from rfl, hu,
      show (s.onAxes φ).heading = unitVec φ * s.heading from rfl, mul_right_inj' h0, ← mul_neg,
      mul_right_inj' h0]
    rfl
  | linePoint a b p d => simp only [Meaning, Change.con, onRobot_axes]; rfl
  | pointLine r a b d => simp only [Meaning, Change.con, onRobot_axes]; rfl
  | pointPoint r p d => simp only [Meaning, Change.con, onRobot_axes]; rfl
  | _ => rfl

theorem interval_axes (φ d : ℝ) (s s' : State) :
    Interval d (s.onAxes φ) (s'.onAxes φ) ↔ Interval d s s' := by
  have ht : unitVec φ * s'.heading * (starRingEnd ℂ) (unitVec φ * s.heading) =
      s'.heading * (starRingEnd ℂ) s.heading := by
    rw [map_mul]
    linear_combination s'.heading * (starRingEnd ℂ) s.heading * unit_mul_conj φ
  constructor
  · rintro ⟨h1, h2, h3, h4⟩
    simp only [State.onAxes] at h1 h2 h3 h4
    rw [ht] at h2
    exact ⟨h1, h2, h3, h4⟩
  · rintro ⟨h1, h2, h3, h4⟩
    refine ⟨h1, ?_, h3, h4⟩
    simp only [State.onAxes]
    rw [ht]
    exact h2

theorem dynamics_axes (φ : ℝ) (dr : SwerveDrivetrain ℝ) (s : State) (F : ℕ → ℂ) :
    Dynamics ((axes φ).drivetrain dr) (s.onAxes φ) F ↔ Dynamics dr s F := by
  have hlen : ((axes φ).drivetrain dr).modules.length = dr.modules.length := by
    simp [Change.drivetrain]
  let e : Fin ((axes φ).drivetrain dr).modules.length ≃ Fin dr.modules.length := finCongr hlen
  have hmod : ∀ j, ((axes φ).drivetrain dr).modules[j] = (axes φ).wheel dr.modules[e j] := by
    intro j
    exact List.getElem_map _
  have hforce : ∑ j : Fin ((axes φ).drivetrain dr).modules.length, F j =
      ∑ j : Fin dr.modules.length, F j := e.sum_comp fun j => F j
  have hlever : ∀ m, lever (s.onAxes φ) ((axes φ).wheel m) = lever s m := by
    intro m
    simp only [lever, Change.wheel, State.onAxes, vec_axes]
    linear_combination s.heading * vec m.translation * unit_mul_conj φ
  have htorque : ∑ j : Fin ((axes φ).drivetrain dr).modules.length,
      torque (lever (s.onAxes φ) ((axes φ).drivetrain dr).modules[j]) (F j) =
      ∑ j : Fin dr.modules.length, torque (lever s dr.modules[j]) (F j) := by
    rw [← e.sum_comp]
    refine Finset.sum_congr rfl fun j _ => ?_
    rw [hmod, hlever]
    rfl
  have hspeed : ∀ m, ‖wheelVelocity (s.onAxes φ) ((axes φ).wheel m)‖ = ‖wheelVelocity s m‖ := by
    intro m
    have : wheelVelocity (s.onAxes φ) ((axes φ).wheel m) =
        (starRingEnd ℂ) (unitVec φ) * wheelVelocity s m := by
      simp only [wheelVelocity, Change.wheel, State.onAxes, vec_axes, map_mul]
      ring
    rw [this, norm_mul, Complex.norm_conj, unitVec, Complex.norm_exp_ofReal_mul_I, one_mul]
  have hs : (∀ m ∈ ((axes φ).drivetrain dr).modules, ‖wheelVelocity (s.onAxes φ) m‖ ≤ maxSpeed m) ↔
      ∀ m ∈ dr.modules, ‖wheelVelocity s m‖ ≤ maxSpeed m := by
    simp only [Change.drivetrain, List.forall_mem_map, hspeed]
    rfl
  have hl : (∀ j : Fin ((axes φ).drivetrain dr).modules.length,
      ‖F j‖ ≤ maxForce ((axes φ).drivetrain dr).modules[j]) ↔
      ∀ j : Fin dr.modules.length, ‖F j‖ ≤ maxForce dr.modules[j] := by
    refine e.forall_congr fun j => ?_
    rw [hmod]
    rfl
  constructor
  · rintro ⟨f, t, v, l⟩
    exact ⟨hforce.symm.trans f, htorque.symm.trans t, hs.mp v, hl.mp l⟩
  · rintro ⟨f, t, v, l⟩
    exact ⟨hforce.trans f, htorque.trans t, hs.mpr v, hl.mpr l⟩

namespace Props

/-- C91, what holds: describe the robot in axes turned by any angle `φ`, in all calls of a path's history that does
not speak of the robot's front, and count headings from the new axes.  Then the feasible trajectories are the same
ones, wherever the step cap is the same.  Missing: the step cap itself. -/
theorem C91_axes_partial (φ : ℝ) (asserts : Bool) (ops : List (Op ℝ)) (dr : SwerveDrivetrain ℝ) (T : Traj)
    (hi : ∀ w ≤ (table (run asserts ops Builder.new)).counts.length,
      ∀ c ∈ (table (run asserts ops Builder.new)).instant w, NoFront c)
    (hc : ∀ s < (table (run asserts ops Builder.new)).counts.length,
      ∀ c ∈ (table (run asserts ops Builder.new)).continuous s, NoFront c)
    (hcap : ∀ s < (table (run asserts ops Builder.new)).counts.length,
      (∀ m ∈ dr.modules, ∀ g, Gap ((axes φ).drivetrain dr) g →
        T.dt s * m.wheelRadius * m.wheelMaxAngularVelocity ≤ g) ↔
      ∀ m ∈ dr.modules, ∀ g, Gap dr g → T.dt s * m.wheelRadius * m.wheelMaxAngularVelocity ≤ g) :
    Solves (run asserts ops Builder.new) dr T ↔
      Solves (run asserts (ops.map (axes φ).op) Builder.new) ((axes φ).drivetrain dr) (T.onAxes φ) := by
  obtain ⟨h1, h2, h3, h4, h5⟩ := (rel_new (R := axes φ) ⟨fun _ _ => rfl, fun _ => rfl⟩ asserts ops).table
  generalize hb : run asserts ops Builder.new = b at h1 h2 h3 h4 h5 hi hc hcap
  generalize hb' : run asserts (ops.map (axes φ).op) Builder.new = b' at h1 h2 h3 h4 h5
  have hreach : Reachable b := ⟨asserts, ops, hb.symm⟩
  have hreach' : Reachable b' := ⟨asserts, _, hb'.symm⟩
  have hrobot : Function.Injective (axes φ).robot := by
    intro p q h
    have h0 : (starRingEnd ℂ) (unitVec φ) ≠ 0 := by
      rw [conj_unitVec]; exact Complex.exp_ne_zero _
    have := (vec_axes φ p).symm.trans ((congrArg vec h).trans (vec_axes φ q))
    have := mul_left_cancel₀ h0 this
    obtain ⟨x, y⟩ := p
    obtain ⟨x', y'⟩ := q
    simpa [vec] using this
  have hinj : Function.Injective (axes φ).drivetrain := by
    rintro ⟨M, J, ms⟩ ⟨M', J', ms'⟩ h
    simp only [Change.drivetrain, SwerveDrivetrain.mk.injEq] at h
    obtain ⟨h1, h2, h3⟩ := h
    have hw : Function.Injective (axes φ).wheel := by
      rintro ⟨p, r, w, q⟩ ⟨p', r', w', q'⟩ h
      simp only [Change.wheel, SwerveModule.mk.injEq] at h
      simp only [SwerveModule.mk.injEq]
      exact ⟨hrobot h.1, h.2⟩
    rw [List.map_injective_iff.mpr hw h3]
    exact congrArg₂ (fun a b => (⟨a, b, ms'⟩ : SwerveDrivetrain ℝ)) h1 h2
  have hready : Ready b dr ↔ Ready b' ((axes φ).drivetrain dr) := by
    constructor <;> rintro ⟨r1, r2, r3⟩
    · exact ⟨by rw [h3, r1]; rfl, by rw [h1, h2]; exact r2, by rw [h2]; exact r3⟩
    · refine ⟨?_, by rw [← h1, ← h2]; exact r2, by rw [← h2]; exact r3⟩
      rw [h3] at r1
      exact Option.map_injective hinj r1
  have hmods : ∀ P : ℝ → ℝ → Prop,
      (∀ m ∈ ((axes φ).drivetrain dr).modules, P m.wheelRadius m.wheelMaxAngularVelocity) ↔
      ∀ m ∈ dr.modules, P m.wheelRadius m.wheelMaxAngularVelocity := by
    intro P
    simp only [Change.drivetrain, List.forall_mem_map]
    rfl
  have hradius := hmods fun r _ => r ≠ 0
  have key : Obeys (table b') ((axes φ).drivetrain dr) (T.onAxes φ) ↔ Obeys (table b) dr T := by
    refine obeys_change (axes φ) h2 h4 h5 rfl (fun c hcm n => meaning_axes φ c ?_ _)
      (fun d n k => interval_axes φ d _ _) (fun n => dynamics_axes φ dr _ _) fun s hs => ?_
    · rcases hcm with ⟨w, hw, hcw⟩ | ⟨s, hs, hcs⟩
      · exact hi w hw c hcw
      · exact hc s hs c hcs
    · rw [← hcap s hs]
      exact hmods fun r w => ∀ g, Gap ((axes φ).drivetrain dr) g → T.dt s * r * w ≤ g
  constructor
  · intro h
    exact (solves_iff hreach' (hready.mp h.ready) (hradius.mpr h.radius)).mpr (key.mpr h.obeys)
  · intro h
    exact (solves_iff hreach (hready.mpr h.ready) (hradius.mp h.radius)).mpr (key.mp h.obeys)

theorem axes_zip (φ : ℝ) (dr : SwerveDrivetrain ℝ) :
    ((axes φ).drivetrain dr).modules.zip ((axes φ).drivetrain dr).modules.tail =
      (dr.modules.zip dr.modules.tail).map (Prod.map (axes φ).wheel (axes φ).wheel) := by
  simp only [Change.drivetrain]
  rw [← List.map_tail, List.zip_map]

/-- Quarter turns keep or exchange the two coordinates. -/
theorem axes_gap (φ : ℝ) (hφ : Real.cos φ = 0 ∨ Real.sin φ = 0) (dr : SwerveDrivetrain ℝ) (g : ℝ) :
    Gap ((axes φ).drivetrain dr) g ↔ Gap dr g := by
  have hpair : ∀ a b : Translation2 ℝ,
      (g = |((axes φ).robot a).x - ((axes φ).robot b).x| ∨ g = |((axes φ).robot a).y - ((axes φ).robot b).y|) ↔
      (g = |a.x - b.x| ∨ g = |a.y - b.y|) := by
    intro a b
    have hsq := Real.sin_sq_add_cos_sq φ
    simp only [axes]
    rcases hφ with h | h
    · rw [h] at hsq ⊢
      have hs : |Real.sin φ| = 1 := by
        rw [← sq_eq_sq₀ (abs_nonneg _) zero_le_one, sq_abs]; linarith
      have e1 : |0 * a.x + Real.sin φ * a.y - (0 * b.x + Real.sin φ * b.y)| = |a.y - b.y| := by
        rw [show 0 * a.x + Real.sin φ * a.y - (0 * b.x + Real.sin φ * b.y) = Real.sin φ * (a.y - b.y) by ring,
          abs_mul, hs, one_mul]
      have e2 : |0 * a.y - Real.sin φ * a.x - (0 * b.y - Real.sin φ * b.x)| = |a.x - b.x| := by
        rw [show 0 * a.y - Real.sin φ * a.x - (0 * b.y - Real.sin φ * b.x) = -(Real.sin φ * (a.x - b.x)) by ring,
          abs_neg, abs_mul, hs, one_mul]
      rw [e1, e2, or_comm]
    · rw [h] at hsq ⊢
      have hs : |Real.cos φ| = 1 := by
        rw [← sq_eq_sq₀ (abs_nonneg _) zero_le_one, sq_abs]; linarith
      have e1 : |Real.cos φ * a.x + 0 * a.y - (Real.cos φ * b.x + 0 * b.y)| = |a.x - b.x| := by
        rw [show Real.cos φ * a.x + 0 * a.y - (Real.cos φ * b.x + 0 * b.y) = Real.cos φ * (a.x - b.x) by ring,
          abs_mul, hs, one_mul]
      have e2 : |Real.cos φ * a.y - 0 * a.x - (Real.cos φ * b.y - 0 * b.x)| = |a.y - b.y| := by
        rw [show Real.cos φ * a.y - 0 * a.x - (Real.cos φ * b.y - 0 * b.x) = Real.cos φ * (a.y - b.y) by ring,
          abs_mul, hs, one_mul]
      rw [e1, e2]
  unfold Gap
  refine and_congr_right fun _ => ?_
  rw [axes_zip]
  constructor
  · rintro ⟨a, b, hab, h⟩
    obtain ⟨⟨a, b⟩, h', e⟩ := List.mem_map.mp hab
    obtain ⟨rfl, rfl⟩ := Prod.mk.inj e
    exact ⟨a, b, h', (hpair _ _).mp h⟩
  · rintro ⟨a, b, hab, h⟩
    exact ⟨_, _, List.mem_map.mpr ⟨(a, b), hab, rfl⟩, (hpair _ _).mpr h⟩

/-- C91, what holds: axes turned by a multiple of 90° give the same feasible trajectories. -/
theorem C91_quarter_partial (k : ℤ) (asserts : Bool) (ops : List (Op ℝ)) (dr : SwerveDrivetrain ℝ) (T : Traj)
    (hi : ∀ w ≤ (table (run asserts ops Builder.new)).counts.length,
      ∀ c ∈ (table (run asserts ops Builder.new)).instant w, NoFront c)
    (hc : ∀ s < (table (run asserts ops Builder.new)).counts.length,
      ∀ c ∈ (table (run asserts ops Builder.new)).continuous s, NoFront c) :
    Solves (run asserts ops Builder.new) dr T ↔
      Solves (run asserts (ops.map (axes (k * (Real.pi / 2))).op) Builder.new)
        ((axes (k * (Real.pi / 2))).drivetrain dr) (T.onAxes (k * (Real.pi / 2))) := by
  have hφ : Real.cos (k * (Real.pi / 2)) = 0 ∨ Real.sin (k * (Real.pi / 2)) = 0 := by
    have h : Real.sin (2 * (k * (Real.pi / 2))) = 0 := by
      rw [show 2 * ((k : ℝ) * (Real.pi / 2)) = k * Real.pi by ring]
      exact Real.sin_int_mul_pi k
    rw [Real.sin_two_mul] at h
    rcases mul_eq_zero.mp h with h | h
    · exact .inr (by linarith)
    · exact .inl h
  exact C91_axes_partial _ asserts ops dr T hi hc fun s _ => by simp only [axes_gap _ hφ]

theorem axes_straight (φ : ℝ) (dr : SwerveDrivetrain ℝ) (N : ℕ) (x₀ y₀ x₁ y₁ θ : ℝ) :
    (straightOps dr N x₀ y₀ x₁ y₁ θ).map (axes φ).op =
      straightOps ((axes φ).drivetrain dr) N x₀ y₀ x₁ y₁ (θ + φ) := rfl

/-- C91 is false as stated: a square robot drives 5 m straight in three control intervals, but not if its axes are
turned by 45°.  (The cap on the time step is taken from the coordinates of the modules.) -/
theorem C91_refuted : ∃ (dr : SwerveDrivetrain ℝ) (ops : List (Op ℝ)),
    (∀ w ≤ (table (run true ops Builder.new)).counts.length,
      ∀ c ∈ (table (run true ops Builder.new)).instant w, NoFront c) ∧
    (∀ s < (table (run true ops Builder.new)).counts.length,
      ∀ c ∈ (table (run true ops Builder.new)).continuous s, NoFront c) ∧
    (∃ T, Solves (run true ops Builder.new) dr T) ∧
    ¬ ∃ T, Solves (run true (ops.map (axes (Real.pi / 4)).op) Builder.new)
      ((axes (Real.pi / 4)).drivetrain dr) T := by
  have h5 : √(((5 : ℝ) - 0) ^ 2 + (0 - 0) ^ 2) = 5 := by
    rw [show ((5 : ℝ) - 0) ^ 2 + (0 - 0) ^ 2 = 5 ^ 2 by norm_num, Real.sqrt_sq (by norm_num)]
  obtain ⟨-, hN, -, hi0, hi1, hco⟩ := straight_table demoRobot 3 0 0 5 0 0
  refine ⟨demoRobot, straightOps demoRobot 3 0 0 5 0 0, ?_, ?_, ?_, ?_⟩
  · intro w hw c hc
    rw [hN] at hw
    have : w = 0 ∨ w = 1 := by simp only [List.length_singleton] at hw; omega
    rcases this with rfl | rfl
    · rw [hi0, List.mem_singleton] at hc; subst hc; trivial
    · rw [hi1, List.mem_singleton] at hc; subst hc; trivial
  · intro s hs c hc
    rw [hN] at hs
    have : s = 0 := by simpa using hs
    subst this
    rw [hco] at hc
    simp at hc
  · rw [C67_reach demoRobot demo_uniform.centred demo_radius 2 (by norm_num) demo_uniform.speed 3 (by norm_num)
      (by norm_num), h5]
    intro g hg
    rw [demo_gap g hg]
    norm_num
  · rw [axes_straight, C67_reach _ ?_ ?_ 2 (by norm_num) ?_ 3 (by norm_num) (by norm_num), h5]
    · intro h
      have := h √2 ⟨by positivity, _, _, by
        rw [axes_zip]
        exact List.mem_map.mpr ⟨(⟨⟨1, 1⟩, 1, 2, 2⟩, ⟨⟨1, -1⟩, 1, 2, 2⟩), by simp [demoRobot], rfl⟩, .inl ?_⟩
      · have h2 : √2 * √2 = (2 : ℝ) := Real.mul_self_sqrt (by norm_num)
        norm_num at this
        nlinarith [Real.sqrt_nonneg 2]
      · simp only [Change.wheel, axes, Real.cos_pi_div_four, Real.sin_pi_div_four]
        rw [show √2 / 2 * 1 + √2 / 2 * 1 - (√2 / 2 * 1 + √2 / 2 * -1) = √2 by ring, abs_of_nonneg (Real.sqrt_nonneg 2)]
    · simp [Centred, demoRobot, Change.drivetrain, Change.wheel, vec_axes]
      simp only [vec, Complex.ext_iff]
      constructor <;> simp <;> ring
    · intro m hm
      obtain ⟨m, hm', rfl⟩ := List.mem_map.mp hm
      exact demo_radius m hm'
    · intro m hm
      obtain ⟨m, hm', rfl⟩ := List.mem_map.mp hm
      exact demo_uniform.speed m hm'

/-- C91 applies to the demonstration path: with the robot's left side called its front. -/
example : ∃ T, Solves (run true (demoOps.map (axes (Real.pi / 2)).op) Builder.new)
    ((axes (Real.pi / 2)).drivetrain demoRobot) T ∧ (T.state 0).heading = Complex.I := by
  obtain ⟨h1, h2, h3, h4, h5, h6, -⟩ := demo_table
  have h := (C91_quarter_partial 1 true demoOps demoRobot _ ?_ ?_).mp (demo_solves_flip 1 (.inl rfl))
  · rw [Int.cast_one, one_mul] at h
    refine ⟨_, h, ?_⟩
    simp [Traj.onAxes, State.onAxes, driveTraj, unitVec_mk]
    apply Complex.ext <;> simp
  · intro w hw c hc
    change w ≤ (table demoBuilder).counts.length at hw
    rw [h2] at hw
    have : w = 0 ∨ w = 1 := by simp only [List.length_singleton] at hw; omega
    rcases this with rfl | rfl
    · rw [show (table (run true demoOps Builder.new)).instant 0 = _ from h4] at hc
      simp only [List.mem_cons, List.not_mem_nil, or_false] at hc
      rcases hc with rfl | rfl <;> trivial
    · rw [show (table (run true demoOps Builder.new)).instant 1 = _ from h5] at hc
      simp only [List.mem_cons, List.not_mem_nil, or_false] at hc
      rcases hc with rfl | rfl <;> trivial
  · intro s hs c hc
    change s < (table demoBuilder).counts.length at hs
    rw [h2] at hs
    have : s = 0 := by simpa using hs
    subst this
    rw [show (table (run true demoOps Builder.new)).continuous 0 = _ from h6] at hc
    simp only [List.mem_cons, List.not_mem_nil, or_false] at hc
    subst hc
    trivial

end Props

end Trajopt
