import Verif.Spec.Frame
import Verif.Lemmas.Semantics

/-!
# Constraints and dynamics under a motion or a reflection
-/

set_option autoImplicit false

namespace Trajopt

open Spec

theorem segment_image {f : ℂ → ℂ}
    (hf : ∀ (x y : ℂ) (a b : ℝ), a + b = 1 → f (a • x + b • y) = a • f x + b • f y) (x y : ℂ) :
    segment ℝ (f x) (f y) = f '' segment ℝ x y := by
  ext q
  constructor
  · rintro ⟨a, b, ha, hb, hab, rfl⟩
    exact ⟨_, ⟨a, b, ha, hb, hab, rfl⟩, hf x y a b hab⟩
  · rintro ⟨_, ⟨a, b, ha, hb, hab, rfl⟩, rfl⟩
    exact ⟨a, b, ha, hb, hab, (hf x y a b hab).symm⟩

/-- A change of path data that acts on the plane as an isometry `f` with linear part `g`. -/
structure Isometric (R : Change ℝ) (f g : ℂ → ℂ) : Prop where
  linear : ∀ (x y : ℂ) (a b : ℝ), g (a • x + b • y) = a • g x + b • g y
  diff : ∀ x y, f x - f y = g (x - y)
  norm : ∀ z, ‖g z‖ = ‖z‖
  inner : ∀ z w, (g z * (starRingEnd ℂ) (g w)).re = (z * (starRingEnd ℂ) w).re
  dir : ∀ a, unitVec (R.dir a) = g (unitVec a)
  course : R.course = R.dir
  field : ∀ p, vec (R.field p) = f (vec p)
  limits : ∀ d, R.dist d = d ∧ R.speed d = d ∧ R.accel d = d ∧ R.spin d = d

variable {R : Change ℝ} {f g : ℂ → ℂ}

theorem Isometric.smul (h : Isometric R f g) (a : ℝ) (x : ℂ) : g (a * x) = a * g x := by
  have := h.linear x 0 a 0
  simpa using this

theorem Isometric.neg (h : Isometric R f g) (x : ℂ) : g (-x) = -g x := by
  have := h.smul (-1) x
  simpa using this

theorem Isometric.inj (h : Isometric R f g) {x y : ℂ} : g x = g y ↔ x = y := by
  refine ⟨fun e => ?_, fun e => by rw [e]⟩
  have h1 := h.linear x y 1 (-1)
  rw [e] at h1
  have h2 := h.norm (x - y)
  rw [show x - y = (1 : ℝ) • x + (-1 : ℝ) • y by simp [sub_eq_add_neg], h1] at h2
  simp only [one_smul, neg_smul, add_neg_cancel, norm_zero] at h2
  have := norm_eq_zero.mp h2.symm
  exact sub_eq_zero.mp (by rw [← this]; ring)

theorem Isometric.dist (h : Isometric R f g) (x y : ℂ) : dist (f x) (f y) = dist x y := by
  rw [dist_eq_norm, dist_eq_norm, h.diff, h.norm]

theorem Isometric.finj (h : Isometric R f g) {x y : ℂ} : f x = f y ↔ x = y := by
  rw [← dist_eq_zero, h.dist, dist_eq_zero]

theorem Isometric.affine (h : Isometric R f g) (x y : ℂ) (a b : ℝ) (hab : a + b = 1) :
    f (a • x + b • y) = a • f x + b • f y := by
  have h1 := h.diff (a • x + b • y) 0
  have h2 := h.diff x 0
  have h3 := h.diff y 0
  rw [sub_zero] at h1 h2 h3
  rw [h.linear] at h1
  have e1 : f (a • x + b • y) = a • g x + b • g y + f 0 := by rw [← h1]; ring
  have e2 : f x = g x + f 0 := by rw [← h2]; ring
  have e3 : f y = g y + f 0 := by rw [← h3]; ring
  rw [e1, e2, e3]
  have hb : b = 1 - a := by linarith
  rw [hb]
  simp only [smul_add, sub_smul, one_smul]
  ring

/-- Constraints mean the same after the change. -/
theorem meaning_change (h : Isometric R f g) (c : Constraint ℝ) {s s' : State}
    (hpos : s'.pos = f s.pos) (hheading : s'.heading = g s.heading) (hvel : s'.vel = g s.vel)
    (hacc : s'.acc = g s.acc) (homega : |s'.omega| = |s.omega|)
    (hrobot : ∀ r, s'.onRobot (R.robot r) = f (s.onRobot r)) :
    Meaning (R.con c) s' ↔ Meaning c s := by
  have h1 := fun d => (h.limits d).1
  have h2 := fun d => (h.limits d).2.1
  have h3 := fun d => (h.limits d).2.2.1
  have h4 := fun d => (h.limits d).2.2.2
  cases c with
  | angularVelocityMaxMagnitude m => simp [Meaning, Change.con, homega, h4]
  | linearAccelerationMaxMagnitude m => simp [Meaning, Change.con, hacc, h.norm, h3]
  | linearVelocityMaxMagnitude m => simp [Meaning, Change.con, hvel, h.norm, h2]
  | linearVelocityDirection a => simp only [Meaning, Change.con, hvel, h.course, h.dir, ← h.smul, h.inj]
  | pointAt p tol =>
    simp only [Meaning, Change.con, hpos, hheading, h.field, h.dist, h.diff, h.inner]
  | linePoint a b p d =>
    simp only [Meaning, Change.con, hrobot, h.field, segment_image h.affine, Set.forall_mem_image,
      h.dist, ne_eq, h.finj, h1]
  | pointLine r a b d =>
    simp only [Meaning, Change.con, hrobot, h.field, segment_image h.affine, Set.forall_mem_image,
      h.dist, ne_eq, h.finj, h1]
  | pointPoint r p d => simp only [Meaning, Change.con, hrobot, h.field, h.dist, h1]
  | poseEquality x y a =>
    simp only [Meaning, Change.con, hpos, hheading, h.dir, ← h.neg, h.inj]
    rw [show vec ⟨(R.field ⟨x, y⟩).x, (R.field ⟨x, y⟩).y⟩ = f (vec ⟨x, y⟩) from h.field ⟨x, y⟩,
      h.finj]
  | translationEquality t => simp only [Meaning, Change.con, hpos, h.field, h.finj]

theorem unit_mul_conj (φ : ℝ) : unitVec φ * (starRingEnd ℂ) (unitVec φ) = 1 := by
  rw [Complex.mul_conj, Complex.normSq_eq_norm_sq, unitVec, Complex.norm_exp_ofReal_mul_I]
  simp

theorem motion_isometric (φ a b : ℝ) :
    Isometric (motion φ a b) (fun z => unitVec φ * z + ⟨a, b⟩) (fun z => unitVec φ * z) where
  linear x y a b := by simp only [Complex.real_smul]; ring
  diff x y := by ring
  norm z := by rw [norm_mul, unitVec, Complex.norm_exp_ofReal_mul_I, one_mul]
  inner z w := by
    congr 1
    rw [map_mul]
    linear_combination z * (starRingEnd ℂ) w * unit_mul_conj φ
  dir x := by
    simp only [motion, unitVec]
    rw [← Complex.exp_add]
    congr 1
    push_cast
    ring
  course := rfl
  field p := by
    simp only [motion, vec, unitVec_mk]
    apply Complex.ext <;> simp [add_comm]
  limits d := ⟨rfl, rfl, rfl, rfl⟩

theorem mirror_isometric : Isometric mirror (starRingEnd ℂ) (starRingEnd ℂ) where
  linear x y a b := by simp only [Complex.real_smul, map_add, map_mul, Complex.conj_ofReal]
  diff x y := by rw [map_sub]
  norm z := Complex.norm_conj z
  inner z w := by rw [← map_mul, Complex.conj_re]
  dir x := by
    simp only [mirror, unitVec_mk]
    apply Complex.ext <;> simp
  course := rfl
  field p := rfl
  limits d := ⟨rfl, rfl, rfl, rfl⟩

theorem mirror_wheel (m : SwerveModule ℝ) :
    mirror.wheel m = { m with translation := mirror.robot m.translation } := rfl

theorem conj_unitVec (x : ℝ) : (starRingEnd ℂ) (unitVec x) = unitVec (-x) :=
  (mirror_isometric.dir x).symm

theorem meaning_moved (φ a b : ℝ) (c : Constraint ℝ) (s : State) :
    Meaning ((motion φ a b).con c) (s.moved φ a b) ↔ Meaning c s :=
  meaning_change (motion_isometric φ a b) c rfl rfl rfl rfl rfl fun r => by
    simp only [State.onRobot, State.moved, motion]; ring

theorem meaning_mirrored (c : Constraint ℝ) (s : State) :
    Meaning (mirror.con c) s.mirrored ↔ Meaning c s :=
  meaning_change mirror_isometric c rfl rfl rfl rfl (abs_neg _) fun r => by
    simp only [State.onRobot, State.mirrored, map_add, map_mul]
    rfl

theorem interval_moved (φ a b : ℝ) (d : ℝ) (s s' : State) :
    Interval d (s.moved φ a b) (s'.moved φ a b) ↔ Interval d s s' := by
  have h0 : unitVec φ ≠ 0 := Complex.exp_ne_zero _
  have ht : unitVec φ * s'.heading * (starRingEnd ℂ) (unitVec φ * s.heading) =
      s'.heading * (starRingEnd ℂ) s.heading := by
    rw [map_mul]
    linear_combination s'.heading * (starRingEnd ℂ) s.heading * unit_mul_conj φ
  have hadd : ∀ x y z : ℂ, unitVec φ * x = unitVec φ * y + d * (unitVec φ * z) ↔ x = y + d * z := by
    intro x y z
    rw [← mul_right_inj' h0 (b := x)]
    constructor <;> intro e
    · rw [e]; ring
    · rw [e]; ring
  constructor
  · rintro ⟨h1, h2, h3, h4⟩
    simp only [State.moved] at h1 h2 h3 h4
    rw [ht] at h2
    exact ⟨(hadd _ _ _).mp (by linear_combination h1), h2, (hadd _ _ _).mp h3, h4⟩
  · rintro ⟨h1, h2, h3, h4⟩
    refine ⟨?_, ?_, (hadd _ _ _).mpr h3, h4⟩
    · simp only [State.moved]
      linear_combination (hadd _ _ _).mpr h1
    · simp only [State.moved]
      rw [ht]
      exact h2

theorem interval_mirrored (d : ℝ) (s s' : State) :
    Interval d s.mirrored s'.mirrored ↔ Interval d s s' := by
  have hinj : Function.Injective (starRingEnd ℂ) := star_injective
  have hadd : ∀ x y z : ℂ, (starRingEnd ℂ) x = (starRingEnd ℂ) y + d * (starRingEnd ℂ) z ↔
      x = y + d * z := by
    intro x y z
    rw [← hinj.eq_iff (a := x)]
    simp
  have ht : ∀ z : ℂ, s'.mirrored.heading * (starRingEnd ℂ) s.mirrored.heading = (starRingEnd ℂ) z ↔
      s'.heading * (starRingEnd ℂ) s.heading = z := by
    intro z
    rw [← hinj.eq_iff (b := z), map_mul]
    rfl
  have hu : unitVec (s'.mirrored.omega * d) = (starRingEnd ℂ) (unitVec (s'.omega * d)) := by
    rw [conj_unitVec]
    simp [State.mirrored]
  have hw : s'.mirrored.omega = s.mirrored.omega + d * s'.mirrored.alpha ↔
      s'.omega = s.omega + d * s'.alpha := by
    simp only [State.mirrored]
    constructor <;> intro e <;> linarith
  constructor
  · rintro ⟨h1, h2, h3, h4⟩
    rw [hu, ht, ← map_neg, ht] at h2
    exact ⟨(hadd _ _ _).mp h1, h2, (hadd _ _ _).mp h3, hw.mp h4⟩
  · rintro ⟨h1, h2, h3, h4⟩
    refine ⟨(hadd _ _ _).mpr h1, ?_, (hadd _ _ _).mpr h3, hw.mpr h4⟩
    rw [hu, ht, ← map_neg, ht]
    exact h2

theorem dynamics_moved (φ a b : ℝ) (dr : SwerveDrivetrain ℝ) (s : State) (F : ℕ → ℂ) :
    Dynamics dr (s.moved φ a b) (fun j => unitVec φ * F j) ↔ Dynamics dr s F := by
  have h0 : unitVec φ ≠ 0 := Complex.exp_ne_zero _
  have hn : ∀ z : ℂ, ‖unitVec φ * z‖ = ‖z‖ := (motion_isometric φ a b).norm
  have htorque : ∀ (m : SwerveModule ℝ) (z : ℂ),
      torque (lever (s.moved φ a b) m) (unitVec φ * z) = torque (lever s m) z := by
    intro m z
    simp only [torque, lever, State.moved, map_mul]
    congr 1
    linear_combination (starRingEnd ℂ) (vec m.translation) * (starRingEnd ℂ) s.heading * z *
      unit_mul_conj φ
  have hspeed : ∀ m, wheelVelocity (s.moved φ a b) m = wheelVelocity s m := by
    intro m
    simp only [wheelVelocity, State.moved, map_mul]
    linear_combination (starRingEnd ℂ) s.heading * s.vel * unit_mul_conj φ
  have hforce : ∑ j : Fin dr.modules.length, unitVec φ * F j =
      dr.mass * (s.moved φ a b).acc ↔ ∑ j : Fin dr.modules.length, F j = dr.mass * s.acc := by
    rw [← Finset.mul_sum]
    simp only [State.moved]
    rw [mul_left_comm, mul_right_inj' h0]
  constructor
  · rintro ⟨h1, h2, h3, h4⟩
    simp only [htorque, hspeed, hn] at h2 h3 h4
    exact ⟨hforce.mp h1, h2, h3, h4⟩
  · rintro ⟨h1, h2, h3, h4⟩
    refine ⟨hforce.mpr h1, ?_, ?_, ?_⟩
    · simp only [htorque]; exact h2
    · simp only [hspeed]; exact h3
    · simp only [hn]; exact h4

theorem dynamics_mirrored (dr : SwerveDrivetrain ℝ) (s : State) (F : ℕ → ℂ) :
    Dynamics (mirror.drivetrain dr) s.mirrored (fun j => (starRingEnd ℂ) (F j)) ↔
      Dynamics dr s F := by
  have hinj : Function.Injective (starRingEnd ℂ) := star_injective
  have hlen : (mirror.drivetrain dr).modules.length = dr.modules.length := by
    simp [Change.drivetrain]
  let e : Fin (mirror.drivetrain dr).modules.length ≃ Fin dr.modules.length := finCongr hlen
  have hmod : ∀ j, (mirror.drivetrain dr).modules[j] =
      { dr.modules[e j] with translation := mirror.robot dr.modules[e j].translation } := by
    intro j
    exact List.getElem_map _
  have hmem : ∀ P : SwerveModule ℝ → Prop, (∀ m ∈ (mirror.drivetrain dr).modules, P m) ↔
      ∀ m ∈ dr.modules, P { m with translation := mirror.robot m.translation } := by
    intro P
    simp only [Change.drivetrain, List.forall_mem_map]
    rfl
  have hforce : ∑ j : Fin (mirror.drivetrain dr).modules.length, (starRingEnd ℂ) (F j) =
      (starRingEnd ℂ) (∑ j : Fin dr.modules.length, F j) := by
    rw [map_sum]
    exact e.sum_comp fun j => (starRingEnd ℂ) (F j)
  have htorque : ∑ j : Fin (mirror.drivetrain dr).modules.length,
      torque (lever s.mirrored (mirror.drivetrain dr).modules[j]) ((starRingEnd ℂ) (F j)) =
      -∑ j : Fin dr.modules.length, torque (lever s dr.modules[j]) (F j) := by
    rw [← Finset.sum_neg_distrib, ← e.sum_comp]
    refine Finset.sum_congr rfl fun j _ => ?_
    rw [hmod]
    simp only [torque, lever, State.mirrored]
    rw [← Complex.conj_im]
    simp only [map_mul]
    rfl
  have hspeed : ∀ m : SwerveModule ℝ, ‖wheelVelocity s.mirrored
      { m with translation := mirror.robot m.translation }‖ = ‖wheelVelocity s m‖ := by
    intro m
    rw [← Complex.norm_conj (wheelVelocity s m)]
    congr 1
    simp only [wheelVelocity, State.mirrored, map_add, map_mul, Complex.conj_I, Complex.conj_ofReal,
      Complex.ofReal_neg, neg_mul, mul_neg]
    rfl
  have h1 : (mirror.drivetrain dr).mass = dr.mass := rfl
  have h2 : (mirror.drivetrain dr).moi = dr.moi := rfl
  have hlimit : (∀ j : Fin (mirror.drivetrain dr).modules.length,
      ‖(starRingEnd ℂ) (F j)‖ ≤ maxForce (mirror.drivetrain dr).modules[j]) ↔
      ∀ j : Fin dr.modules.length, ‖F j‖ ≤ maxForce dr.modules[j] := by
    refine e.forall_congr fun j => ?_
    rw [hmod, Complex.norm_conj]
    rfl
  constructor
  · rintro ⟨f, t, v, l⟩
    refine ⟨hinj ?_, ?_, fun m hm => ?_, hlimit.mp l⟩
    · rw [← hforce, f, map_mul, Complex.conj_ofReal]; rfl
    · rw [htorque] at t
      have : (mirror.drivetrain dr).moi * s.mirrored.alpha = -(dr.moi * s.alpha) := by
        simp only [h2, State.mirrored]; ring
      linarith
    · rw [← hspeed]
      exact (hmem _).mp v m hm
  · rintro ⟨f, t, v, l⟩
    refine ⟨?_, ?_, (hmem _).mpr fun m hm => ?_, hlimit.mpr l⟩
    · rw [hforce, f, map_mul, Complex.conj_ofReal]; rfl
    · rw [htorque, t]
      simp only [h2, State.mirrored]; ring
    · rw [hspeed]
      exact v m hm

/-- Listing the modules in another order. -/
theorem dynamics_permuted (dr dr' : SwerveDrivetrain ℝ) (hmass : dr'.mass = dr.mass)
    (hmoi : dr'.moi = dr.moi) (e : Fin dr'.modules.length ≃ Fin dr.modules.length)
    (hmod : ∀ j, dr'.modules[j] = dr.modules[e j]) (s : State) (F F' : ℕ → ℂ)
    (hF : ∀ j : Fin dr'.modules.length, F' j = F (e j)) : Dynamics dr' s F' ↔ Dynamics dr s F := by
  have hmem : ∀ m, m ∈ dr'.modules ↔ m ∈ dr.modules := by
    intro m
    simp only [List.mem_iff_get]
    constructor
    · rintro ⟨j, rfl⟩
      exact ⟨e j, (hmod j).symm⟩
    · rintro ⟨j, rfl⟩
      obtain ⟨i, rfl⟩ := e.surjective j
      exact ⟨i, hmod i⟩
  have hforce : ∑ j : Fin dr'.modules.length, F' j = ∑ j : Fin dr.modules.length, F j := by
    simp only [hF]
    exact e.sum_comp fun j => F j
  have htorque : ∑ j : Fin dr'.modules.length, torque (lever s dr'.modules[j]) (F' j) =
      ∑ j : Fin dr.modules.length, torque (lever s dr.modules[j]) (F j) := by
    simp only [hF, hmod]
    exact e.sum_comp fun j => torque (lever s dr.modules[j]) (F j)
  have hlimit : (∀ j : Fin dr'.modules.length, ‖F' j‖ ≤ maxForce dr'.modules[j]) ↔
      ∀ j : Fin dr.modules.length, ‖F j‖ ≤ maxForce dr.modules[j] := by
    refine e.forall_congr fun j => ?_
    rw [hmod, hF]
  constructor
  · rintro ⟨f, t, v, l⟩
    exact ⟨by rw [← hforce, f, hmass], by rw [← htorque, t, hmoi],
      fun m hm => v m ((hmem m).mpr hm), hlimit.mp l⟩
  · rintro ⟨f, t, v, l⟩
    exact ⟨by rw [hforce, f, hmass], by rw [htorque, t, hmoi],
      fun m hm => v m ((hmem m).mp hm), hlimit.mpr l⟩

end Trajopt
