import Verif.Lemmas.Frame

/-!
# Constraints and dynamics in other units
-/

set_option autoImplicit false

namespace Trajopt

open Spec

variable {l t m : ℝ}

theorem vec_units (r : Translation2 ℝ) : vec ⟨l * r.x, l * r.y⟩ = l * vec r := by
  apply Complex.ext <;> simp [vec]

theorem onRobot_units (s : State) (r : Translation2 ℝ) :
    (s.inUnits l t).onRobot ⟨l * r.x, l * r.y⟩ = l * s.onRobot r := by
  simp only [State.onRobot, State.inUnits, vec_units]
  ring

theorem norm_scale {k : ℝ} (hk : 0 < k) (z : ℂ) : ‖(k : ℂ) * z‖ = k * ‖z‖ := by
  rw [norm_mul, Complex.norm_real, Real.norm_eq_abs, abs_of_pos hk]

theorem dist_scale {k : ℝ} (hk : 0 < k) (z w : ℂ) : dist ((k : ℂ) * z) (k * w) = k * dist z w := by
  rw [dist_eq_norm, dist_eq_norm, ← mul_sub, norm_scale hk]

theorem le_abs_scale {k : ℝ} (hk : 0 < k) (x y : ℝ) : k * x ≤ |k * y| ↔ x ≤ |y| := by
  rw [abs_mul, abs_of_pos hk, mul_le_mul_iff_right₀ hk]

theorem abs_le_scale {k : ℝ} (hk : 0 < k) (x y : ℝ) : |k * x| ≤ k * y ↔ |x| ≤ y := by
  rw [abs_mul, abs_of_pos hk, mul_le_mul_iff_right₀ hk]

theorem abs_scale_le {k : ℝ} (hk : 0 < k) (x y : ℝ) : |k * x| ≤ k * y ↔ |x| ≤ y :=
  abs_le_scale hk x y

theorem scale_inj {k : ℝ} (hk : 0 < k) {z w : ℂ} : (k : ℂ) * z = k * w ↔ z = w :=
  mul_right_inj' (by exact_mod_cast hk.ne')

theorem meaning_units (hl : 0 < l) (ht : 0 < t) (c : Constraint ℝ) (hc : NoLine c) (s : State) :
    Meaning ((units l t m).con c) (s.inUnits l t) ↔ Meaning c s := by
  have hv : 0 < l / t := by positivity
  have ha : 0 < l / t ^ 2 := by positivity
  have ht' : 0 < t⁻¹ := by positivity
  cases c with
  | angularVelocityMaxMagnitude m => exact abs_le_scale ht' _ _
  | linearAccelerationMaxMagnitude m =>
    simp only [Meaning, Change.con, units, State.inUnits]
    rw [norm_scale ha, le_abs_scale ha]
  | linearVelocityMaxMagnitude m =>
    simp only [Meaning, Change.con, units, State.inUnits]
    rw [norm_scale hv, le_abs_scale hv]
  | linearVelocityDirection a =>
    simp only [Meaning, Change.con, units, State.inUnits]
    have hne : ((l / t : ℝ) : ℂ) ≠ 0 := by exact_mod_cast hv.ne'
    constructor
    · rintro ⟨k, hk⟩
      refine ⟨(l / t)⁻¹ * k, ?_⟩
      rw [Complex.ofReal_mul, mul_assoc, ← hk, Complex.ofReal_inv, inv_mul_cancel_left₀ hne]
    · rintro ⟨k, hk⟩
      refine ⟨l / t * k, ?_⟩
      rw [hk]
      push_cast
      ring
  | pointAt p tol =>
    simp only [Meaning, Change.con, units, State.inUnits, vec_units]
    rw [dist_scale hl, ← mul_sub, mul_assoc, Complex.re_ofReal_mul, mul_left_comm,
      mul_le_mul_iff_right₀ hl]
  | linePoint a b p d =>
    obtain rfl : d = 0 := hc
    simp only [Meaning, Change.con, units, onRobot_units, ne_eq, scale_inj hl, mul_zero, abs_zero]
    refine and_congr_right fun _ => ⟨fun _ q _ => by positivity, fun _ q _ => by positivity⟩
  | pointLine r a b d =>
    obtain rfl : d = 0 := hc
    simp only [Meaning, Change.con, units, vec_units, ne_eq, scale_inj hl, mul_zero, abs_zero]
    refine and_congr_right fun _ => ⟨fun _ q _ => by positivity, fun _ q _ => by positivity⟩
  | pointPoint r p d =>
    simp only [Meaning, Change.con, units, onRobot_units, vec_units]
    rw [dist_scale hl, abs_mul, abs_of_pos hl, mul_le_mul_iff_right₀ hl]
  | poseEquality x y a =>
    simp only [Meaning, Change.con, units, State.inUnits]
    rw [vec_units ⟨x, y⟩, scale_inj hl]
  | translationEquality p =>
    simp only [Meaning, Change.con, units, State.inUnits, vec_units]
    rw [scale_inj hl]

theorem interval_units (hl : 0 < l) (ht : 0 < t) (d : ℝ) (a b : State) :
    Interval (t * d) (a.inUnits l t) (b.inUnits l t) ↔ Interval d a b := by
  have hl' : (l : ℂ) ≠ 0 := by exact_mod_cast hl.ne'
  have ht' : (t : ℂ) ≠ 0 := by exact_mod_cast ht.ne'
  have hw : t⁻¹ * b.omega * (t * d) = b.omega * d := by field_simp
  have hp : (l : ℂ) * b.pos = l * a.pos + (t * d : ℝ) * ((l / t : ℝ) * b.vel) ↔
      b.pos = a.pos + d * b.vel := by
    rw [← scale_inj hl (z := b.pos)]
    push_cast
    constructor <;> intro h <;> rw [h] <;> field_simp
  have hv : ((l / t : ℝ) : ℂ) * b.vel = (l / t : ℝ) * a.vel + (t * d : ℝ) * ((l / t ^ 2 : ℝ) * b.acc) ↔
      b.vel = a.vel + d * b.acc := by
    rw [← scale_inj (show 0 < l / t by positivity) (z := b.vel)]
    push_cast
    constructor <;> intro h <;> rw [h] <;> field_simp
  have ho : t⁻¹ * b.omega = t⁻¹ * a.omega + t * d * ((t ^ 2)⁻¹ * b.alpha) ↔
      b.omega = a.omega + d * b.alpha := by
    rw [← mul_right_inj' (inv_ne_zero ht.ne') (b := b.omega)]
    constructor <;> intro h <;> rw [h] <;> field_simp
  constructor
  · rintro ⟨h1, h2, h3, h4⟩
    simp only [State.inUnits] at h1 h2 h3 h4
    rw [hw] at h2
    exact ⟨hp.mp h1, h2, hv.mp h3, ho.mp h4⟩
  · rintro ⟨h1, h2, h3, h4⟩
    refine ⟨hp.mpr h1, ?_, hv.mpr h3, ho.mpr h4⟩
    simp only [State.inUnits]
    rw [hw]
    exact h2

theorem dynamics_units (hl : 0 < l) (ht : 0 < t) (hm : 0 < m) (dr : SwerveDrivetrain ℝ) (s : State)
    (F : ℕ → ℂ) :
    Dynamics ((units l t m).drivetrain dr) (s.inUnits l t) (fun j => (m * l / t ^ 2 : ℝ) * F j) ↔
      Dynamics dr s F := by
  set R := units l t m with hR
  have hk : 0 < m * l / t ^ 2 := by positivity
  have hk2 : 0 < m * l ^ 2 / t ^ 2 := by positivity
  have hlen : (R.drivetrain dr).modules.length = dr.modules.length := by
    simp [Change.drivetrain]
  let e : Fin (R.drivetrain dr).modules.length ≃ Fin dr.modules.length := finCongr hlen
  have hmod : ∀ j, (R.drivetrain dr).modules[j] = R.wheel dr.modules[e j] := by
    intro j
    exact List.getElem_map _
  have hforce : ∑ j : Fin (R.drivetrain dr).modules.length, ((m * l / t ^ 2 : ℝ) : ℂ) * F j =
      (m * l / t ^ 2 : ℝ) * ∑ j : Fin dr.modules.length, F j := by
    rw [Finset.mul_sum]
    exact e.sum_comp fun j => ((m * l / t ^ 2 : ℝ) : ℂ) * F j
  have htorque : ∑ j : Fin (R.drivetrain dr).modules.length,
      torque (lever (s.inUnits l t) (R.drivetrain dr).modules[j]) ((m * l / t ^ 2 : ℝ) * F j) =
      m * l ^ 2 / t ^ 2 * ∑ j : Fin dr.modules.length, torque (lever s dr.modules[j]) (F j) := by
    rw [Finset.mul_sum, ← e.sum_comp]
    refine Finset.sum_congr rfl fun j _ => ?_
    rw [hmod]
    simp only [torque, lever, State.inUnits, Change.wheel, hR, units, vec_units]
    rw [← Complex.im_ofReal_mul]
    congr 1
    simp only [map_mul, Complex.conj_ofReal]
    push_cast
    change _ * ((m * l / t ^ 2 : ℂ) * F j) = _ * (_ * F j)
    ring
  have hspeed : ∀ w : SwerveModule ℝ, ‖wheelVelocity (s.inUnits l t) (R.wheel w)‖ ≤
      maxSpeed (R.wheel w) ↔ ‖wheelVelocity s w‖ ≤ maxSpeed w := by
    intro w
    have h1 : wheelVelocity (s.inUnits l t) (R.wheel w) = (l / t : ℝ) * wheelVelocity s w := by
      simp only [wheelVelocity, State.inUnits, Change.wheel, hR, units, vec_units]
      push_cast
      ring
    have h2 : maxSpeed (R.wheel w) = l / t * maxSpeed w := by
      simp only [maxSpeed, Change.wheel, hR, units]
      rw [show l * w.wheelRadius * (t⁻¹ * w.wheelMaxAngularVelocity) =
        l / t * (w.wheelRadius * w.wheelMaxAngularVelocity) by ring, abs_mul,
        abs_of_pos (show 0 < l / t by positivity)]
    rw [h1, h2, norm_scale (by positivity), mul_le_mul_iff_right₀ (by positivity)]
  have hlimit : (∀ j : Fin (R.drivetrain dr).modules.length,
      ‖((m * l / t ^ 2 : ℝ) : ℂ) * F j‖ ≤ maxForce (R.drivetrain dr).modules[j]) ↔
      ∀ j : Fin dr.modules.length, ‖F j‖ ≤ maxForce dr.modules[j] := by
    refine e.forall_congr fun j => ?_
    have h2 : maxForce (R.wheel dr.modules[e j]) = m * l / t ^ 2 * maxForce dr.modules[e j] := by
      simp only [maxForce, Change.wheel, hR, units]
      rw [show m * l ^ 2 / t ^ 2 * dr.modules[e j].wheelMaxTorque / (l * dr.modules[e j].wheelRadius) =
        m * l / t ^ 2 * (dr.modules[e j].wheelMaxTorque / dr.modules[e j].wheelRadius) by field_simp,
        abs_mul, abs_of_pos hk]
    rw [hmod, h2, norm_scale hk, mul_le_mul_iff_right₀ hk]
    rfl
  have h1 : ((m * l / t ^ 2 : ℝ) : ℂ) * ∑ j : Fin dr.modules.length, F j =
      ((R.drivetrain dr).mass : ℂ) * (s.inUnits l t).acc ↔
      ∑ j : Fin dr.modules.length, F j = dr.mass * s.acc := by
    rw [← scale_inj hk (w := dr.mass * s.acc)]
    simp only [Change.drivetrain, hR, units, State.inUnits]
    push_cast
    rw [show (m * dr.mass : ℂ) * (l / t ^ 2 * s.acc) = m * l / t ^ 2 * (dr.mass * s.acc) by ring]
  have h2 : m * l ^ 2 / t ^ 2 * ∑ j : Fin dr.modules.length, torque (lever s dr.modules[j]) (F j) =
      (R.drivetrain dr).moi * (s.inUnits l t).alpha ↔
      ∑ j : Fin dr.modules.length, torque (lever s dr.modules[j]) (F j) = dr.moi * s.alpha := by
    rw [← mul_right_inj' hk2.ne' (c := dr.moi * s.alpha)]
    simp only [Change.drivetrain, hR, units, State.inUnits]
    rw [show m * l ^ 2 * dr.moi * ((t ^ 2)⁻¹ * s.alpha) = m * l ^ 2 / t ^ 2 * (dr.moi * s.alpha) by ring]
  have hmem : (∀ w ∈ (R.drivetrain dr).modules, ‖wheelVelocity (s.inUnits l t) w‖ ≤ maxSpeed w) ↔
      ∀ w ∈ dr.modules, ‖wheelVelocity s w‖ ≤ maxSpeed w := by
    simp only [Change.drivetrain, List.forall_mem_map, hspeed]
  constructor
  · rintro ⟨f, q, v, b⟩
    rw [hforce] at f
    rw [htorque] at q
    exact ⟨h1.mp f, h2.mp q, hmem.mp v, hlimit.mp b⟩
  · rintro ⟨f, q, v, b⟩
    refine ⟨?_, ?_, hmem.mpr v, hlimit.mpr b⟩
    · rw [hforce]; exact h1.mpr f
    · rw [htorque]; exact h2.mpr q

end Trajopt
