import Verif.Lemmas.Units
import Verif.Props.Invariance
import Verif.Props.Split
import Verif.Props.Reach

/-!
# C80 Units
-/

set_option autoImplicit false

namespace Trajopt.Props

open Spec Builder

theorem units_fits {l t m : ℝ} (hl : 0 < l) : Change.Fits (units l t m) where
  add a b := mul_add l a b
  nonneg a := by
    change decide (_ ≤ l * a) = decide (_ ≤ a)
    congr 1
    have : (Num.lit 0 : ℝ) = 0 := by simp [Num.lit]
    rw [this]
    exact propext (mul_nonneg_iff_of_pos_left hl)

theorem units_gap {l t m : ℝ} (hl : 0 < l) (dr : SwerveDrivetrain ℝ) (g : ℝ) :
    Gap ((units l t m).drivetrain dr) (l * g) ↔ Gap dr g := by
  have hz : ((units l t m).drivetrain dr).modules.zip ((units l t m).drivetrain dr).modules.tail =
      (dr.modules.zip dr.modules.tail).map (Prod.map (units l t m).wheel (units l t m).wheel) := by
    simp only [Change.drivetrain]
    rw [← List.map_tail, List.zip_map]
  have habs : ∀ x y : ℝ, l * g = |l * x - l * y| ↔ g = |x - y| := by
    intro x y
    rw [← mul_sub, abs_mul, abs_of_pos hl, mul_right_inj' hl.ne']
  unfold Gap
  refine and_congr (by simp [hl.ne']) ?_
  rw [hz]
  constructor
  · rintro ⟨a, b, hab, h⟩
    obtain ⟨⟨a, b⟩, h', e⟩ := List.mem_map.mp hab
    obtain ⟨rfl, rfl⟩ := Prod.mk.inj e
    refine ⟨a, b, h', ?_⟩
    simp only [Change.wheel, units, habs] at h
    exact h
  · rintro ⟨a, b, hab, h⟩
    refine ⟨_, _, List.mem_map.mpr ⟨(a, b), hab, rfl⟩, ?_⟩
    simp only [Change.wheel, units, habs]
    exact h

theorem units_cap {l t m : ℝ} (hl : 0 < l) (ht : 0 < t) (dr : SwerveDrivetrain ℝ) (d : ℝ) :
    (∀ w ∈ ((units l t m).drivetrain dr).modules, ∀ g, Gap ((units l t m).drivetrain dr) g →
        t * d * w.wheelRadius * w.wheelMaxAngularVelocity ≤ g) ↔
      ∀ w ∈ dr.modules, ∀ g, Gap dr g → d * w.wheelRadius * w.wheelMaxAngularVelocity ≤ g := by
  simp only [show ((units l t m).drivetrain dr).modules = dr.modules.map (units l t m).wheel from rfl,
    List.forall_mem_map]
  refine forall₂_congr fun w _ => ?_
  have hw : t * d * ((units l t m).wheel w).wheelRadius *
      ((units l t m).wheel w).wheelMaxAngularVelocity =
      l * (d * w.wheelRadius * w.wheelMaxAngularVelocity) := by
    simp only [Change.wheel, units]
    field_simp
  rw [hw]
  constructor
  · intro h g hg
    exact le_of_mul_le_mul_left (h (l * g) ((units_gap hl dr g).mpr hg)) hl
  · intro h g hg
    have e : l * (l⁻¹ * g) = g := by field_simp
    rw [← e] at hg ⊢
    exact mul_le_mul_of_nonneg_left (h _ ((units_gap hl dr _).mp hg)) hl.le

/-- C80, what holds: measure lengths, times and masses of a path and its robot in other units, in all
calls of its history.  If the path keeps no distance from lines, then its feasible trajectories are the same ones,
measured in those units. -/
theorem C80_units_partial (l t m : ℝ) (hl : 0 < l) (ht : 0 < t) (hm : 0 < m) (asserts : Bool)
    (ops : List (Op ℝ)) (dr : SwerveDrivetrain ℝ) (T : Traj)
    (hi : ∀ w ≤ (table (run asserts ops Builder.new)).counts.length,
      ∀ c ∈ (table (run asserts ops Builder.new)).instant w, NoLine c)
    (hc : ∀ s < (table (run asserts ops Builder.new)).counts.length,
      ∀ c ∈ (table (run asserts ops Builder.new)).continuous s, NoLine c) :
    Solves (run asserts ops Builder.new) dr T ↔
      Solves (run asserts (ops.map (units l t m).op) Builder.new) ((units l t m).drivetrain dr)
        (T.inUnits l t m) := by
  obtain ⟨h1, h2, h3, h4, h5⟩ := (rel_new (R := units l t m) (units_fits hl) asserts ops).table
  generalize hb : run asserts ops Builder.new = b at h1 h2 h3 h4 h5 hi hc
  generalize hb' : run asserts (ops.map (units l t m).op) Builder.new = b' at h1 h2 h3 h4 h5
  have hreach : Reachable b := ⟨asserts, ops, hb.symm⟩
  have hreach' : Reachable b' := ⟨asserts, _, hb'.symm⟩
  have hwheel : Function.Injective (units l t m).wheel := by
    rintro ⟨⟨x, y⟩, r, w, q⟩ ⟨⟨x', y'⟩, r', w', q'⟩ h
    simp only [Change.wheel, units, SwerveModule.mk.injEq, Translation2.mk.injEq] at h
    simp only [SwerveModule.mk.injEq, Translation2.mk.injEq]
    obtain ⟨⟨h1, h2⟩, h3, h4, h5⟩ := h
    exact ⟨⟨mul_left_cancel₀ hl.ne' h1, mul_left_cancel₀ hl.ne' h2⟩, mul_left_cancel₀ hl.ne' h3,
      mul_left_cancel₀ (inv_ne_zero ht.ne') h4,
      mul_left_cancel₀ (show m * l ^ 2 / t ^ 2 ≠ 0 by positivity) h5⟩
  have hinj : Function.Injective (units l t m).drivetrain := by
    rintro ⟨M, J, ms⟩ ⟨M', J', ms'⟩ h
    simp only [Change.drivetrain, SwerveDrivetrain.mk.injEq] at h
    obtain ⟨h1, h2, h3⟩ := h
    rw [mul_left_cancel₀ hm.ne' h1, mul_left_cancel₀ (show m * l ^ 2 ≠ 0 by positivity) h2,
      List.map_injective_iff.mpr hwheel h3]
  have hready : Ready b dr ↔ Ready b' ((units l t m).drivetrain dr) := by
    constructor <;> rintro ⟨r1, r2, r3⟩
    · exact ⟨by rw [h3, r1]; rfl, by rw [h1, h2]; exact r2, by rw [h2]; exact r3⟩
    · refine ⟨?_, by rw [← h1, ← h2]; exact r2, by rw [← h2]; exact r3⟩
      rw [h3] at r1
      exact Option.map_injective hinj r1
  have hradius : (∀ w ∈ ((units l t m).drivetrain dr).modules, w.wheelRadius ≠ 0) ↔
      ∀ w ∈ dr.modules, w.wheelRadius ≠ 0 := by
    simp [Change.drivetrain, Change.wheel, units, hl.ne']
  have key : Obeys (table b') ((units l t m).drivetrain dr) (T.inUnits l t m) ↔
      Obeys (table b) dr T := by
    constructor
    · rintro ⟨o1, o2, o3, o4, o5, o6⟩
      rw [h2] at o1 o2 o3 o4 o5 o6
      refine ⟨fun s hs n hn => (interval_units hl ht _ _ _).mp (o1 s hs n hn),
        fun n hn => (dynamics_units hl ht hm dr _ _).mp (o2 n hn),
        fun s hs => nonneg_of_mul_nonneg_right (o3 s hs) ht,
        fun s hs => (units_cap hl ht dr _).mp (o4 s hs), fun w hw c hcw => ?_,
        fun s hs c hcs n hn => ?_⟩
      · refine (meaning_units (m := m) hl ht c (hi w hw c hcw) _).mp (o5 w hw _ ?_)
        rw [h4]; exact List.mem_map_of_mem hcw
      · refine (meaning_units (m := m) hl ht c (hc s hs c hcs) _).mp (o6 s hs _ ?_ n hn)
        rw [h5]; exact List.mem_map_of_mem hcs
    · rintro ⟨o1, o2, o3, o4, o5, o6⟩
      refine ⟨?_, ?_, ?_, ?_, ?_, ?_⟩ <;> rw [h2]
      · exact fun s hs n hn => (interval_units hl ht _ _ _).mpr (o1 s hs n hn)
      · exact fun n hn => (dynamics_units hl ht hm dr _ _).mpr (o2 n hn)
      · exact fun s hs => mul_nonneg ht.le (o3 s hs)
      · exact fun s hs => (units_cap hl ht dr _).mpr (o4 s hs)
      · intro w hw c hcw
        rw [h4] at hcw
        obtain ⟨c, hc', rfl⟩ := List.mem_map.mp hcw
        exact (meaning_units hl ht c (hi w hw c hc') _).mpr (o5 w hw c hc')
      · intro s hs c hcs n hn
        rw [h5] at hcs
        obtain ⟨c, hc', rfl⟩ := List.mem_map.mp hcs
        exact (meaning_units hl ht c (hc s hs c hc') _).mpr (o6 s hs c hc' n hn)
  constructor
  · intro h
    exact (solves_iff hreach' (hready.mp h.ready) (hradius.mpr h.radius)).mpr (key.mpr h.obeys)
  · intro h
    exact (solves_iff hreach (hready.mpr h.ready) (hradius.mp h.radius)).mpr (key.mp h.obeys)

theorem timeTaken_units (l t m : ℝ) (N : List ℕ) (T : Traj) :
    timeTaken N (T.inUnits l t m) = t * timeTaken N T := by
  simp only [timeTaken, Traj.inUnits, Finset.mul_sum]
  exact Finset.sum_congr rfl fun s _ => by ring

theorem inUnits_surjective {l t m : ℝ} (hl : 0 < l) (ht : 0 < t) (hm : 0 < m) (T : Traj) :
    ∃ T₀ : Traj, T₀.inUnits l t m = T := by
  have hl' : (l : ℂ) ≠ 0 := by exact_mod_cast hl.ne'
  have ht' : (t : ℂ) ≠ 0 := by exact_mod_cast ht.ne'
  have hm' : (m : ℂ) ≠ 0 := by exact_mod_cast hm.ne'
  refine ⟨T.inUnits l⁻¹ t⁻¹ m⁻¹, ?_⟩
  apply Traj.ext
  · funext n
    simp only [Traj.inUnits, State.inUnits]
    cases T.state n
    simp only [State.mk.injEq, true_and]
    push_cast
    refine ⟨by field_simp, by field_simp, by field_simp, by field_simp, by field_simp⟩
  · funext n j
    simp only [Traj.inUnits]
    push_cast
    field_simp
  · funext s
    simp only [Traj.inUnits]
    field_simp

/-- C80: the fastest trajectory stays the fastest, and takes as long as before. -/
theorem C80_fastest_partial (l t m : ℝ) (hl : 0 < l) (ht : 0 < t) (hm : 0 < m) (asserts : Bool)
    (ops : List (Op ℝ)) (dr : SwerveDrivetrain ℝ) (T : Traj)
    (hi : ∀ w ≤ (table (run asserts ops Builder.new)).counts.length,
      ∀ c ∈ (table (run asserts ops Builder.new)).instant w, NoLine c)
    (hc : ∀ s < (table (run asserts ops Builder.new)).counts.length,
      ∀ c ∈ (table (run asserts ops Builder.new)).continuous s, NoLine c)
    (b b' : Builder ℝ) (hb : b = run asserts ops Builder.new)
    (hb' : b' = run asserts (ops.map (units l t m).op) Builder.new) :
    timeTaken (table b').counts (T.inUnits l t m) = t * timeTaken (table b).counts T ∧
    (Fastest b dr T ↔ Fastest b' ((units l t m).drivetrain dr) (T.inUnits l t m)) := by
  have h2 := (rel_new (R := units l t m) (units_fits hl) asserts ops).table.2.1
  have iff := fun T => C80_units_partial l t m hl ht hm asserts ops dr T hi hc
  rw [← hb, ← hb'] at h2 iff
  rw [timeTaken_units, h2]
  refine ⟨rfl, ?_⟩
  constructor
  · rintro ⟨hs, hleast⟩
    refine ⟨(iff T).mp hs, fun T' hT' => ?_⟩
    obtain ⟨T₀, rfl⟩ := inUnits_surjective hl ht hm T'
    rw [timeTaken_units, timeTaken_units, h2]
    exact mul_le_mul_of_nonneg_left (hleast _ ((iff T₀).mpr hT')) ht.le
  · rintro ⟨hs, hleast⟩
    refine ⟨(iff T).mpr hs, fun T' hT' => ?_⟩
    have := hleast _ ((iff T').mp hT')
    rw [timeTaken_units, timeTaken_units, h2] at this
    exact le_of_mul_le_mul_left this ht

/-- Stand half a metre from a line and keep a distance from it. -/
noncomputable def lineOps (d : ℝ) : List (Op ℝ) :=
  [.setDrivetrain demoRobot, .poseWpt 0 0 (1 / 2) 0,
    .wptConstraint 0 (.pointLine ⟨0, 0⟩ ⟨0, 0⟩ ⟨1, 0⟩ d)]

theorem line_table (d : ℝ) : let t := table (run true (lineOps d) Builder.new)
    t.waypoints = 1 ∧ t.counts = [] ∧ t.drivetrain = some demoRobot ∧ (∀ s, t.continuous s = []) ∧
    ∀ w, t.instant w = if w = 0 then
      [.poseEquality 0 (1 / 2) 0, .pointLine ⟨0, 0⟩ ⟨0, 0⟩ ⟨1, 0⟩ d] else [] := by
  generalize hd : demoRobot = dr
  have t0 : table (run true [.setDrivetrain dr] (Builder.new : Builder ℝ)) =
      { table (Builder.new : Builder ℝ) with drivetrain := some dr } := rfl
  generalize hb : run true [.setDrivetrain dr] (Builder.new : Builder ℝ) = b at t0
  obtain ⟨b₁, e₁, t₁⟩ := C12_pose_wpt b ⟨true, _, hb.symm⟩ 0 (by norm_num) 0 (1 / 2) 0
  have r₁ := run_snoc hb.symm (op := .poseWpt 0 0 (1 / 2) 0) e₁
  obtain ⟨b₂, e₂, t₂⟩ := C11_wpt_constraint b₁ ⟨true, _, r₁⟩ 0 (by norm_num)
    (.pointLine ⟨0, 0⟩ ⟨0, 0⟩ ⟨1, 0⟩ d)
  have r₂ := run_snoc r₁ (op := .wptConstraint 0 (.pointLine ⟨0, 0⟩ ⟨0, 0⟩ ⟨1, 0⟩ d)) e₂
  have : run true (lineOps d) Builder.new = b₂ := by
    rw [r₂, lineOps, hd]
    rfl
  rw [this, t₂, t₁, t0]
  simp only [PathTable.reach, PathTable.requireAt, PathTable.guessAt]
  refine ⟨by simp [table, Builder.new], by simp [table, Builder.new], trivial,
    by simp [table, Builder.new], ?_⟩
  intro w
  by_cases hw : w = 0
  · simp [hw, table, Builder.new]
  · simp [hw, table, Builder.new]

/-- C80 is refuted by distances from lines: a robot may stand where it is, half a metre from a line, but measured in
units of two metres the same path forbids it. -/
theorem C80_refuted : ∃ (ops : List (Op ℝ)) (dr : SwerveDrivetrain ℝ),
    (∃ T, Solves (run true ops Builder.new) dr T) ∧
    ¬ ∃ T, Solves (run true (ops.map (units (1 / 2) 1 1).op) Builder.new)
      ((units (1 / 2) 1 1).drivetrain dr) T := by
  refine ⟨lineOps (1 / 4), demoRobot, ?_, ?_⟩
  · obtain ⟨h1, h2, h3, h4, h5⟩ := line_table (1 / 4)
    generalize hb : run true (lineOps (1 / 4)) Builder.new = b at h1 h2 h3 h4 h5
    refine ⟨_, C68_rest b ⟨true, _, hb.symm⟩ demoRobot ⟨h3, by rw [h1, h2]; simp,
      by rw [h2]; decide⟩ demo_radius ⟨0, 1 / 2⟩ 1 (by simp) ?_ ?_⟩
    · intro w hw c hc
      obtain rfl : w = 0 := by simpa [h2] using hw
      rw [h5, if_pos rfl] at hc
      simp only [List.mem_cons, List.not_mem_nil, or_false] at hc
      rcases hc with rfl | rfl
      · exact ⟨rfl, .inl (by simp [unitVec])⟩
      · refine ⟨by simp [vec, Complex.ext_iff], ?_⟩
        intro q hq
        have hq0 : q.im = 0 := by
          obtain ⟨a, b, -, -, -, rfl⟩ := hq
          simp [vec]
        have : (1 / 2 : ℝ) ≤ dist q ((⟨⟨0, 1 / 2⟩, 1, 0, 0, 0, 0⟩ : State).onRobot ⟨0, 0⟩) := by
          rw [dist_eq_norm]
          refine le_trans ?_ (Complex.abs_im_le_norm _)
          simp [State.onRobot, vec, hq0]
        rw [abs_of_pos (by norm_num)]
        nlinarith
    · intro s hs
      rw [h2] at hs
      simp at hs
  · rintro ⟨T, hT⟩
    obtain ⟨-, -, -, -, h5⟩ := line_table (1 / 4)
    obtain ⟨-, -, -, h4', -⟩ := (rel_new (R := units (1 / 2) 1 1) (units_fits (by norm_num)) true
      (lineOps (1 / 4))).table
    have ho := hT.obeys
    generalize run true ((lineOps (1 / 4)).map (units (1 / 2) 1 1).op) Builder.new = b' at hT h4' ho
    have e : (table b').instant 0 = [.poseEquality (1 / 2 * 0) (1 / 2 * (1 / 2)) 0,
        .pointLine ⟨1 / 2 * 0, 1 / 2 * 0⟩ ⟨1 / 2 * 0, 1 / 2 * 0⟩ ⟨1 / 2 * 1, 1 / 2 * 0⟩
          (1 / 2 * (1 / 4))] := by
      rw [h4', h5]
      rfl
    have k1 := ho.instant 0 (Nat.zero_le _) _ (by rw [e]; exact List.mem_cons_self ..)
    have k2 := ho.instant 0 (Nat.zero_le _) _ (by
      rw [e]; exact List.mem_cons_of_mem _ (List.mem_cons_self ..))
    generalize T.state _ = s at k1 k2
    have k3 := k2.2 _ (left_mem_segment ℝ _ _)
    rw [show s.onRobot ⟨1 / 2 * 0, 1 / 2 * 0⟩ = s.pos by
      simp [State.onRobot, vec, show (⟨0, 0⟩ : ℂ) = 0 from rfl], k1.1, dist_eq_norm,
      ← Complex.normSq_eq_norm_sq, Complex.normSq_apply] at k3
    norm_num [vec] at k3

/-- The partial theorem applies to the demonstration path. -/
example : ∃ T, Solves (run true (demoOps.map (units 1000 60 1000).op) Builder.new)
    ((units 1000 60 1000).drivetrain demoRobot) T := by
  obtain ⟨h1, h2, h3, h4, h5, h6⟩ := demo_table
  refine ⟨_, (C80_units_partial 1000 60 1000 (by norm_num) (by norm_num) (by norm_num) true demoOps
    demoRobot _ ?_ ?_).mp (demo_solves_flip 1 (.inl rfl))⟩
  · intro w hw c hc
    change w ≤ (table demoBuilder).counts.length at hw
    change c ∈ (table demoBuilder).instant w at hc
    rw [h2] at hw
    have : w = 0 ∨ w = 1 := by simp at hw; omega
    rcases this with rfl | rfl
    · rw [h4] at hc
      simp only [List.mem_cons, List.not_mem_nil, or_false] at hc
      rcases hc with rfl | rfl <;> trivial
    · rw [h5] at hc
      simp only [List.mem_cons, List.not_mem_nil, or_false] at hc
      rcases hc with rfl | rfl <;> trivial
  · intro s hs c hc
    change s < (table demoBuilder).counts.length at hs
    change c ∈ (table demoBuilder).continuous s at hc
    rw [h2] at hs
    obtain rfl : s = 0 := by simpa using hs
    rw [h6.1, List.mem_singleton] at hc
    subst hc
    trivial

end Trajopt.Props
